import Verif.Dash.Mp4Spec
/-
A reader of initialization segments, after ISO/IEC 14496-12 (8.3.2, 8.4.2, 8.4.3, 8.5.2, 8.8.3, 12.1.3, 12.2.3), 14496-15 (5.3.4: `avcC`), 14496-14 (`esds`)
and 14496-1 (7.2.6: descriptors, whose lengths have seven bits in a byte).
-/
namespace Verif.Mp4
open Verif

/-- The inside of the only box of a type. -/
def child (t : String) (l : Bytes) : Option Bytes := ((boxes l).bind (the (str t))).map (·.body)

/-- A number at a place. -/
def numAt (off k : Nat) (l : Bytes) : Option Nat := (num k (l.drop off)).map (·.1)

/-- What an initialization segment says of its track. -/
structure Init where
  timescale : Nat
  track : Nat
  fragmentTrack : Nat
  handler : Bytes
  format : Bytes
  entry : Bytes
  deriving DecidableEq

def readInit (file : Bytes) : Option Init :=
  (child "moov" file).bind fun moov => (child "mvex" moov).bind fun mvex => (child "trex" mvex).bind fun trex => (child "trak" moov).bind fun trak =>
  (child "tkhd" trak).bind fun tkhd => (child "mdia" trak).bind fun mdia => (child "mdhd" mdia).bind fun mdhd => (child "hdlr" mdia).bind fun hdlr =>
  (child "minf" mdia).bind fun minf => (child "stbl" minf).bind fun stbl => (child "stsd" stbl).bind fun stsd =>
  (numAt 12 4 mdhd).bind fun ts => (numAt 12 4 tkhd).bind fun id => (numAt 4 4 trex).bind fun tid =>
  match boxes (stsd.drop 8) with
  | some [e] => if numAt 4 4 stsd = some 1 then some ⟨ts, id, tid, (hdlr.drop 8).take 4, e.type, e.body⟩ else none
  | _ => none

/-- A picture: its size and the configuration of the decoder. -/
structure Picture where
  width : Nat
  height : Nat
  config : Bytes
  deriving DecidableEq

def readPicture (entry : Bytes) : Option Picture :=
  (numAt 24 2 entry).bind fun w => (numAt 26 2 entry).bind fun h => (child "avcC" (entry.drop 78)).map fun c => ⟨w, h, c⟩

/-- The length of a descriptor. -/
def descLen : Nat → Nat → Bytes → Option (Nat × Bytes)
  | 0, _, _ => none
  | _, _, [] => none
  | k + 1, acc, b :: l => if b.toNat < 128 then some (acc * 128 + b.toNat, l) else descLen k (acc * 128 + (b.toNat - 128)) l

/-- A descriptor with a given tag: what is inside, and what comes after it. -/
def desc (t : UInt8) : Bytes → Option (Bytes × Bytes)
  | [] => none
  | b :: l => if b ≠ t then none else (descLen 4 0 l).bind fun p => if p.2.length < p.1 then none else some (p.2.take p.1, p.2.drop p.1)

/-- Sound: channels, rate (16.16), and the configuration of the decoder. -/
structure Sound where
  channels : Nat
  rate : Nat
  config : Bytes
  deriving DecidableEq

/-- The configuration in an `esds`: ES descriptor, DecoderConfig, DecoderSpecificInfo; the descriptors have to fill what they are in. -/
def readEsds (l : Bytes) : Option Bytes :=
  (desc 3 (l.drop 4)).bind fun es => if es.2 ≠ [] then none else
  (desc 4 (es.1.drop 3)).bind fun dc => (desc 6 dc.2).bind fun sl => if sl.2 ≠ [] then none else
  (desc 5 (dc.1.drop 13)).bind fun dsi => if dsi.2 ≠ [] then none else some dsi.1

def readSound (entry : Bytes) : Option Sound :=
  (numAt 16 2 entry).bind fun ch => (numAt 24 4 entry).bind fun r => (child "esds" (entry.drop 28)).bind fun e =>
  (readEsds e).map fun c => ⟨ch, r / 65536, c⟩

end Verif.Mp4
