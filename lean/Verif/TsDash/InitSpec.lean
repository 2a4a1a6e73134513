import Verif.Dash.InitSpec
/-
Readers of what is in the sample entries of initialization segments: AVCDecoderConfigurationRecord (ISO/IEC 14496-15, 5.3.3.1), ES descriptors (14496-1, 7.2.6), AudioSpecificConfig (14496-3, 1.6.2.1).
They know nothing of the program. The boxes around them are read by `Mp4.readInit`.
-/
namespace Verif.TsDash.Spec
open Verif Verif.Mp4

/-- A parameter set behind its length -/
def readSet (l : Bytes) : Option (Bytes × Bytes) := (num 2 l).bind fun p => if p.2.length < p.1 then none else some (p.2.take p.1, p.2.drop p.1)

def readSets : Nat → Bytes → Option (List Bytes × Bytes)
  | 0, l => some ([], l)
  | n + 1, l => (readSet l).bind fun x => (readSets n x.2).map fun y => (x.1 :: y.1, y.2)

/-- `ext` is what comes behind the parameter sets, for some profiles -/
structure AvcConf where
  profile : Nat
  compat : Nat
  level : Nat
  lengthSize : Nat
  sps : List Bytes
  pps : List Bytes
  ext : Bytes
  deriving DecidableEq

def readAvcConf : Bytes → Option AvcConf
  | v :: pr :: co :: le :: ls :: n :: l =>
    if v ≠ 1 then none
    else
      (readSets (n.toNat % 32) l).bind fun s =>
        match s.2 with
        | [] => none
        | m :: l => (readSets m.toNat l).map fun p => ⟨pr.toNat, co.toNat, le.toNat, ls.toNat % 4 + 1, s.1, p.1, p.2⟩
  | _ => none

/-- What an ES descriptor says of a decoder -/
structure Decoder where
  object : Nat
  streamType : Nat
  maxRate : Nat
  rate : Nat
  info : Option Bytes
  deriving DecidableEq

/-- The descriptor for the decoder: its information is there or not. -/
def readDecoder (l : Bytes) : Option Decoder :=
  (numAt 0 1 l).bind fun o => (numAt 1 1 l).bind fun s => (numAt 5 4 l).bind fun m => (numAt 9 4 l).bind fun a =>
  if l.length = 13 then some ⟨o, s / 4, m, a, none⟩
  else (desc 5 (l.drop 13)).bind fun d => if d.2 ≠ [] then none else some ⟨o, s / 4, m, a, some d.1⟩

/-- An `esds` box: an ES descriptor without options, which has a descriptor of the decoder and one that says that the file format is MP4 (7.3.2.3.1: `predefined` 2). -/
def readEsds (l : Bytes) : Option Decoder :=
  (desc 3 (l.drop 4)).bind fun es =>
  if es.2 ≠ [] ∨ numAt 2 1 es.1 ≠ some 0 then none
  else
    (desc 4 (es.1.drop 3)).bind fun dc => (desc 6 dc.2).bind fun sl =>
    if sl.1 ≠ [2] ∨ sl.2 ≠ [] then none else readDecoder dc.1

/-- Object type, index of the frequency, channels; with neither escapes nor options (frames of 1024 samples) -/
def readAsc (l : Bytes) : Option (Nat × Nat × Nat) :=
  (num 2 l).bind fun p =>
  if p.2 ≠ [] ∨ p.1 / 2048 = 31 ∨ p.1 / 128 % 16 = 15 ∨ p.1 % 8 ≠ 0 then none else some (p.1 / 2048, p.1 / 128 % 16, p.1 / 8 % 16)

/-- A sample entry of pictures that are not H.264: size and decoder -/
def readVisual (entry : Bytes) : Option (Nat × Nat × Decoder) :=
  (numAt 24 2 entry).bind fun w => (numAt 26 2 entry).bind fun h => (child "esds" (entry.drop 78)).bind fun e => (readEsds e).map fun d => (w, h, d)

/-- A sample entry of sound: channels, rate (16.16), decoder -/
def readVoice (entry : Bytes) : Option (Nat × Nat × Decoder) :=
  (numAt 16 2 entry).bind fun c => (numAt 24 4 entry).bind fun r => (child "esds" (entry.drop 28)).bind fun e => (readEsds e).map fun d => (c, r, d)

/-- What the header of a frame of ADTS says (13818-7, 6.2): object type, index of the frequency, channels -/
def adtsSays (l : Bytes) : Option (Nat × Nat × Nat) :=
  match l with
  | _ :: _ :: b2 :: b3 :: _ => some (b2.toNat / 64 + 1, b2.toNat / 4 % 16, b2.toNat % 2 * 4 + b3.toNat / 64)
  | _ => none

/-- Types of streams (13818-1, table 2-34) and of decoders (14496-1, table 5): video of MPEG-1, MPEG-2, MPEG-4; sound of MPEG-1, MPEG-2; AAC -/
def objectTypes : List (Nat × Nat) := [(0x01, 0x6a), (0x02, 0x61), (0x10, 0x20), (0x03, 0x6b), (0x04, 0x69), (0x0f, 0x40)]

end Verif.TsDash.Spec
