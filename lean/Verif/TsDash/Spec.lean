import Verif.Dash.Mp4Spec
import Verif.Hls.AnnexSpec
/-
What DASH segments made of a transport stream have to be: what the units of a stream carry (byte streams of H.264, ISO/IEC 14496-10 Annex B; ADTS, 14496-3; anything else), where segments may be cut,
and a reader of media segments after ISO/IEC 14496-12. It knows nothing of the program.
-/
namespace Verif.TsDash.Spec
open Verif Verif.Mp4

/-- A unit: the times of a PES packet, whether one may start with it, what is in it -/
structure U where
  pts : Nat
  dts : Nat
  key : Bool
  bytes : Bytes
  deriving DecidableEq

/-- A sample; `offset` is when it is shown, after its time -/
structure Sample where
  bytes : Bytes
  dts : Nat
  offset : Nat
  key : Bool
  deriving DecidableEq

/-- `a - b` with 32 bits -/
def wrap (a b : Nat) : Nat := (((a : Int) - b) % (2 ^ 32 : Nat)).toNat

/-- A byte stream (14496-10 B.1.1): each unit behind at least two zeros and a 1; zeros at the end -/
def byteStream (us : List (Nat × Bytes)) (tail : Nat) : Bytes := us.flatMap (fun n => List.replicate (n.1 + 2) 0 ++ (1 :: n.2)) ++ List.replicate tail 0

/-- Parameter sets -/
def isSps (n : Bytes) : Bool := Annex.nalType n == some 7
def isPps (n : Bytes) : Bool := Annex.nalType n == some 8

/-- What goes into a sample (14496-15, 5.3.4.2): all units but parameter sets, which are in the initialization segment -/
def inSample (n : Bytes) : Bool := !isSps n && !isPps n

/-- A frame of ADTS: header (with the CRC if there is one) and data -/
structure Frame where
  head : Bytes
  raw : Bytes
  deriving DecidableEq

/-- The header has 9 bytes, or 7 if `protection_absent`, and says how long the frame is and the index of the sampling frequency. -/
def Frame.Ok (f : Frame) (index : Nat) : Prop :=
  ∃ b0 b1 b2 b3 b4 b5 rest, f.head = b0 :: b1 :: b2 :: b3 :: b4 :: b5 :: rest ∧ f.head.length = (if b1.toNat % 2 = 1 then 7 else 9) ∧
    b3.toNat % 4 * 2048 + b4.toNat * 8 + b5.toNat / 32 = f.head.length + f.raw.length ∧ b2.toNat / 4 % 16 = index

/-- Sampling frequencies (14496-3, table 1.16) -/
def frequencies : List Nat := [96000, 88200, 64000, 48000, 44100, 32000, 24000, 22050, 16000, 12000, 11025, 8000, 7350]

/-- Samples of frames: each has 1024 times the length of one of sound. -/
def sounds (u : U) (freq : Nat) : Nat → List Frame → List Sample
  | _, [] => []
  | i, f :: fs => ⟨f.raw, u.dts + 90000 * 1024 * i / freq, wrap u.pts u.dts, u.key⟩ :: sounds u freq (i + 1) fs

inductive Kind where
  | avc
  | aac (index : Nat)
  | other

/-- The samples that a unit carries. For H.264 `nals` are its units. -/
def Carries (k : Kind) (u : U) (nals : List Bytes) (l : List Sample) : Prop :=
  match k with
  | .avc => ∃ us tail, us ≠ [] ∧ (∀ n ∈ us, Annex.Nal n.2) ∧ u.bytes = byteStream us tail ∧ nals = us.map (·.2) ∧
      l = [⟨Annex.lenPrefixed 4 (nals.filter inSample), u.dts, wrap u.pts u.dts, u.key⟩]
  | .aac index => ∃ fs freq, frequencies[index]? = some freq ∧ (∀ f ∈ fs, f.Ok index) ∧ u.bytes = fs.flatMap (fun f => f.head ++ f.raw) ∧ nals = [] ∧ l = sounds u freq 0 fs
  | .other => nals = [] ∧ l = [⟨u.bytes, u.dts, wrap u.pts u.dts, u.key⟩]

/-- What the type of a stream says (13818-1, table 2-34) -/
def OfType (type : Nat) : Kind → Prop
  | .avc => type = 0x1b
  | .aac _ => type = 0x0f
  | .other => type ≠ 0x1b ∧ type ≠ 0x0f

/-! ### Where segments are cut -/

/-- Settings, in ticks and bytes; 0 is no limit of the size -/
structure Rules where
  min : Nat
  max : Nat
  size : Nat
  video : Bool

/-- A unit with its samples -/
structure Item where
  u : U
  samples : List Sample

/-- How large a segment is: fields and data of samples -/
def weight (video : Bool) (p : List Item) : Nat := ((p.flatMap (·.samples)).map fun s => (if video then 16 else 8) + s.bytes.length).sum

/-- The time from the start of the segment on -/
def since (p : List Item) (u : U) : Option Int := p.head?.map fun i => (u.dts : Int) - i.u.dts

/-- A segment ends before a unit: it lasts long enough and (sound, or a unit to start with, or very long), or it is too large. -/
def Ends (R : Rules) (p : List Item) (u : U) : Prop :=
  ∃ d, since p u = some d ∧ ((R.min ≤ d ∧ (R.video = false ∨ u.key = true ∨ R.max ≤ d)) ∨ (R.size ≠ 0 ∧ R.size ≤ weight R.video p))

/-- Items one after the other, cut into segments: a segment goes on as long as it does not end. -/
structure Cuts (R : Rules) (parts : List (List Item)) : Prop where
  hSome : ∀ p ∈ parts, p ≠ []
  hWhole : ∀ p ∈ parts, ∀ a i b, p = a ++ i :: b → a ≠ [] → ¬ Ends R a i.u
  hEnds : ∀ a p q b, parts = a ++ p :: q :: b → ∃ i, q.head? = some i ∧ Ends R p i.u

/-! ### Media segments -/

/-- Data offsets count from the start of the `moof`: for the first track of a fragment, unless there is a base (8.8.7.1). -/
def fromMoof (l : Bytes) : Bool :=
  match verFlags l with
  | some (_, f, _) => !f.testBit 0
  | none => false

/-- A media segment with one fragment of one track. The data of the samples has to be in the `mdat`. -/
def readMedia (file : Bytes) : Option Segment :=
  (boxes file).bind fun top => (the (str "moof") top).bind fun moof => (the (str "mdat") top).bind fun mdat =>
  (boxes moof.body).bind fun inner => (the (str "mfhd") inner).bind fun mfhd => (the (str "traf") inner).bind fun traf =>
  (boxes traf.body).bind fun tb => (the (str "tfhd") tb).bind fun tfhd => (the (str "tfdt") tb).bind fun tfdt => (the (str "trun") tb).bind fun trun =>
  (readRun trun.body).bind fun run => (readTime tfdt.body).bind fun time => (num 4 (mfhd.body.drop 4)).bind fun seq =>
  if fromMoof tfhd.body then
    run.dataOffset.bind fun off =>
    let start := moof.off + off
    let sizes := run.list.filterMap (·.size)
    if sizes.length = run.list.length ∧ mdat.off + 8 ≤ start ∧ start + sizes.sum ≤ mdat.off + 8 + mdat.body.length then
      (pieces sizes (file.drop start)).map fun ps => ⟨seq.1, time, (run.list.zip ps).map fun p => ⟨p.2, p.1.duration, p.1.flags, p.1.offset⟩⟩
    else none
  else none

/-- An index of one reference, with times of 64 bits (8.16.3) -/
def readIndex (file : Bytes) : Option Index :=
  (boxes file).bind fun top => (the (str "sidx") top).bind fun b =>
  (verFlags b.body).bind fun v => if v.1 ≠ 1 then none else
  (num 4 v.2.2).bind fun id => (num 4 id.2).bind fun ts => (num 8 ts.2).bind fun e => (num 8 e.2).bind fun fo =>
  (num 2 fo.2).bind fun r => (num 2 r.2).bind fun n => if n.1 ≠ 1 then none else
  (num 4 n.2).bind fun sz => (num 4 sz.2).map fun d => ⟨ts.1, e.1, b.off + 8 + b.body.length + fo.1, sz.1 % 2 ^ 31, d.1⟩

/-- How long samples last: up to the next; the last one up to `next`, or not at all if that is not after it -/
def durations (next : Nat) : List Sample → List Nat
  | [] => []
  | [s] => [if 0 < wrap next s.dts ∧ wrap next s.dts < 2 ^ 31 then wrap next s.dts else 0]
  | s :: t :: r => wrap t.dts s.dts :: durations next (t :: r)

/-- A sample as a player has to get it -/
def got (video : Bool) (s : Sample) (d : Nat) : Got :=
  ⟨s.bytes, some d, if video then some (if s.key then 0 else 0x10000) else none, if video then some s.offset else none⟩

/-- A segment as a player has to read it: number, time, samples; `next` is the time of the unit after it. -/
def segmentOf (video : Bool) (number : Nat) (p : List Item) (next : Nat) : Option Segment :=
  p.head?.map fun i => ⟨number % 2 ^ 32, i.u.dts, ((p.flatMap (·.samples)).zip (durations next (p.flatMap (·.samples)))).map fun x => got video x.1 x.2⟩

/-- The index of a file: when the first unit is shown, how long the segment lasts (up to the unit after it), where the fragment is: from the `moof` up to the end of the file. -/
def Indexed (p : List Item) (next : Nat) (f : Bytes) : Prop :=
  ∃ ix i top m, readIndex f = some ix ∧ p.head? = some i ∧ ix.timescale = 90000 ∧ ix.earliest = i.u.pts ∧ ix.duration = wrap next i.u.dts ∧ ix.from_ + ix.size = f.length ∧
    boxes f = some top ∧ the (str "moof") top = some m ∧ m.off = ix.from_

/-- A file holds a segment: it is named after its time, a player reads it as this segment, its index is right. -/
def Holds (video : Bool) (number : Nat) (p : List Item) (next : Nat) (f : Nat × Bytes) : Prop :=
  p.head?.map (·.u.dts) = some f.1 ∧ segmentOf video number p next ≠ none ∧ readMedia f.2 = segmentOf video number p next ∧ Indexed p next f.2

/-- The files of segments, from a number on; each ends where the next begins. The last one has no file, unless it is known when it ends. -/
def Files (video : Bool) : Nat → List (List Item) → Option Nat → List (Nat × Bytes) → Prop
  | _, [], _, fs => fs = []
  | _, [_], none, fs => fs = []
  | n, [p], some t, fs => ∃ f, fs = [f] ∧ Holds video n p t f
  | n, p :: q :: ps, last, fs => ∃ f fs' t, fs = f :: fs' ∧ q.head?.map (·.u.dts) = some t ∧ Holds video n p t f ∧ Files video (n + 1) (q :: ps) last fs'

/-- The units of a sample (14496-15, 5.3.4.2): each behind its length in 4 bytes -/
def readUnits : Nat → Bytes → Option (List Bytes)
  | _, [] => some []
  | 0, _ :: _ => none
  | n + 1, l => (num 4 l).bind fun x => if x.2.length < x.1 then none else (readUnits n (x.2.drop x.1)).map (x.2.take x.1 :: ·)

/-- Times do not go back, up to `next`, and there are no gaps of many hours. -/
def Ordered (next : Nat) : List Sample → Prop
  | [] => True
  | [s] => s.dts < next ∧ next < s.dts + 2 ^ 31
  | s :: t :: r => s.dts ≤ t.dts ∧ t.dts < s.dts + 2 ^ 32 ∧ Ordered next (t :: r)

/-- The time line of a ring of `n` segments: what is known of the last `n` that ended, when each began and how long it lasted -/
def TimeLine (n : Nat) (parts : List (List Item)) (ring : List (Nat × Nat)) : Prop :=
  ring.length = n ∧ ∀ a p q b i j, parts = a ++ p :: q :: b → b.length < n → p.head? = some i → q.head? = some j → i.u.dts ≤ j.u.dts → ring[a.length % n]? = some (i.u.dts, j.u.dts - i.u.dts)

end Verif.TsDash.Spec
