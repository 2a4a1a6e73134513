import Verif.Base.Bytes
/-
A reader of fragmented MP4 files, after ISO/IEC 14496-12: boxes (4.2), movie fragments (8.8.4-8.8.8, 8.8.12). Only what such a reader does: it knows nothing
of the program that wrote the file. Sizes 0 and 1 (to the end of the file, 64 bits) are not supported.
-/
namespace Verif.Mp4
open Verif

/-- A box: where it begins, its type, what is inside. -/
structure Box where
  off : Nat
  type : Bytes
  body : Bytes
  deriving DecidableEq

/-- The boxes of a file, or of the inside of a box; they fill it. -/
def boxesFrom : Nat → Nat → Bytes → Option (List Box)
  | _, _, [] => some []
  | 0, _, _ :: _ => none
  | n + 1, off, l =>
    let size := beDec (l.take 4)
    if l.length < 8 ∨ size < 8 ∨ l.length < size then none
    else (boxesFrom n (off + size) (l.drop size)).map (⟨off, (l.drop 4).take 4, (l.drop 8).take (size - 8)⟩ :: ·)

def boxes (l : Bytes) : Option (List Box) := boxesFrom l.length 0 l

/-- The box of a type; there has to be exactly one. -/
def the (t : Bytes) (bs : List Box) : Option Box :=
  match bs.filter (fun b => b.type == t) with
  | [b] => some b
  | _ => none

def num (k : Nat) (l : Bytes) : Option (Nat × Bytes) := if l.length < k then none else some (beDec (l.take k), l.drop k)

/-- Version (8 bits) and flags (24 bits) of a full box. -/
def verFlags (l : Bytes) : Option (Nat × Nat × Bytes) := (num 4 l).map fun p => (p.1 / 2 ^ 24, p.1 % 2 ^ 24, p.2)

/-- A field that is there if a flag is set. -/
def optNum (c : Bool) (l : Bytes) : Option (Option Nat × Bytes) := if c then (num 4 l).map fun p => (some p.1, p.2) else some (none, l)

/-- A sample of a `trun` (8.8.8.2). -/
structure Entry where
  duration : Option Nat
  size : Option Nat
  flags : Option Nat
  offset : Option Nat
  deriving DecidableEq

def entry (flags : Nat) (l : Bytes) : Option (Entry × Bytes) :=
  (optNum (flags.testBit 8) l).bind fun d => (optNum (flags.testBit 9) d.2).bind fun s => (optNum (flags.testBit 10) s.2).bind fun f =>
    (optNum (flags.testBit 11) f.2).map fun c => (⟨d.1, s.1, f.1, c.1⟩, c.2)

def entries (flags : Nat) : Nat → Bytes → Option (List Entry)
  | 0, l => if l = [] then some [] else none
  | n + 1, l => (entry flags l).bind fun p => (entries flags n p.2).map (p.1 :: ·)

structure Run where
  dataOffset : Option Nat
  firstFlags : Option Nat
  list : List Entry
  deriving DecidableEq

/-- The inside of a `trun`: version and flags, count, offset, flags of the first sample, samples. -/
def readRun (l : Bytes) : Option Run :=
  (verFlags l).bind fun f => (num 4 f.2.2).bind fun c => (optNum (f.2.1.testBit 0) c.2).bind fun o => (optNum (f.2.1.testBit 2) o.2).bind fun ff =>
    (entries f.2.1 c.1 ff.2).map fun es => ⟨o.1, ff.1, es⟩

/-- Time of the first sample: version 0 has 32 bits, version 1 has 64. -/
def readTime (l : Bytes) : Option Nat :=
  (verFlags l).bind fun v => if v.1 = 0 then (num 4 v.2.2).map (·.1) else (num 8 v.2.2).map (·.1)

/-- The base of the data offsets is the beginning of the `moof` (flag default-base-is-moof, no base-data-offset). -/
def baseIsMoof (l : Bytes) : Bool :=
  match verFlags l with
  | some (_, f, _) => f.testBit 17 && !f.testBit 0
  | none => false

/-- Pieces of given sizes. -/
def pieces : List Nat → Bytes → Option (List Bytes)
  | [], _ => some []
  | n :: ns, l => if l.length < n then none else (pieces ns (l.drop n)).map (l.take n :: ·)

/-- A sample as a player gets it. -/
structure Got where
  bytes : Bytes
  duration : Option Nat
  flags : Option Nat
  offset : Option Nat
  deriving DecidableEq

structure Segment where
  sequence : Nat
  time : Nat
  samples : List Got
  deriving DecidableEq

def str (s : String) : Bytes := s.toList.map fun c => UInt8.ofNat c.toNat

/-- A media segment with one fragment of one track. The data of the samples has to be in the `mdat`. -/
def readSegment (file : Bytes) : Option Segment :=
  (boxes file).bind fun top => (the (str "moof") top).bind fun moof => (the (str "mdat") top).bind fun mdat =>
  (boxes moof.body).bind fun inner => (the (str "mfhd") inner).bind fun mfhd => (the (str "traf") inner).bind fun traf =>
  (boxes traf.body).bind fun tb => (the (str "tfhd") tb).bind fun tfhd => (the (str "tfdt") tb).bind fun tfdt => (the (str "trun") tb).bind fun trun =>
  (readRun trun.body).bind fun run => (readTime tfdt.body).bind fun time => (num 4 (mfhd.body.drop 4)).bind fun seq =>
  if baseIsMoof tfhd.body then
    run.dataOffset.bind fun off =>
    let start := moof.off + off
    let sizes := run.list.filterMap (·.size)
    if sizes.length = run.list.length ∧ mdat.off + 8 ≤ start ∧ start + sizes.sum ≤ mdat.off + 8 + mdat.body.length then
      (pieces sizes (file.drop start)).map fun ps => ⟨seq.1, time, (run.list.zip ps).map fun p => ⟨p.2, p.1.duration, p.1.flags, p.1.offset⟩⟩
    else none
  else none

/-- An index of one reference (8.16.3): from the end of the `sidx`, the offset and size of what it points to, and its length. -/
structure Index where
  timescale : Nat
  earliest : Nat
  from_ : Nat
  size : Nat
  duration : Nat
  deriving DecidableEq

def readIndex (file : Bytes) : Option Index :=
  (boxes file).bind fun top => (the (str "sidx") top).bind fun b =>
  (verFlags b.body).bind fun v => if v.1 ≠ 0 then none else
  (num 4 v.2.2).bind fun id => (num 4 id.2).bind fun ts => (num 4 ts.2).bind fun e => (num 4 e.2).bind fun fo =>
  (num 2 fo.2).bind fun r => (num 2 r.2).bind fun n => if n.1 ≠ 1 then none else
  (num 4 n.2).bind fun sz => (num 4 sz.2).map fun d => ⟨ts.1, e.1, b.off + 8 + b.body.length + fo.1, sz.1 % 2 ^ 31, d.1⟩

end Verif.Mp4
