import Verif.Base.Bytes
/- What an H.264 byte stream (ISO/IEC 14496-10 Annex B) and its source, the FLV/MP4 form (ISO/IEC 14496-15), are. Independent of the model. -/
namespace Verif.Annex
open Verif

/-- Zero bytes, then a start code prefix 00 00 01. -/
def prefixed : Bytes → Option Bytes
  | 0 :: 0 :: 1 :: r => some r
  | 0 :: r => prefixed r
  | _ => none

/-- A NAL unit ends in front of 00 00 00 or 00 00 01, or at the end. -/
def unit : Bytes → Bytes × Bytes
  | 0 :: 0 :: 0 :: r => ([], 0 :: 0 :: 0 :: r)
  | 0 :: 0 :: 1 :: r => ([], 0 :: 0 :: 1 :: r)
  | [] => ([], [])
  | x :: r => (x :: (unit r).1, (unit r).2)

/-- Decoder: the NAL units of a byte stream. -/
def decode : Nat → Bytes → Option (List Bytes)
  | _, [] => some []
  | 0, _ => none
  | f + 1, b =>
    match prefixed b with
    | none => none
    | some r => (decode f (unit r).2).map ((unit r).1 :: ·)

/-- The NAL units in the byte stream `b`. -/
def decoded (b : Bytes) : Option (List Bytes) := decode (b.length + 1) b

/-- nal_unit_type -/
def nalType : Bytes → Option Nat
  | [] => none
  | t :: _ => some (t.toNat % 32)

/-- No 00 00 00 and no 00 00 01 inside (what emulation prevention is for). -/
def noStart : Bytes → Bool
  | 0 :: 0 :: 0 :: _ => false
  | 0 :: 0 :: 1 :: _ => false
  | [] => true
  | _ :: r => noStart r

/-- A NAL unit: not empty, without start codes, the last byte is not 0 (7.4.1). -/
def Nal (n : Bytes) : Prop := n ≠ [] ∧ noStart n = true ∧ n.getLast? ≠ some 0

instance (n : Bytes) : Decidable (Nal n) := inferInstanceAs (Decidable (_ ∧ _ ∧ _))

/-- NAL units, each behind its length in `k` bytes. -/
def lenPrefixed (k : Nat) (ns : List Bytes) : Bytes := ns.flatMap (fun n => beEnc k n.length ++ n)

/-- A codec header message: 5 bytes of FLV, AVCDecoderConfigurationRecord. -/
structure Params where
  head : Bytes
  flags : Nat
  sps : List Bytes
  pps : List Bytes
  ext : Bytes

structure Params.Ok (p : Params) : Prop where
  hHead : p.head.length = 10
  hFlags : p.flags < 8
  hSps : p.sps.length < 32
  hPps : p.pps.length < 256
  hNal : ∀ n ∈ p.sps ++ p.pps, Nal n ∧ n.length < 65536
  hSpsTy : ∀ n ∈ p.sps, nalType n = some 7
  hPpsTy : ∀ n ∈ p.pps, nalType n = some 8

def Params.bytes (p : Params) : Bytes :=
  p.head ++ beEnc 1 (p.flags * 32 + p.sps.length) ++ lenPrefixed 2 p.sps ++ beEnc 1 p.pps.length ++ lenPrefixed 2 p.pps ++ p.ext

/-- Parameter sets and delimiters are left out of the source. -/
def kept (n : Bytes) : Bool := nalType n != some 7 && nalType n != some 8 && nalType n != some 9

/-- The access unit made of the NAL units `src`. -/
structure AccessUnit (p : Params) (src dst : List Bytes) : Prop where
  /-- nothing is lost, added, changed or reordered -/
  hKept : dst.filter kept = src.filter kept
  /-- whatever else there is: one delimiter, and parameter sets of the codec header -/
  hOnly : ∀ n ∈ dst, kept n = false → n = [0x09, 0xf0] ∨ n ∈ p.sps ++ p.pps
  hAud : dst.count [0x09, 0xf0] ≤ 1
  /-- the delimiter comes first -/
  hFirst : ∀ n, (src.filter kept).head? = some n → nalType n = some 1 ∨ nalType n = some 5 ∨ nalType n = some 6 → dst.head? = some [0x09, 0xf0]
  /-- in front of an IDR slice there are all parameter sets, and no non-IDR slice between them -/
  hParams : ∀ a n b, dst = a ++ n :: b → nalType n = some 5 → ∃ a1 a2, a = a1 ++ (p.sps ++ p.pps) ++ a2 ∧ ∀ m ∈ a2, nalType m ≠ some 1

/-- Bytes the access unit needs. -/
def cost (ns : List Bytes) : Nat := (ns.map (fun n => n.length + 4)).sum

def isIdr (n : Bytes) : Bool := nalType n == some 5

def room (p : Params) (src : List Bytes) : Nat := 6 + (src.filter isIdr).length * cost (p.sps ++ p.pps) + cost src + 2

end Verif.Annex
