import Verif.Base.Bytes
/-
Independent specification of PSI sections, from ISO/IEC 13818-1: the CRC decoder model of Annex A (a 32 bit shift register
fed bit by bit, most significant bit first, which must be zero after a whole section), and readers for the section layer,
the program association section and the program map section.
-/
namespace Verif.Ts.Spec
open Verif

/-- Generator polynomial x^32+x^26+x^23+x^22+x^16+x^12+x^11+x^10+x^8+x^7+x^5+x^4+x^2+x+1 without its leading term. -/
def poly : BitVec 32 :=
  [26, 23, 22, 16, 12, 11, 10, 8, 7, 5, 4, 2, 1, 0].foldl (fun a i => a ||| (1#32 <<< i)) 0#32

/-- Shift register step for one message bit. -/
def crcBit (r : BitVec 32) (bit : Bool) : BitVec 32 :=
  if (r.msb ^^ bit) then (r <<< 1) ^^^ poly else r <<< 1

/-- Bits of a byte, most significant first. -/
def bitsOf (b : UInt8) : List Bool := [7, 6, 5, 4, 3, 2, 1, 0].map fun i => b.toNat.testBit i

/-- Register after a message: starts with all ones. -/
def crc (data : Bytes) : BitVec 32 := (data.flatMap bitsOf).foldl crcBit (BitVec.allOnes 32)

/-- A PSI section starting a TS payload: pointer field 0, table id, 12 bit section length, section bytes covered by a CRC that
leaves the register zero; everything after the section is 0xff stuffing. Returns table id and the section without header and
CRC. -/
def readSection (payload : Bytes) : Option (Nat × Bytes) :=
  match payload with
  | 0 :: t :: l1 :: l0 :: rest =>
    let len := l1.toNat % 16 * 256 + l0.toNat
    if l1.toNat / 64 = 2 ∧ 4 ≤ len ∧ len ≤ rest.length ∧ crc (t :: l1 :: l0 :: rest.take len) = 0 ∧ (rest.drop len).all (· == 0xff)
    then some (t.toNat, rest.take (len - 4)) else none
  | _ => none

/-- 188-byte TS packet with payload only, PUSI set: PID and payload. -/
def readPsiPacket (pkt : Bytes) : Option (Nat × Bytes) :=
  match pkt with
  | s :: a :: b :: c :: rest =>
    if pkt.length = 188 ∧ s = 0x47 ∧ a.toNat / 32 = 2 ∧ c.toNat / 16 = 1 then some (a.toNat % 32 * 256 + b.toNat, rest) else none
  | _ => none

/-- Program association: list of (program number, PMT PID). -/
def readPat (pkt : Bytes) : Option (List (Nat × Nat)) :=
  match readPsiPacket pkt with
  | some (0, payload) =>
    match readSection payload with
    | some (0, _ :: _ :: v :: 0 :: 0 :: body) => if v.toNat % 2 = 1 then progs body else none
    | _ => none
  | _ => none
where
  progs : Bytes → Option (List (Nat × Nat))
    | [] => some []
    | a :: b :: c :: d :: r =>
      if c.toNat / 32 = 7 then (progs r).map ((a.toNat * 256 + b.toNat, c.toNat % 32 * 256 + d.toNat) :: ·) else none
    | _ => none

/-- Program map: PMT PID, program number, PCR PID and the elementary streams (stream type, PID); descriptors must be absent. -/
structure Pmt where
  pid : Nat
  program : Nat
  pcrPid : Nat
  streams : List (Nat × Nat)
deriving DecidableEq, Repr

def readPmt (pkt : Bytes) : Option Pmt :=
  match readPsiPacket pkt with
  | some (pid, payload) =>
    match readSection payload with
    | some (2, n1 :: n0 :: v :: 0 :: 0 :: p1 :: p0 :: i1 :: i0 :: body) =>
      if v.toNat % 2 = 1 ∧ p1.toNat / 32 = 7 ∧ i1.toNat / 16 = 15 ∧ i1.toNat % 16 = 0 ∧ i0 = 0 then
        (streams body).map fun ss => ⟨pid, n1.toNat * 256 + n0.toNat, p1.toNat % 32 * 256 + p0.toNat, ss⟩
      else none
    | _ => none
  | _ => none
where
  streams : Bytes → Option (List (Nat × Nat))
    | [] => some []
    | t :: p1 :: p0 :: i1 :: i0 :: r =>
      if p1.toNat / 32 = 7 ∧ i1.toNat / 16 = 15 ∧ i1.toNat % 16 = 0 ∧ i0 = 0 then
        (streams r).map ((t.toNat, p1.toNat % 32 * 256 + p0.toNat) :: ·)
      else none
    | _ => none

end Verif.Ts.Spec
