import Verif.TsIn.ReadSpec
/-
What a transport stream that is written has to be: packets with nothing in them that is not needed, after ISO/IEC 13818-1 (2.4.3.2, 2.4.3.4, 2.4.4).
Of reserved bits nothing is asked here.
-/
namespace Verif.TsIn.Spec
open Verif

/-- An adaptation field after its length: only the random access indicator (0x40) and a clock (0x10) whose extension is less than 300; then stuffing. -/
def exactAdaptation : Bytes → Option (Bool × Option Nat)
  | [] => some (false, none)
  | fl :: r =>
    if fl = 0x00 ∨ fl = 0x40 then (if r.all (· == 0xff) then some (fl == 0x40, none) else none)
    else if fl = 0x10 ∨ fl = 0x50 then
      match r with
      | b0 :: b1 :: b2 :: b3 :: b4 :: b5 :: s =>
        if s.all (· == 0xff) ∧ b4.toNat % 2 * 256 + b5.toNat < 300 then (readPcr [b0, b1, b2, b3, b4, b5]).map fun v => (fl == 0x50, some v) else none
      | _ => none
    else none

/-- A packet with payload: no error, no priority, not scrambled. -/
def exactPkt (b : Bytes) : Option Pkt :=
  match b with
  | s :: a :: p :: c :: rest =>
    if b.length = 188 ∧ s = 0x47 ∧ a.toNat / 128 = 0 ∧ a.toNat / 32 % 2 = 0 ∧ c.toNat / 64 = 0 then
      let pusi : Bool := a.toNat / 64 % 2 = 1
      let pid := a.toNat % 32 * 256 + p.toNat
      let cc := c.toNat % 16
      if c.toNat / 16 = 1 then some ⟨pusi, pid, cc, false, none, rest⟩
      else if c.toNat / 16 = 3 then
        match rest with
        | l :: r =>
          if l.toNat ≤ 182 then (exactAdaptation (r.take l.toNat)).map fun af => ⟨pusi, pid, cc, af.1, af.2, r.drop l.toNat⟩
          else none
        | [] => none
      else none
    else none
  | _ => none

def exactAll : List Bytes → Option (List Pkt)
  | [] => some []
  | b :: bs => (exactPkt b).bind fun p => (exactAll bs).map (p :: ·)

/-- One unit on a PID: only its first packet starts it and may have the indicator and a clock; counters go on from `cc`. -/
def OneUnit (pid cc : Nat) (rai : Bool) (pcr : Option Nat) : List Pkt → Prop
  | [] => False
  | p :: ps => p.pusi = true ∧ p.rai = rai ∧ p.pcr = pcr ∧ (∀ q ∈ ps, q.pusi = false ∧ q.rai = false ∧ q.pcr = none) ∧
      (∀ q ∈ p :: ps, q.pid = pid) ∧ (p :: ps).map (·.cc) = (List.range (ps.length + 1)).map fun i => (cc + i) % 16

end Verif.TsIn.Spec
