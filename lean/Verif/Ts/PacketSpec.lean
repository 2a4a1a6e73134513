import Verif.Base.Bytes
/-
Independent specification: a demultiplexer for MPEG transport streams after ISO/IEC 13818-1 (2.4.3 transport packets and
adaptation fields, 2.4.3.6 PES packets), strict about everything it reads.
-/
namespace Verif.Ts.Spec
open Verif

/-- A parsed transport packet. -/
structure Pkt where
  pusi : Bool
  pid : Nat
  cc : Nat
  rai : Bool
  pcr : Option (Nat × Nat)
  payload : Bytes
deriving DecidableEq, Repr

/-- PCR: 33 bit base, 6 reserved bits that are ones, 9 bit extension. -/
def readPcr : Bytes → Option (Nat × Nat)
  | [b0, b1, b2, b3, b4, b5] =>
    if b4.toNat / 2 % 64 = 63 then
      some (b0.toNat * 2 ^ 25 + b1.toNat * 2 ^ 17 + b2.toNat * 2 ^ 9 + b3.toNat * 2 + b4.toNat / 128, b4.toNat % 2 * 256 + b5.toNat)
    else none
  | _ => none

/-- Contents of an adaptation field: only random access indicator (0x40) and PCR flag (0x10) are known; stuffing is 0xff. -/
def readAdaptation : Bytes → Option (Bool × Option (Nat × Nat))
  | [] => some (false, none)
  | fl :: r =>
    if fl = 0x00 ∨ fl = 0x40 then (if r.all (· == 0xff) then some (fl == 0x40, none) else none)
    else if fl = 0x10 ∨ fl = 0x50 then
      (if (r.drop 6).all (· == 0xff) then (readPcr (r.take 6)).map fun p => (fl == 0x50, some p) else none)
    else none

/-- One transport packet. -/
def readPkt (b : Bytes) : Option Pkt :=
  match b with
  | s :: a :: p :: c :: rest =>
    if b.length = 188 ∧ s = 0x47 ∧ a.toNat / 128 = 0 ∧ a.toNat / 32 % 2 = 0 ∧ c.toNat / 64 = 0 then
      let pusi : Bool := a.toNat / 64 % 2 = 1
      let pid := a.toNat % 32 * 256 + p.toNat
      let cc := c.toNat % 16
      if c.toNat / 16 = 1 then some ⟨pusi, pid, cc, false, none, rest⟩
      else if c.toNat / 16 = 3 then
        match rest with
        | l :: r =>
          if l.toNat ≤ 182 then
            (readAdaptation (r.take l.toNat)).map fun af => ⟨pusi, pid, cc, af.1, af.2, r.drop l.toNat⟩
          else none
        | [] => none
      else none
    else none
  | _ => none

/-- Time stamp of a PES header: 4 bit prefix, 33 bits, three marker bits. -/
def readTs (fb : Nat) : Bytes → Option Nat
  | [a, b, c, d, e] =>
    if a.toNat / 16 = fb ∧ a.toNat % 2 = 1 ∧ c.toNat % 2 = 1 ∧ e.toNat % 2 = 1 then
      some (a.toNat / 2 % 8 * 2 ^ 30 + (b.toNat * 256 + c.toNat) / 2 * 2 ^ 15 + (d.toNat * 256 + e.toNat) / 2)
    else none
  | _ => none

/-- A PES packet. -/
structure Pes where
  sid : Nat
  pts : Nat
  dts : Option Nat
  data : Bytes
deriving DecidableEq, Repr

/-- The optional time stamps for a value of the flags byte. -/
def readStamps (fl : UInt8) (hdr : Bytes) : Option (Nat × Option Nat) :=
  if fl = 0x80 ∧ hdr.length = 5 then (readTs 2 hdr).map (·, none)
  else if fl = 0xc0 ∧ hdr.length = 10 then
    (readTs 3 (hdr.take 5)).bind fun p => (readTs 1 (hdr.drop 5)).map fun d => (p, some d)
  else none

/-- A whole PES packet: the length field is the number of bytes after it, or zero for "unspecified". -/
def readPes (b : Bytes) : Option Pes :=
  match b with
  | z0 :: z1 :: z2 :: sid :: l1 :: l0 :: fx :: fl :: hl :: rest =>
    let len := l1.toNat * 256 + l0.toNat
    if (z0 = 0 ∧ z1 = 0 ∧ z2 = 1) ∧ (len = 0 ∨ len = rest.length + 3) ∧ fx = 0x80 ∧ hl.toNat ≤ rest.length then
      (readStamps fl (rest.take hl.toNat)).map fun t => ⟨sid.toNat, t.1, t.2, rest.drop hl.toNat⟩
    else none
  | _ => none

/-- Cut a stream into 188-byte packets. -/
def cut : Nat → Bytes → List Bytes
  | 0, _ => []
  | n + 1, b => b.take 188 :: cut n (b.drop 188)

/-- Parse a list of packets. -/
def readAll : List Bytes → Option (List Pkt)
  | [] => some []
  | b :: bs => (readPkt b).bind fun p => (readAll bs).map (p :: ·)

/-- The counter of the packets of one PID goes up by one modulo 16. -/
def continuous : Nat → List Pkt → Prop
  | _, [] => True
  | cc, p :: ps => p.cc = (cc + 1) % 16 ∧ continuous p.cc ps

instance : ∀ cc ps, Decidable (continuous cc ps)
  | _, [] => isTrue trivial
  | cc, p :: ps => by unfold continuous; exact @instDecidableAnd _ _ _ (instDecidableContinuous p.cc ps)

/-- Split the packets of one PID at the payload unit starts: packets before the first start, then the units. -/
def units : List Pkt → List Pkt × List (List Pkt)
  | [] => ([], [])
  | p :: ps =>
    let r := units ps
    if p.pusi then ([], (p :: r.1) :: r.2) else (p :: r.1, r.2)

/-- An access unit: random access indicator and PCR of its first packet, and the PES packet. -/
structure AccessUnit where
  rai : Bool
  pcr : Option (Nat × Nat)
  pes : Pes
deriving DecidableEq, Repr

def readUnit (u : List Pkt) : Option AccessUnit :=
  match u with
  | [] => none
  | p :: ps =>
    if ps.all (fun q => q.pcr.isNone && !q.rai) then
      (readPes ((p :: ps).map (·.payload)).flatten).map fun e => ⟨p.rai, p.pcr, e⟩
    else none

def readUnits : List (List Pkt) → Option (List AccessUnit)
  | [] => some []
  | u :: us => (readUnit u).bind fun a => (readUnits us).map (a :: ·)

/-- Demultiplex one PID of a transport stream whose previous packet of that PID had counter `cc`. -/
def demux (pid cc : Nat) (stream : Bytes) : Option (List AccessUnit) :=
  if stream.length % 188 = 0 then
    match readAll (cut (stream.length / 188) stream) with
    | none => none
    | some ps =>
      let mine := ps.filter (·.pid == pid)
      if continuous (cc % 16) mine ∧ (units mine).1 = [] then readUnits (units mine).2 else none
  else none

end Verif.Ts.Spec
