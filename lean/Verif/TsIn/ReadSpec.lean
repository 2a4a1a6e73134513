import Verif.Ts.PacketSpec
import Verif.Ts.CrcSpec
/-
What a transport stream says, after ISO/IEC 13818-1 (2.4.3.2 packets, 2.4.3.4 adaptation fields, 2.4.3.6 PES packets, 2.4.4 tables). Unlike the reader in
`Verif.Ts.Spec` it takes every adaptation field, every optional header and reserved bits as they come.
-/
namespace Verif.TsIn.Spec
open Verif

/-- A transport packet. -/
structure Pkt where
  pusi : Bool
  pid : Nat
  cc : Nat
  rai : Bool
  pcr : Option Nat
  payload : Bytes
  deriving DecidableEq

/-- PCR in units of 27 MHz: 33 bits of base, 6 reserved, 9 bits of extension. -/
def readPcr : Bytes → Option Nat
  | [b0, b1, b2, b3, b4, b5] =>
    some ((b0.toNat * 2 ^ 25 + b1.toNat * 2 ^ 17 + b2.toNat * 2 ^ 9 + b3.toNat * 2 + b4.toNat / 128) * 300 + (b4.toNat % 2 * 256 + b5.toNat))
  | _ => none

/-- An adaptation field after its length: random access indicator and PCR. -/
def readAdaptation : Bytes → Option (Bool × Option Nat)
  | [] => some (false, none)
  | fl :: r =>
    let rai : Bool := fl.toNat / 64 % 2 = 1
    if fl.toNat / 16 % 2 = 1 then (readPcr (r.take 6)).map fun v => (rai, some v) else some (rai, none)

/-- A packet without transport error that is not scrambled. -/
def readPkt (b : Bytes) : Option Pkt :=
  match b with
  | s :: a :: p :: c :: rest =>
    if b.length = 188 ∧ s = 0x47 ∧ a.toNat / 128 = 0 ∧ c.toNat / 64 = 0 then
      let pusi : Bool := a.toNat / 64 % 2 = 1
      let pid := a.toNat % 32 * 256 + p.toNat
      let cc := c.toNat % 16
      if c.toNat / 16 % 4 = 1 then some ⟨pusi, pid, cc, false, none, rest⟩
      else
        match rest with
        | [] => none
        | l :: r =>
          if (c.toNat / 16 % 4 = 3 ∧ l.toNat ≤ 182) ∨ (c.toNat / 16 % 4 = 2 ∧ l.toNat = 183) then
            (readAdaptation (r.take l.toNat)).map fun af => ⟨pusi, pid, cc, af.1, af.2, r.drop l.toNat⟩
          else none
    else none
  | _ => none

def readAll : List Bytes → Option (List Pkt)
  | [] => some []
  | b :: bs => (readPkt b).bind fun p => (readAll bs).map (p :: ·)

/-- A PES packet: whether its length is given, the presentation and decoding time if any, the data. -/
structure Pes where
  sid : Nat
  bounded : Bool
  stamps : Option (Nat × Nat)
  data : Bytes
  deriving DecidableEq

/-- The time stamps of an optional header with the flags `fl`: none, PTS alone (then DTS is the same), both; `01` is forbidden. -/
def readStamps (fl : UInt8) (hdr : Bytes) : Option (Option (Nat × Nat)) :=
  if fl.toNat / 64 = 0 then some none
  else if fl.toNat / 64 = 2 then (Ts.Spec.readTs 2 (hdr.take 5)).map fun p => some (p, p)
  else if fl.toNat / 64 = 3 then (Ts.Spec.readTs 3 (hdr.take 5)).bind fun p => (Ts.Spec.readTs 1 ((hdr.drop 5).take 5)).map fun d => some (p, d)
  else none

/-- Streams whose packets have no optional header: map, padding, private 2, ECM, EMM, directory, DSMCC, type E. -/
def bare : List Nat := [0xbc, 0xbe, 0xbf, 0xf0, 0xf1, 0xff, 0xf2, 0xf8]

/-- A whole PES packet: the length is the number of bytes after it, or 0 if it is not given. -/
def readPes (b : Bytes) : Option Pes :=
  match b with
  | z0 :: z1 :: z2 :: sid :: l1 :: l0 :: rest =>
    let len := l1.toNat * 256 + l0.toNat
    if z0 = 0 ∧ z1 = 0 ∧ z2 = 1 ∧ (len = 0 ∨ len = rest.length) then
      if sid.toNat ∈ bare then some ⟨sid.toNat, len ≠ 0, none, rest⟩
      else
        match rest with
        | fx :: fl :: hl :: r =>
          if fx.toNat / 64 = 2 ∧ hl.toNat ≤ r.length then
            (readStamps fl (r.take hl.toNat)).map fun t => ⟨sid.toNat, len ≠ 0, t, r.drop hl.toNat⟩
          else none
        | _ => none
    else none
  | _ => none

/-- Packets of one PID split at the starts of units: packets before the first start, then the units. -/
def units : List Pkt → List Pkt × List (List Pkt)
  | [] => ([], [])
  | p :: ps =>
    let r := units ps
    if p.pusi then ([], (p :: r.1) :: r.2) else (p :: r.1, r.2)

/-- The bytes of a unit. -/
def unitBytes (u : List Pkt) : Bytes := (u.map (·.payload)).flatten

/-- What a unit carries: random access indicator of its first packet, stream, times, data. -/
structure Au where
  rai : Bool
  sid : Nat
  stamps : Option (Nat × Nat)
  data : Bytes
  deriving DecidableEq

/-- The access unit, and whether it is known to be complete without the next unit. -/
def readUnit (u : List Pkt) : Option (Bool × Au) :=
  match u with
  | [] => none
  | p :: _ => (readPes (unitBytes u)).map fun e => (e.bounded, ⟨p.rai, e.sid, e.stamps, e.data⟩)

def readUnits : List (List Pkt) → Option (List (Bool × Au))
  | [] => some []
  | u :: us => (readUnit u).bind fun a => (readUnits us).map (a :: ·)

/-- What can be handed on: all units but a last one whose end is not known; padding is nothing. -/
def complete : List (Bool × Au) → List Au
  | [] => []
  | [x] => if x.1 ∧ x.2.sid ≠ 0xbe then [x.2] else []
  | x :: y :: l => (if x.2.sid ≠ 0xbe then [x.2] else []) ++ complete (y :: l)

/-- Packets of a PID: all units are PES packets. -/
def demux (pid : Nat) (ps : List Pkt) : Option (List Au) :=
  (readUnits (units (ps.filter (·.pid == pid))).2).map complete

/-! ### Tables -/

/-- The first section of a unit: pointer field, skipped bytes, then the section with a CRC that checks; at most 1021 bytes after the length.
Gives table id and the section without head and CRC. -/
def readSection (b : Bytes) : Option (Nat × Bytes) :=
  match b with
  | ptr :: r =>
    match r.drop ptr.toNat with
    | t :: l1 :: l0 :: rest =>
      let len := l1.toNat % 16 * 256 + l0.toNat
      if l1.toNat / 64 = 2 ∧ 4 ≤ len ∧ len ≤ 1021 ∧ len ≤ rest.length ∧ Ts.Spec.crc (t :: l1 :: l0 :: rest.take len) = 0 then
        some (t.toNat, rest.take (len - 4))
      else none
    | _ => none
  | [] => none

/-- Program association: (program number, PMT PID); program 0 is the network PID. -/
def readPrograms : Bytes → Option (List (Nat × Nat))
  | [] => some []
  | a :: b :: c :: d :: r => (readPrograms r).map ((a.toNat * 256 + b.toNat, c.toNat % 32 * 256 + d.toNat) :: ·)
  | _ => none

def readPat (b : Bytes) : Option (List (Nat × Nat)) :=
  match readSection b with
  | some (0, _ :: _ :: v :: _ :: _ :: body) => if v.toNat % 2 = 1 then (readPrograms body).map fun l => l.filter (·.1 ≠ 0) else none
  | _ => none

/-- Program map: PCR PID and the streams (type, PID), whatever descriptors there are. -/
def readStreams : Nat → Bytes → Option (List (Nat × Nat))
  | _, [] => some []
  | 0, _ => none
  | n + 1, t :: p1 :: p0 :: i1 :: i0 :: r =>
    let l := i1.toNat % 16 * 256 + i0.toNat
    if l ≤ r.length then (readStreams n (r.drop l)).map ((t.toNat, p1.toNat % 32 * 256 + p0.toNat) :: ·) else none
  | _, _ => none

def readPmt (b : Bytes) : Option (Nat × List (Nat × Nat)) :=
  match readSection b with
  | some (2, _ :: _ :: v :: _ :: _ :: p1 :: p0 :: i1 :: i0 :: body) =>
    let l := i1.toNat % 16 * 256 + i0.toNat
    if v.toNat % 2 = 1 ∧ l ≤ body.length then
      (readStreams body.length (body.drop l)).map fun ss => (p1.toNat % 32 * 256 + p0.toNat, ss)
    else none
  | _ => none

end Verif.TsIn.Spec
