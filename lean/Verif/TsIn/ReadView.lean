import Verif.TsIn.ReadModel
import Verif.TsIn.ReadSpec
/-
What can be seen of the state and the events of the reader, in the terms of `Verif.TsIn.Spec`.
-/
namespace Verif.TsIn
open Verif

/-- What an event says of an access unit. -/
def auOf (es : Es) (bufs : List Bytes) : Spec.Au := ⟨es.rand, es.sid, if es.ptsf then some (es.pts, es.dts) else none, bufs.flatten⟩

/-- The access units of the events for a PID. -/
def ausOf (pid : Nat) : List Event → List Spec.Au
  | [] => []
  | .pes _ es bufs :: l => (if es.pid = pid then [auOf es bufs] else []) ++ ausOf pid l
  | _ :: l => ausOf pid l

/-- All elementary streams. -/
def allEs (ps : List Prog) : List Es := ps.flatMap (·.es)

/-- The tables are known; PIDs of streams are not used twice, nor for tables. -/
def Ready (ps : List Prog) : Prop :=
  ps ≠ [] ∧ (∀ p ∈ ps, p.es ≠ []) ∧ ((allEs ps).map (·.pid)).Nodup ∧ ∀ e ∈ allEs ps, e.pid ≠ 0 ∧ ∀ p ∈ ps, p.pid ≠ e.pid

instance (ps : List Prog) : Decidable (Ready ps) := by unfold Ready; infer_instance

/-- The clock of the program whose clock is on a PID. -/
def clockOf (ps : List Prog) (q : Nat) : Option Nat := (ps.find? fun P => P.pcrPid == q && P.es.any (·.pid == q)).map (·.pcr)

/-- The last clock reference of packets. -/
def lastPcr (v : Nat) : List Spec.Pkt → Nat
  | [] => v
  | p :: l => lastPcr (p.pcr.getD v) l

/-- A program of the PAT. -/
def mkProg (x : Nat × Nat) : Prog := { number := x.1, pid := x.2 }

/-- A stream of the PMT; MPEG-1, MPEG-2, MPEG-4 and AVC are video. -/
def mkEs (x : Nat × Nat) : Es := { type := x.1, pid := x.2, video := x.1 = 0x01 || x.1 = 0x02 || x.1 = 0x10 || x.1 = 0x1b }

end Verif.TsIn
