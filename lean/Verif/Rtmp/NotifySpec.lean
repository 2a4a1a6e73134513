import Verif.Rtmp.NotifyModel
/-
What the callbacks of one publisher or player should do, said without contexts, requests and timers: a specification of its own, which uses only the
events, the outputs and the configuration of the model.
-/
namespace Verif.Notify

/-- What the session waits for: nothing, the verdict on the command, the time of the next report, the answer to a report. -/
inductive Wait | nothing | verdict | pause | report
  deriving DecidableEq

structure Sp where
  cmd : Bool := false
  asked : Option Nat := none
  wait : Wait := .nothing
  closed : Bool := false
  gone : Bool := false
  deriving DecidableEq

/-- The configured callback of this kind, unless the session is a relay. -/
def hook (c : Cfg) (k : Kind) : Option Ev :=
  if c.bypass then none else match k with
    | .publish => c.publish
    | .play => c.play

/-- 200 to 300 admits; no answer admits if `ignore_invalid_notify` is on. -/
def admits (c : Cfg) : Option Nat → Prop
  | some code => 200 ≤ code ∧ code ≤ 300
  | none => c.ignore = true

instance (c : Cfg) (o : Option Nat) : Decidable (admits c o) := by unfold admits; cases o <;> infer_instance

/-- The verdict on name `v` is in. -/
def verdict (c : Cfg) (k : Kind) (ev : Ev) (p : Sp) (v : Nat) (code : Option Nat) (ok : Bool) : Sp × List Out :=
  if admits c code then
    if ok then ({ p with wait := if ev.update then .pause else .nothing }, [.next k (some v)])
    else ({ p with wait := .nothing }, [.next k (some v), .forbidden .play, .finalize])
  else ({ p with wait := .nothing }, [.forbidden .play, .finalize])

/-- The command: nothing runs before the verdict if there is a callback. -/
def command (c : Cfg) (k : Kind) (p : Sp) (v : Nat) (got ok : Bool) : Sp × List Out :=
  if p.gone || p.cmd then (p, [])
  else match hook c k with
    | none => ({ p with cmd := true }, .next k (some v) :: if ok then [] else [.finalize])
    | some _ =>
      if got then ({ p with cmd := true, asked := some v, wait := .verdict }, [.call k .start])
      else ({ p with cmd := true, asked := some v, wait := .nothing }, [])

/-- An answer, or none in time. -/
def heard (c : Cfg) (k : Kind) (p : Sp) (code : Option Nat) (ok : Bool) : Sp × List Out :=
  match hook c k, p.asked, p.wait with
  | some ev, some v, .verdict => verdict c k ev p v code ok
  | some _, some _, .report => ({ p with wait := .pause }, [])
  | _, _, _ => (p, [])

def ends (c : Cfg) (k : Kind) (p : Sp) (got : Bool) : Sp × List Out :=
  if p.closed then (p, [])
  else
    ({ p with closed := true, wait := .nothing },
      match hook c k, p.asked with
      | some ev, some _ => if ev.done && got then [.call k .done] else []
      | _, _ => [])

def spec (c : Cfg) (k : Kind) (p : Sp) : Event → Sp × List Out
  | .publish v got ok => command c k p v got ok
  | .play v got ok => command c k p v got ok
  | .answer 0 code ok => heard c k p (some code) ok
  | .fail 0 ok => heard c k p none ok
  | .timer 0 got ok =>
    if p.wait = .pause then
      if got then ({ p with wait := .report }, [.call k .update]) else ({ p with wait := .nothing }, [])
    else heard c k p none ok
  | .close got => if p.gone then (p, []) else ends c k p got
  | .gone got => if p.gone then (p, []) else let r := ends c k p got; ({ r.1 with gone := true }, r.2)
  | _ => (p, [])

def specRun (c : Cfg) (k : Kind) : Sp → List Event → Sp × List (List Out)
  | p, [] => (p, [])
  | p, e :: es => let r := spec c k p e; let q := specRun c k r.1 es; (q.1, r.2 :: q.2)

/-- The commands of the session are of one kind, and none comes after the stream was closed. -/
def tame (k : Kind) : Bool → List Event → Bool
  | _, [] => true
  | cl, .publish _ _ _ :: es => (k = .publish) && !cl && tame k cl es
  | cl, .play _ _ _ :: es => (k = .play) && !cl && tame k cl es
  | _, .close _ :: es => tame k true es
  | _, .gone _ :: es => tame k true es
  | cl, _ :: es => tame k cl es

end Verif.Notify
