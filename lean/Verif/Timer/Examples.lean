import Verif.Timer.Props
/-
Cases that meet the hypotheses of the theorems.
-/
namespace Verif.Timer

/-- Three of three timers are set, a fourth is refused; the second is deleted; the first expires and sets itself again before it returns. -/
def day : List Op :=
  [.add (some 1) 10, .add (some 2) 20, .add (some 3) 30, .add (some 4) 40, .del 1, .expire 0, .add (some 1) 10, .del 0, .finish, .add none 5]

/-- C87_once, C87_places, C87_defined_partial -/
example : (run (State.init 3) day).map (fun s => (s.calls, s.gone, pending s.slots 3)) = some ([(1, 10)], [(2, 20)], [(1, 10), (3, 30)]) := by decide +kernel
example : accepted (State.init 3) day = [(1, 10), (2, 20), (3, 30), (1, 10)] := by decide +kernel
example : (run (State.init 3) day).map (fun s => (s.freeN, inUse s)) = some (1, 2) := by decide +kernel
example : InRange 3 day := by
  intro i h
  simp only [day, List.mem_cons, List.not_mem_nil, or_false, reduceCtorEq, false_or, Op.del.injEq] at h
  omega

/-- C87_number_partial: timer 1 is given; the others expire and are deleted and set again meanwhile. -/
example : ((run (State.init 3) [.add (some 1) 10]).bind fun s => add s (some 2) 20).map Prod.snd = some (some 1) := by decide +kernel
example : Untouched 1 [.expire 0, .finish, .add (some 5) 50, .add (some 6) 60, .del 2] := by unfold Untouched; decide
example : (run (State.init 3) [.add (some 1) 10, .add (some 2) 20, .expire 0, .finish, .add (some 5) 50, .add (some 6) 60, .del 2]).map (fun s => (s.running, s.calls, s.gone)) = some (none, [(1, 10)], [(6, 60)]) := by decide +kernel

/-- C87_self: a handler is running. C87_again_violation: while the other timer of two is set. -/
example : (run (State.init 2) [.add (some 1) 10, .add (some 2) 20, .expire 0]).map (fun s => (s.running, (pending s.slots 2).length + 1)) = some (some 0, 2) := by decide +kernel
/-- With one timer, what is to be repeated is never repeated. -/
example : (run (State.init 1) [.add (some 1) 10, .expire 0, .add (some 1) 10, .finish]).map (fun s => (s.freeN, pending s.slots 1)) = some (1, []) := by decide +kernel

end Verif.Timer
