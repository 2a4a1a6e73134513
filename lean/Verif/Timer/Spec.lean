import Verif.Timer.Model
/-
What an observer counts.
-/
namespace Verif.Timer

/-- The jobs of the timers that are set -/
def pending (f : Nat → Slot) : Nat → List Job
  | 0 => []
  | n + 1 => pending f n ++ (f n).job

/-- The jobs that were accepted: a timer was given for them. -/
def accepted : State → List Op → List Job
  | _, [] => []
  | s, o :: os => (match o with
      | .add (some h) d => match add s (some h) d with
        | some (_, some _) => [(h, d)]
        | _ => []
      | _ => []) ++ match step s o with
      | none => []
      | some s' => accepted s' os

/-- How many timers are in use: set, or with a handler that has not returned -/
def inUse (s : State) : Nat := (pending s.slots s.n).length + s.running.toList.length

/-- Deletions are of numbers of timers. -/
def InRange (n : Nat) (os : List Op) : Prop := ∀ i, Op.del i ∈ os → i < n

/-- Nothing is done to the timer: it does not expire and is not deleted. -/
def Untouched (i : Nat) (os : List Op) : Prop := Op.del i ∉ os ∧ Op.expire i ∉ os

end Verif.Timer
