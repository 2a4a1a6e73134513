import Verif.Resolver.Model
/-
What an observer notes of a run: what happened to the names, who asked, who was called, who still waits.
-/
namespace Verif.Resolver

/-- A name that is kept in the table: it is not empty, not a numeric address, not too long, and the table is in use. -/
def Plain (c : Conf) (n : Name) : Prop := n ≠ [] ∧ c.addr n = none ∧ c.on = true ∧ n.length ≤ 128 ∧ 0 < c.nb

instance (c : Conf) (n : Name) : Decidable (Plain c n) := by unfold Plain; infer_instance

/-- What an operation means for the names: an answer belongs to the name that nginx's resolver was asked for. -/
def event (c : Conf) (s : State) : Op → Event
  | .add n => if Plain c n then .entered n else .nothing
  | .start n _ _ => if Plain c n then .entered n else .nothing
  | .del n => if Plain c n then .removed n else .nothing
  | .timer => .nothing
  | .result k as _ => match s.flights[k]? with
    | none => .nothing
    | some (_, n) => .answered n as

def events (c : Conf) : State → List Op → List Event
  | _, [] => []
  | s, o :: os => event c s o :: match step c s o with
    | none => []
    | some s' => events c s' os

/-- The table that the events describe -/
def told (es : List Event) : Table := es.foldl Table.after fun _ => none

/-- The addresses that were answered for a name -/
def Heard (es : List Event) (n : Name) (a : Addr) : Prop := ∃ m as, Event.answered m as ∈ es ∧ small m = small n ∧ a ∈ as

/-- No name is removed while a question for it is under way. -/
def Calm (c : Conf) : State → List Op → Prop
  | _, [] => True
  | s, o :: os => (∀ n, o = .del n → ∀ f ∈ s.flights, small f.2 ≠ small n) ∧ ∀ s', step c s o = some s' → Calm c s' os

/-- The callers who asked for a name that is not empty -/
def asked : List Op → List Caller
  | [] => []
  | .start n w _ :: os => if n = [] then asked os else w :: asked os
  | _ :: os => asked os

/-- The callers who wait at the first `n` records -/
def waiting (f : Nat → Rec) : Nat → List Caller
  | 0 => []
  | n + 1 => waiting f n ++ (f n).waiters

/-- The caller asked for the name. -/
def AskedFor (os : List Op) (w : Caller) (n : Name) : Prop := ∃ r, Op.start n w r ∈ os

end Verif.Resolver
