import Verif.Pulls.Model
/-
What the configuration asks for.
-/
namespace Verif.Pulls

/-- Every configuration is free of duplicates and every session can be made. -/
def Calm : List Op → Prop
  | [] => True
  | .reload ps bad :: os => ps.Nodup ∧ bad = [] ∧ Calm os
  | .again _ ok :: os => ok = true ∧ Calm os

/-- The streams of the last configuration, after `c` -/
def wanted : List Nat → List Op → List Nat
  | c, [] => c
  | _, .reload ps _ :: os => wanted ps os
  | c, .again _ _ :: os => wanted c os

/-- There is exactly one session for each stream that is wanted, and none for others. -/
def Serves (s : State) (c : List Nat) : Prop :=
  (∀ p ∈ c, ∃ d, s.live d = some p) ∧ ∀ d p, s.live d = some p → p ∈ c ∧ ∀ e, s.live e = some p → e = d

end Verif.Pulls
