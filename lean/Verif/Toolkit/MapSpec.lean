import Verif.Toolkit.MapModel
/- Specification of `ngx_map`: a partial function from keys to nodes. -/
namespace Verif.Map

variable {K : Type} [DecidableEq K]

/-- A three-way comparison that is a total order on the keys. -/
structure Total (cmp : K → K → Ordering) : Prop where
  eq_iff : ∀ a b, cmp a b = .eq ↔ a = b
  swap : ∀ a b, cmp a b = .lt ↔ cmp b a = .gt
  trans : ∀ a b d, cmp a b = .lt → cmp b d = .lt → cmp a d = .lt

/-- The map after a sequence of calls (last call first). -/
def contents : List (Op K) → K → Option (Entry K)
  | [], _ => none
  | .delete k :: ops, x => if x = k then none else contents ops x
  | .insert e cov :: ops, x =>
    if x = e.key then
      match contents ops x with
      | none => some e
      | some old => if cov then some e else some old
    else contents ops x

end Verif.Map
