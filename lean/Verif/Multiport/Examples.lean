import Verif.Multiport.Props
/-
Cases that meet the hypotheses of the theorems.
-/
namespace Verif.Multiport

/-- `1.1:99` -/
def four : Bytes := [49, 46, 49, 58, 57, 57]
/-- `[::1]:1935` -/
def six : Bytes := [91, 58, 58, 49, 93, 58, 49, 57, 51, 53]
/-- `Unix:/s` -/
def path : Bytes := [85, 110, 105, 120, 58, 47, 115]

theorem not_unix {mp : Bytes} (h : (mp.take 5).map low ≠ [117, 110, 105, 120, 58]) : ¬ Unix mp := fun hu => h ((unix_iff mp).2 hu).2

/-- C88_port, C88_only, C88_all_partial, C88_defined_partial, with and without brackets -/
example : Reads four (some [49, 46, 49]) 99 := ⟨[57, 57], ⟨by decide, by decide⟩, by decide, Or.inl ⟨by decide, by decide⟩, rfl⟩
example : ¬ Unix four := not_unix (by decide)
example : getPort four 127 = some (some [49, 46, 49, 58, 50, 50, 54]) := by decide +kernel
example : Reads six (some [91, 58, 58, 49, 93]) 1935 := ⟨[49, 57, 51, 53], ⟨by decide, by decide⟩, by decide, Or.inr ⟨[58, 58, 49], rfl, by decide⟩, rfl⟩
example : ¬ Unix six := not_unix (by decide)
example : getPort six 65 = some (some [91, 58, 58, 49, 93, 58, 50, 48, 48, 48]) := by decide +kernel
example : getPort [49] 127 = some (some [49, 50, 56]) := by decide +kernel
example : getPort six 128 = some none ∧ getPort six (-1) = some none ∧ getPort [] 0 = some none := by decide +kernel

/-- C88_unix -/
example : Unix path := ⟨85, 110, 105, 120, [47, 115], rfl, by decide, by decide, by decide, by decide⟩
example : getPort path 127 = some (some (path ++ [46, 49, 50, 55])) := by decide +kernel

/-- C88_apart: the same host 128 ports apart, or another host -/
example : ∃ t t', getPort [56, 48, 48, 48] 127 = some (some t) ∧ getPort [56, 49, 50, 56] 0 = some (some t') ∧ Reads [56, 48, 48, 48] none 8000 ∧ Reads [56, 49, 50, 56] none 8128 :=
  ⟨[56, 49, 50, 55], [56, 49, 50, 56], by decide +kernel, by decide +kernel, ⟨_, ⟨by decide, by decide⟩, by decide, rfl⟩, ⟨_, ⟨by decide, by decide⟩, by decide, rfl⟩⟩

/-- C88_limit_violation: port 65400 -/
example : Reads [54, 53, 52, 48, 48] none 65400 := ⟨_, ⟨by decide, by decide⟩, by decide, rfl⟩
example : getPort [54, 53, 52, 48, 48] 8 = some (some [54, 53, 52, 48, 56]) ∧ getPort [54, 53, 52, 48, 48] 9 = some none := by decide +kernel

end Verif.Multiport
