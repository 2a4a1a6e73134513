/- Induction on lists from the right end. -/
namespace Verif

theorem snocInd {α : Type u} {P : List α → Prop} (nil : P []) (snoc : ∀ l a, P l → P (l ++ [a])) (l : List α) : P l := by
  have : ∀ n (l : List α), l.length = n → P l := by
    intro n
    induction n with
    | zero => intro l h; rw [List.length_eq_zero_iff.1 h]; exact nil
    | succ n ih =>
      intro l h
      rcases List.eq_nil_or_concat l with rfl | ⟨q, x, rfl⟩
      · simp at h
      · rw [List.concat_eq_append] at h ⊢
        exact snoc q x (ih q (by simpa using h))
  exact this _ l rfl

end Verif
