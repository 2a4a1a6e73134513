import Verif.Hls.AnnexRun
namespace Verif.Annex
open Verif

section
variable {ps : List Bytes} (hps : ∀ n ∈ ps, nalType n = some 7 ∨ nalType n = some 8)
include hps

theorem kept_ps {n : Bytes} (h : n ∈ ps) : kept n = false := by
  rcases hps n h with e | e <;> simp [kept, e]

theorem filter_ps : ps.filter kept = [] := List.filter_eq_nil_iff.2 (fun n h => by simp [kept_ps hps h])

theorem units_kept (a s : Bool) (src : List Bytes) : (units ps a s src).filter kept = src.filter kept := by
  induction src generalizing a s with
  | nil => rfl
  | cons n src ih =>
    rw [units]
    by_cases hk : kept n = false
    · rw [if_pos hk, ih, List.filter_cons_of_neg (by simp [hk])]
    · rw [if_neg hk, List.filter_append, List.filter_append, List.filter_cons_of_pos (by simpa using hk), ih, List.filter_cons_of_pos (by simpa using hk)]
      have e1 : List.filter kept (if a = false ∧ opens n = true then [audNal] else []) = [] := by
        split
        · rfl
        · rfl
      have e2 : List.filter kept (if nalType n = some 5 ∧ s = false then ps else []) = [] := by
        split
        · exact filter_ps hps
        · rfl
      rw [e1, e2]; rfl

omit hps in
theorem units_only (a s : Bool) (src : List Bytes) : ∀ n ∈ units ps a s src, kept n = false → n = audNal ∨ n ∈ ps := by
  induction src generalizing a s with
  | nil => intro n h; cases h
  | cons m src ih =>
    intro n hn hk
    rw [units] at hn
    by_cases hm : kept m = false
    · rw [if_pos hm] at hn; exact ih _ _ n hn hk
    · rw [if_neg hm] at hn
      simp only [List.append_assoc, List.mem_append, List.mem_cons] at hn
      rcases hn with h | h | h | h
      · split at h
        · exact .inl (by simpa using h)
        · cases h
      · split at h
        · exact .inr h
        · cases h
      · subst h; exact absurd hk hm
      · exact ih _ _ n h hk

theorem units_count (a s : Bool) (src : List Bytes) : (units ps a s src).count audNal ≤ (if a then 0 else 1) := by
  have hpsc : ps.count audNal = 0 := List.count_eq_zero.2 (fun h => by
    rcases hps _ h with e | e <;> simp [nalType, audNal] at e)
  induction src generalizing a s with
  | nil => simp [units]
  | cons n src ih =>
    rw [units]
    by_cases hk : kept n = false
    · rw [if_pos hk]; exact ih a s
    · rw [if_neg hk, List.count_append, List.count_append, List.count_cons_of_ne]
      · have e2 : List.count audNal (if nalType n = some 5 ∧ s = false then ps else []) = 0 := by
          split
          · exact hpsc
          · rfl
        rw [e2]
        by_cases h : a = false ∧ opens n = true
        · have := ih (a || opens n) (if nalType n = some 1 then false else if nalType n = some 5 then true else s)
          rw [if_pos h, h.1]
          rw [h.2] at this ⊢
          simp only [Bool.or_true, if_true] at this
          simp only [Bool.or_true, List.count_singleton_self, Bool.false_eq_true, if_false]
          omega
        · rw [if_neg h]
          have hao : (a || opens n) = a := by
            cases a with
            | true => rfl
            | false => simp at h; simp [h]
          have := ih (a || opens n) (if nalType n = some 1 then false else if nalType n = some 5 then true else s)
          rw [hao] at this ⊢
          simpa using this
      · intro e; subst e; simp [kept, audNal, nalType] at hk

omit hps in
theorem units_first (s : Bool) (src : List Bytes) (n : Bytes) (h : (src.filter kept).head? = some n) (ho : opens n = true) :
    (units ps false s src).head? = some audNal := by
  induction src generalizing s with
  | nil => cases h
  | cons m src ih =>
    rw [units]
    by_cases hk : kept m = false
    · rw [if_pos hk]
      rw [List.filter_cons_of_neg (by simp [hk])] at h
      exact ih s h
    · rw [if_neg hk]
      rw [List.filter_cons_of_pos (by simpa using hk)] at h
      have : m = n := by simpa using h
      subst this
      rw [if_pos ⟨rfl, ho⟩]; rfl

omit hps in
/-- `u ++ n :: w = a ++ m :: b` with `m` not in `u`: either `m` is that `n`, or it is in `w`. -/
theorem split_at {α : Type} {u w a b : List α} {n m : α} (h : u ++ n :: w = a ++ m :: b) (hu : m ∉ u) :
    (a = u ∧ m = n ∧ b = w) ∨ ∃ a', a = u ++ n :: a' ∧ w = a' ++ m :: b := by
  rcases List.append_eq_append_iff.1 h with ⟨c, e1, e2⟩ | ⟨c, e1, e2⟩
  · cases c with
    | nil =>
      simp only [List.nil_append, List.cons.injEq] at e2
      exact .inl ⟨by simpa using e1, e2.1.symm, e2.2.symm⟩
    | cons x c =>
      simp only [List.cons_append, List.cons.injEq] at e2
      exact .inr ⟨c, by rw [e1, e2.1], e2.2⟩
  · cases c with
    | nil =>
      simp only [List.nil_append, List.cons.injEq] at e2
      exact .inl ⟨by simpa using e1.symm, e2.1, e2.2⟩
    | cons x c =>
      simp only [List.cons_append, List.cons.injEq] at e2
      exact absurd (by rw [e1, ← e2.1]; simp) hu

theorem units_params (a s : Bool) (src : List Bytes) : ∀ x n y, units ps a s src = x ++ n :: y → nalType n = some 5 →
    (∃ x1 x2, x = x1 ++ ps ++ x2 ∧ ∀ m ∈ x2, nalType m ≠ some 1) ∨ (s = true ∧ ∀ m ∈ x, nalType m ≠ some 1) := by
  induction src generalizing a s with
  | nil => intro x n y h; rw [units] at h; cases x <;> cases h
  | cons m src ih =>
    intro x n y h h5
    rw [units] at h
    by_cases hk : kept m = false
    · rw [if_pos hk] at h; exact ih a s x n y h h5
    · rw [if_neg hk] at h
      have hA : ∀ k ∈ (if a = false ∧ opens m = true then [audNal] else []), nalType k = some 9 := by
        intro k hk'
        split at hk'
        · have := List.mem_singleton.1 hk'; subst this; rfl
        · cases hk'
      have hP : (nalType m = some 5 ∧ s = false ∧ (if nalType m = some 5 ∧ s = false then ps else []) = ps) ∨
          (¬ (nalType m = some 5 ∧ s = false) ∧ (if nalType m = some 5 ∧ s = false then ps else []) = []) := by
        by_cases h : nalType m = some 5 ∧ s = false
        · exact .inl ⟨h.1, h.2, if_pos h⟩
        · exact .inr ⟨h, if_neg h⟩
      generalize (if a = false ∧ opens m = true then [audNal] else []) = A at h hA
      generalize (if nalType m = some 5 ∧ s = false then ps else []) = P at h hP
      have hP7 : ∀ k ∈ P, nalType k = some 7 ∨ nalType k = some 8 := by
        intro k hk'
        rcases hP with ⟨-, -, e⟩ | ⟨-, e⟩ <;> subst e
        · exact hps k hk'
        · cases hk'
      rcases split_at h (by
        intro hm
        rcases List.mem_append.1 hm with hm | hm
        · have := hA n hm; rw [h5] at this; cases this
        · rcases hP7 n hm with e | e <;> (rw [h5] at e; cases e)) with ⟨e1, e2, -⟩ | ⟨x', e1, e2⟩
      · -- this very unit
        rw [e2] at h5
        rcases hP with ⟨-, -, e⟩ | ⟨e0, e⟩
        · left
          rw [e] at e1
          exact ⟨_, [], by rw [e1, List.append_nil], fun k hk => by cases hk⟩
        · right
          refine ⟨by simpa [h5] using e0, ?_⟩
          rw [e, List.append_nil] at e1
          intro k hk'
          rw [e1] at hk'
          rw [hA k hk']; simp
      · rcases ih _ _ x' n y e2 h5 with ⟨x1, x2, q1, q2⟩ | ⟨q1, q2⟩
        · left
          exact ⟨A ++ P ++ m :: x1, x2, by rw [e1, q1]; simp, q2⟩
        · by_cases m1 : nalType m = some 1
          · rw [if_pos m1] at q1; cases q1
          · rw [if_neg m1] at q1
            have hx' : ∀ k ∈ m :: x', nalType k ≠ some 1 := by
              intro k hk'
              rcases List.mem_cons.1 hk' with rfl | hk'
              · exact m1
              · exact q2 k hk'
            rcases hP with ⟨-, -, e⟩ | ⟨e0, e⟩
            · left
              rw [e] at e1
              exact ⟨_, m :: x', e1, hx'⟩
            · right
              rw [e, List.append_nil] at e1
              refine ⟨?_, ?_⟩
              · by_cases m5 : nalType m = some 5
                · simpa [m5] using e0
                · rwa [if_neg m5] at q1
              · intro k hk'
                rw [e1] at hk'
                rcases List.mem_append.1 hk' with hk' | hk'
                · rw [hA k hk']; simp
                · exact hx' k hk'

end

theorem units_access {p : Params} (hp : p.Ok) (src : List Bytes) : AccessUnit p src (units (p.sps ++ p.pps) false false src) := by
  have hps : ∀ n ∈ p.sps ++ p.pps, nalType n = some 7 ∨ nalType n = some 8 := by
    intro n h
    rcases List.mem_append.1 h with h | h
    · exact .inl (hp.hSpsTy n h)
    · exact .inr (hp.hPpsTy n h)
  refine ⟨units_kept hps _ _ _, units_only _ _ _, units_count hps _ _ _, ?_, ?_⟩
  · intro n h1 h2
    refine units_first _ _ n h1 ?_
    rcases h2 with h | h | h <;> simp [opens, h]
  · intro a n b h h5
    rcases units_params hps _ _ _ a n b h h5 with h | ⟨h, -⟩
    · exact h
    · cases h

theorem units_nal {ps : List Bytes} (hps : ∀ n ∈ ps, Nal n) {src : List Bytes} (hsrc : ∀ n ∈ src, Nal n) (a s : Bool) : ∀ n ∈ units ps a s src, Nal n := by
  induction src generalizing a s with
  | nil => intro n h; cases h
  | cons m src ih =>
    intro n hn
    rw [units] at hn
    have hs' := fun k (h : k ∈ src) => hsrc k (by simp [h])
    split at hn
    · exact ih hs' _ _ n hn
    · simp only [List.append_assoc, List.mem_append, List.mem_cons] at hn
      rcases hn with h | h | h | h
      · split at h
        · have := List.mem_singleton.1 h; subst this; decide
        · cases h
      · split at h
        · exact hps n h
        · cases h
      · subst h; exact hsrc _ (by simp)
      · exact ih hs' _ _ n h

end Verif.Annex
