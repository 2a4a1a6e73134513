import Verif.Hls.CleanSpec
/- Lemmas about the cleanup. -/
namespace Verif.HlsClean

theorem drop_suffix (name suf : Name) : (suf.length ≤ name.length ∧ name.drop (name.length - suf.length) = suf) ↔ ∃ b, name = b ++ suf := by
  constructor
  · rintro ⟨_, h⟩
    refine ⟨name.take (name.length - suf.length), ?_⟩
    conv => rhs; rhs; rw [← h]
    exact (List.take_append_drop _ name).symm
  · rintro ⟨b, rfl⟩
    simp

theorem old_iff (w : World) (name : Name) (t : Nat) : old w name t = true ↔ Outdated w.playlen w.now name t := by
  have h1 := drop_suffix name ['.', 't', 's']
  have h2 := drop_suffix name ['.', 'm', '3', 'u', '8']
  have h3 := drop_suffix name ['.', 'k', 'e', 'y']
  simp only [List.length_cons, List.length_nil, Nat.zero_add, Nat.reduceAdd] at h1 h2 h3
  have last : ∀ {b c : Name} {s s' : Name}, b ++ s = c ++ s' → s ≠ [] → s' ≠ [] → s.getLast? = s'.getLast? := by
    intro b c s s' h hs hs'
    have := congrArg List.getLast? h
    rw [List.getLast?_append, List.getLast?_append] at this
    cases hx : s.getLast? with
    | none => exact absurd (List.getLast?_eq_none_iff.1 hx) hs
    | some a =>
      cases hy : s'.getLast? with
      | none => exact absurd (List.getLast?_eq_none_iff.1 hy) hs'
      | some b => rw [hx, hy] at this; simpa using this
  have n1 : (∃ b, name = b ++ ['.', 't', 's']) → ¬ ∃ b, name = b ++ ['.', 'm', '3', 'u', '8'] := by
    rintro ⟨b, rfl⟩ ⟨c, h⟩
    have := last h (by simp) (by simp)
    simp at this
  have n2 : (∃ b, name = b ++ ['.', 't', 's']) → ¬ ∃ b, name = b ++ ['.', 'k', 'e', 'y'] := by
    rintro ⟨b, rfl⟩ ⟨c, h⟩
    have := last h (by simp) (by simp)
    simp at this
  have n3 : (∃ b, name = b ++ ['.', 'm', '3', 'u', '8']) → ¬ ∃ b, name = b ++ ['.', 'k', 'e', 'y'] := by
    rintro ⟨b, rfl⟩ ⟨c, h⟩
    have := last h (by simp) (by simp)
    simp at this
  unfold old maxAge
  constructor
  · intro h
    split at h
    · cases h
    · rename_i age he
      simp only [gt_iff_lt, Bool.not_eq_true', decide_eq_false_iff_not, Nat.not_lt] at h
      split at he
      · rename_i c
        obtain ⟨b, rfl⟩ := h1.1 c
        simp only [Option.some.injEq] at he
        exact Outdated.ts b t (by omega)
      · split at he
        · rename_i c
          obtain ⟨b, rfl⟩ := h2.1 c
          simp only [Option.some.injEq] at he
          exact Outdated.list b t (by omega)
        · split at he
          · rename_i c
            obtain ⟨b, rfl⟩ := h3.1 c
            simp only [Option.some.injEq] at he
            exact Outdated.key b t (by omega)
          · cases he
  · intro h
    cases h with
    | ts b _ ht =>
      rw [if_pos (h1.2 ⟨b, rfl⟩)]
      simp; omega
    | key b _ ht =>
      have hk : ∃ c, b ++ ".key".toList = c ++ ['.', 'k', 'e', 'y'] := ⟨b, rfl⟩
      rw [if_neg (fun c => n2 (h1.1 c) hk), if_neg (fun c => n3 (h2.1 c) hk), if_pos (h3.2 hk)]
      simp; omega
    | list b _ ht =>
      have hk : ∃ c, b ++ ".m3u8".toList = c ++ ['.', 'm', '3', 'u', '8'] := ⟨b, rfl⟩
      rw [if_neg (fun c => n1 (h1.1 c) hk), if_pos (h2.2 hk)]
      simp; omega

/-- Paths below `path`. -/
def Below (path q : List Name) : Prop := ∃ pre, q = pre ++ path

theorem Below.of_cons {x : Name} {path q} (h : Below (x :: path) q) : ∃ pre y, q = pre ++ y :: path := by
  obtain ⟨pre, rfl⟩ := h
  exact ⟨pre, x, rfl⟩

mutual
theorem filesOf_below (path : List Name) : ∀ (n : Node) f, f ∈ filesOf path n → Below path f.1
  | .file t, f, h => by simp only [filesOf, List.mem_singleton] at h; rw [h]; exact ⟨[], rfl⟩
  | .other, f, h => by simp [filesOf] at h
  | .dir es, f, h => by
    simp only [filesOf] at h
    obtain ⟨pre, y, e⟩ := filesIn_below path es f h
    exact ⟨pre ++ [y], by rw [e]; simp⟩
theorem filesIn_below (path : List Name) : ∀ (es : List (Name × Node)) f, f ∈ filesIn path es → ∃ pre y, f.1 = pre ++ y :: path
  | [], f, h => by simp [filesIn] at h
  | (x, n) :: es, f, h => by
    simp only [filesIn, List.mem_append] at h
    rcases h with h | h
    · exact (filesOf_below (x :: path) n f h).of_cons
    · exact filesIn_below path es f h
end

mutual
theorem dirsOf_below (path : List Name) : ∀ (n : Node) f, f ∈ dirsOf path n → Below path f.1
  | .file t, f, h => by simp [dirsOf] at h
  | .other, f, h => by simp [dirsOf] at h
  | .dir es, f, h => by
    simp only [dirsOf, List.mem_cons] at h
    rcases h with h | h
    · rw [h]; exact ⟨[], rfl⟩
    · obtain ⟨pre, y, e⟩ := dirsIn_below path es f h
      exact ⟨pre ++ [y], by rw [e]; simp⟩
theorem dirsIn_below (path : List Name) : ∀ (es : List (Name × Node)) f, f ∈ dirsIn path es → ∃ pre y, f.1 = pre ++ y :: path
  | [], f, h => by simp [dirsIn] at h
  | (x, n) :: es, f, h => by
    simp only [dirsIn, List.mem_append] at h
    rcases h with h | h
    · exact (dirsOf_below (x :: path) n f h).of_cons
    · exact dirsIn_below path es f h
end

theorem Reached.of_below {w : World} {path : List Name} : ∀ {pre : List Name}, Reached w (pre ++ path) → Reached w path
  | [], h => h
  | _ :: pre, h => Reached.of_below (pre := pre) h.2.2.1

theorem Reached.of_inside {w : World} {path : List Name} {pre : List Name} {y : Name} (h : Reached w (pre ++ y :: path)) : w.openFails path = false :=
  (Reached.of_below (pre := pre) h).2.2.2

open Classical in
/-- What is left of a list of files. -/
noncomputable def left (w : World) (l : List (List Name × Nat)) : List (List Name × Nat) := l.filter (fun f => decide (¬ Doomed w f))

theorem left_append (w : World) (a b) : left w (a ++ b) = left w a ++ left w b := by unfold left; rw [List.filter_append]

theorem left_all (w : World) {l} (h : ∀ f ∈ l, ¬ Doomed w f) : left w l = l := by
  unfold left; rw [List.filter_eq_self]; intro f hf; simpa using h f hf

theorem left_unreached (w : World) (path : List Name) (n : Node) (h : ¬ Reached w path) : left w (filesOf path n) = filesOf path n := by
  refine left_all w ?_
  rintro f hf ⟨hr, -⟩
  obtain ⟨pre, e⟩ := filesOf_below path n f hf
  rw [e] at hr
  exact h hr.of_below

theorem left_closed (w : World) (path : List Name) (es) (h : w.openFails path = true) : left w (filesIn path es) = filesIn path es := by
  refine left_all w ?_
  rintro f hf ⟨hr, -⟩
  obtain ⟨pre, y, e⟩ := filesIn_below path es f hf
  rw [e] at hr
  rw [hr.of_inside] at h; cases h

mutual
theorem cleanNode_files (w : World) (path : List Name) (x : Name) (hr : Reached w path) (ho : w.openFails path = false) (hv : Visible x) :
    ∀ n : Node, left w (filesOf (x :: path) n) = (cleanNode w (x :: path) x n).elim [] (filesOf (x :: path))
  | .file t => by
    unfold cleanNode
    by_cases hi : w.infoFails (x :: path) = true
    · rw [if_pos hi, left_unreached w _ _ (fun h => by have := h.2.1; rw [hi] at this; cases this)]; rfl
    · rw [if_neg hi]
      have hi' : w.infoFails (x :: path) = false := by simpa using hi
      by_cases hd : Doomed w (x :: path, t)
      · have : old w x t = true ∧ w.delFails (x :: path) = false := by
          obtain ⟨_, h2, y, q, e, h3⟩ := hd
          simp only [List.cons.injEq] at e
          rw [e.1]
          exact ⟨(old_iff w y t).2 h3, by rw [← e.1]; exact h2⟩
        rw [if_pos (by simp [this.1, this.2])]
        simp [left, filesOf, hd]
      · have : ¬ ((old w x t && !w.delFails (x :: path)) = true) := by
          intro h
          simp only [Bool.and_eq_true, Bool.not_eq_true'] at h
          exact hd ⟨⟨hv, hi', hr, ho⟩, h.2, x, path, rfl, (old_iff w x t).1 h.1⟩
        rw [if_neg this]
        simp [left, filesOf, hd]
  | .other => by simp [cleanNode, filesOf, left]
  | .dir es => by
    unfold cleanNode
    by_cases hi : w.infoFails (x :: path) = true
    · rw [if_pos hi, left_unreached w _ _ (fun h => by have := h.2.1; rw [hi] at this; cases this)]; rfl
    · rw [if_neg hi]
      have hi' : w.infoFails (x :: path) = false := by simpa using hi
      by_cases ho' : w.openFails (x :: path) = true
      · rw [if_pos ho']
        simp only [filesOf, Option.elim_some]
        exact left_closed w _ es ho'
      · rw [if_neg ho']
        have ih := cleanList_files w (x :: path) ⟨hv, hi', hr, ho⟩ (by simpa using ho') es
        dsimp only
        split
        · rename_i c
          have : (cleanList w (x :: path) es).1 = [] := by simpa using c.2.1
          simp only [filesOf, Option.elim_none]
          rw [ih, this]; rfl
        · simp only [filesOf, Option.elim_some]; exact ih
theorem cleanList_files (w : World) (path : List Name) (hr : Reached w path) (ho : w.openFails path = false) :
    ∀ es : List (Name × Node), left w (filesIn path es) = filesIn path (cleanList w path es).1
  | [] => by simp [filesIn, cleanList, left]
  | (x, n) :: es => by
    have ih := cleanList_files w path hr ho es
    unfold cleanList
    simp only [filesIn]
    rw [left_append, ih]
    by_cases hv : x.head? = some '.'
    · rw [if_pos hv, left_unreached w (x :: path) n (fun h => h.1 hv)]
      simp only [filesIn]
    · rw [if_neg hv, cleanNode_files w path x hr ho hv n]
      cases cleanNode w (x :: path) x n with
      | none => simp
      | some n' => simp [filesIn]
end

mutual
theorem cleanNode_others (w : World) (path : List Name) (x : Name) :
    ∀ n : Node, othersOf path n = (cleanNode w path x n).elim [] (othersOf path)
  | .file t => by
    unfold cleanNode
    split
    · rfl
    · split <;> rfl
  | .other => by simp [cleanNode]
  | .dir es => by
    have ih := cleanList_others w path es
    unfold cleanNode
    split
    · rfl
    · split
      · rfl
      · dsimp only
        split
        · rename_i c
          have : (cleanList w path es).1 = [] := by simpa using c.2.1
          simp only [othersOf, Option.elim_none]
          rw [ih, this]; rfl
        · simp only [othersOf, Option.elim_some]; exact ih
theorem cleanList_others (w : World) (path : List Name) :
    ∀ es : List (Name × Node), othersIn path es = othersIn path (cleanList w path es).1
  | [] => by simp [othersIn, cleanList]
  | (x, n) :: es => by
    have ih := cleanList_others w path es
    have h := cleanNode_others w (x :: path) x n
    unfold cleanList
    simp only [othersIn]
    split
    · simp only [othersIn]; rw [← ih]
    · rw [h, ih]
      cases cleanNode w (x :: path) x n with
      | none => simp
      | some n' => simp [othersIn]
end

/-- The counters: what was counted and not erased is left. -/
theorem cleanList_count (w : World) (path : List Name) : ∀ es : List (Name × Node),
    (cleanList w path es).2.2 ≤ (cleanList w path es).2.1 ∧ (cleanList w path es).2.1 - (cleanList w path es).2.2 ≤ (cleanList w path es).1.length
  | [] => by simp [cleanList]
  | (x, n) :: es => by
    have ih := cleanList_count w path es
    unfold cleanList
    split
    · dsimp only [List.length_cons]; omega
    · cases cleanNode w (x :: path) x n with
      | none => dsimp only; omega
      | some n' => dsimp only [List.length_cons]; omega

theorem DirsOk.append {w a a' b b'} (h1 : DirsOk w a a') (h2 : DirsOk w b b') : DirsOk w (a ++ b) (a' ++ b') where
  hSub := by rw [List.map_append, List.map_append]; exact h1.hSub.append h2.hSub
  hKept p hp hn := by
    rw [List.map_append, List.mem_append] at *
    rcases hp with hp | hp
    · exact Or.inl (h1.hKept p hp hn)
    · exact Or.inr (h2.hKept p hp hn)
  hFull d hd hr := by
    rcases List.mem_append.1 hd with hd | hd
    · exact h1.hFull d hd hr
    · exact h2.hFull d hd hr

theorem DirsOk.same {w l} (h : ∀ d ∈ l, ¬ Removable w d.1) : DirsOk w l l where
  hSub := List.Sublist.refl _
  hKept _ hp _ := hp
  hFull d hd hr := absurd hr (h d hd)

theorem DirsOk.unreached {w : World} {path : List Name} (n : Node) (h : ¬ Reached w path) : DirsOk w (dirsOf path n) (dirsOf path n) :=
  DirsOk.same fun d hd hr => by
    obtain ⟨pre, e⟩ := dirsOf_below path n d hd
    have := hr.1
    rw [e] at this
    exact h this.of_below

mutual
theorem cleanNode_dirs (w : World) (path : List Name) (x : Name) (hr : Reached w path) (ho : w.openFails path = false) (hv : Visible x) :
    ∀ n : Node, DirsOk w (dirsOf (x :: path) n) ((cleanNode w (x :: path) x n).elim [] (dirsOf (x :: path)))
  | .file t => by
    have : (cleanNode w (x :: path) x (.file t)).elim [] (dirsOf (x :: path)) = [] := by
      unfold cleanNode
      split
      · rfl
      · split <;> rfl
    rw [this]
    exact DirsOk.same (fun d hd => absurd hd (by simp [dirsOf]))
  | .other => DirsOk.same (fun d hd => absurd hd (by simp [dirsOf]))
  | .dir es => by
    unfold cleanNode
    by_cases hi : w.infoFails (x :: path) = true
    · rw [if_pos hi]
      exact DirsOk.unreached _ (fun h => by have := h.2.1; rw [hi] at this; cases this)
    · rw [if_neg hi]
      have hi' : w.infoFails (x :: path) = false := by simpa using hi
      by_cases ho' : w.openFails (x :: path) = true
      · rw [if_pos ho']
        refine DirsOk.same (fun d hd hrm => ?_)
        simp only [dirsOf, List.mem_cons] at hd
        rcases hd with hd | hd
        · have := hrm.2.1; rw [hd, ho'] at this; cases this
        · obtain ⟨pre, y, e⟩ := dirsIn_below (x :: path) es d hd
          have := hrm.1
          rw [e] at this
          have := this.of_inside; rw [ho'] at this; cases this
      · rw [if_neg ho']
        have ho'' : w.openFails (x :: path) = false := by simpa using ho'
        have hR : Reached w (x :: path) := ⟨hv, hi', hr, ho⟩
        have ih := cleanList_dirs w (x :: path) hR ho'' es
        have hc := cleanList_count w (x :: path) es
        dsimp only
        split
        · rename_i c
          have e : (cleanList w (x :: path) es).1 = [] := by simpa using c.2.1
          rw [e] at ih
          simp only [dirsOf, Option.elim_none]
          refine ⟨List.nil_sublist _, ?_, fun d hd => absurd hd (by simp)⟩
          intro p hp hn
          simp only [List.map_cons, List.mem_cons] at hp
          rcases hp with hp | hp
          · exact absurd ⟨hR, ho'', c.2.2⟩ (hp ▸ hn)
          · exact ih.hKept p hp hn
        · rename_i c
          simp only [dirsOf, Option.elim_some]
          refine ⟨?_, ?_, ?_⟩
          · simp only [List.map_cons]; exact ih.hSub.cons_cons _
          · intro p hp hn
            simp only [List.map_cons, List.mem_cons] at hp ⊢
            rcases hp with hp | hp
            · exact Or.inl hp
            · exact Or.inr (ih.hKept p hp hn)
          · intro d hd hrm
            simp only [List.mem_cons] at hd
            rcases hd with hd | hd
            · subst hd
              dsimp only
              have hdf := hrm.2.2
              dsimp only at hdf
              cases hl : (cleanList w (x :: path) es).1 with
              | cons => rfl
              | nil =>
                rw [hl] at hc c
                simp only [List.length_nil] at hc
                exact absurd ⟨by omega, rfl, hdf⟩ c
            · exact ih.hFull d hd hrm
theorem cleanList_dirs (w : World) (path : List Name) (hr : Reached w path) (ho : w.openFails path = false) :
    ∀ es : List (Name × Node), DirsOk w (dirsIn path es) (dirsIn path (cleanList w path es).1)
  | [] => DirsOk.same (fun d hd => absurd hd (by simp [dirsIn]))
  | (x, n) :: es => by
    have ih := cleanList_dirs w path hr ho es
    unfold cleanList
    simp only [dirsIn]
    by_cases hv : x.head? = some '.'
    · rw [if_pos hv]
      simp only [dirsIn]
      exact (DirsOk.unreached (w := w) (path := x :: path) n (fun h => h.1 hv)).append ih
    · rw [if_neg hv]
      have h := cleanNode_dirs w path x hr ho hv n
      cases hc : cleanNode w (x :: path) x n with
      | none => rw [hc] at h; exact h.append ih
      | some n' => rw [hc] at h; simp only [dirsIn]; exact h.append ih
end

end Verif.HlsClean
