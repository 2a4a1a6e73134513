import Verif.Base.Linked
/- Disjoint linked lists in one heap, each node on at most one of them. -/
namespace Verif

section
variable {κ : Type} [DecidableEq κ]

/-- Function update. -/
def set {α β : Type} [DecidableEq α] (f : α → β) (i : α) (v : β) : α → β := fun j => if j = i then v else f j

theorem set_same {α β : Type} [DecidableEq α] (f : α → β) (i : α) (v : β) : set f i v i = v := if_pos rfl
theorem set_ne {α β : Type} [DecidableEq α] (f : α → β) {i j : α} (v : β) (h : j ≠ i) : set f i v j = f j := if_neg h

/-- The nodes reached from `head k` are those with `key = some k`; `key n = none`: node `n` is on no list. -/
def Chains (next : Nat → Option Nat) (head : κ → Option Nat) (key : Nat → Option κ) : Prop :=
  ∀ k, ∃ l, Linked next (head k) l ∧ l.Nodup ∧ ∀ n, n ∈ l ↔ key n = some k

variable {next : Nat → Option Nat} {head : κ → Option Nat} {key : Nat → Option κ}

/-- A node on no list may be written. -/
theorem Chains.limbo (h : Chains next head key) {next' : Nat → Option Nat} (hx : ∀ m, key m ≠ none → next' m = next m) :
    Chains next' head key := fun k => by
  obtain ⟨l, h1, h2, h3⟩ := h k
  exact ⟨l, h1.congr (fun a ha => hx a (by rw [(h3 a).1 ha]; simp)), h2, h3⟩

theorem Chains.mem_head (h : Chains next head key) {k : κ} {n : Nat} (hn : head k = some n) : key n = some k := by
  obtain ⟨l, h1, h2, h3⟩ := h k
  cases l with
  | nil => rw [hn] at h1; cases h1
  | cons a l => rw [hn] at h1; cases h1.1; exact (h3 n).1 (by simp)

/-- `head = n->next` -/
theorem Chains.pop (h : Chains next head key) {k : κ} {n : Nat} (hn : head k = some n) :
    Chains next (set head k (next n)) (set key n none) := fun k' => by
  by_cases e : k' = k
  · subst e
    obtain ⟨l, h1, h2, h3⟩ := h k'
    cases l with
    | nil => rw [hn] at h1; cases h1
    | cons a l =>
      rw [hn] at h1
      cases h1.1
      have hnl := List.nodup_cons.1 h2
      refine ⟨l, by rw [set_same]; exact h1.2, hnl.2, fun m => ?_⟩
      by_cases em : m = n
      · subst em; rw [set_same]; simp [hnl.1]
      · rw [set_ne _ _ em, ← h3 m]; simp [em]
  · obtain ⟨l, h1, h2, h3⟩ := h k'
    have hk := h.mem_head hn
    refine ⟨l, by rw [set_ne _ _ e]; exact h1, h2, fun m => ?_⟩
    by_cases em : m = n
    · subst em; rw [set_same, h3 m, hk]; simp; exact fun e' => e e'.symm
    · rw [set_ne _ _ em, h3 m]

/-- `n->next = head; head = n` -/
theorem Chains.push (h : Chains next head key) {k : κ} {n : Nat} (hn : key n = none) {next' : Nat → Option Nat}
    (h1 : next' n = head k) (h2 : ∀ m, m ≠ n → next' m = next m) :
    Chains next' (set head k (some n)) (set key n (some k)) := fun k' => by
  obtain ⟨l, g1, g2, g3⟩ := h k'
  have hnl : n ∉ l := fun hm => by have := (g3 n).1 hm; rw [hn] at this; cases this
  have hl : Linked next' (head k') l := g1.congr (fun a ha => h2 a (fun e => hnl (e ▸ ha)))
  by_cases e : k' = k
  · subst e
    refine ⟨n :: l, by rw [set_same]; exact ⟨rfl, by rw [h1]; exact hl⟩, List.nodup_cons.2 ⟨hnl, g2⟩, fun m => ?_⟩
    by_cases em : m = n
    · subst em; rw [set_same]; simp
    · rw [set_ne _ _ em, ← g3 m]; simp [em]
  · refine ⟨l, by rw [set_ne _ _ e]; exact hl, g2, fun m => ?_⟩
    by_cases em : m = n
    · subst em; rw [set_same]; simp [hnl]; exact fun e' => e e'.symm
    · rw [set_ne _ _ em, g3 m]

/-- What a search in list `k` finds, when there is fuel for more than all nodes. -/
theorem Chains.search (h : Chains next head key) (k : κ) (p : Nat → Bool) {N : Nat} (hN : ∀ n, key n ≠ none → n < N) :
    (∃ n l1 l2, key n = some k ∧ p n = true ∧ Linked next (head k) (l1 ++ n :: l2) ∧ (l1 ++ n :: l2).Nodup ∧
      (∀ m, m ∈ l1 ++ n :: l2 ↔ key m = some k) ∧
      searchLink next p (N + 1) none (head k) = some (lastOr none l1, some n)) ∨
    ((∀ n, key n = some k → p n = false) ∧ ∃ l, Linked next (head k) l ∧ l.Nodup ∧ (∀ m, m ∈ l ↔ key m = some k) ∧
      searchLink next p (N + 1) none (head k) = some (lastOr none l, none)) := by
  obtain ⟨l, g1, g2, g3⟩ := h k
  have hlen : l.length < N + 1 := by
    have := g2.length_le_of_subset (l₂ := List.range N) (fun a ha => List.mem_range.2 (hN a (by rw [(g3 a).1 ha]; simp)))
    rw [List.length_range] at this; omega
  rcases searchLink_spec (p := p) (pr := none) g1 hlen with ⟨l1, i, l2, e, q1, q2, q3⟩ | ⟨q1, q2⟩
  · subst e
    exact .inl ⟨i, l1, l2, (g3 i).1 (by simp), q2, g1, g2, g3, q3⟩
  · exact .inr ⟨fun n hn => q1 n ((g3 n).2 hn), l, g1, g2, g3, q2⟩

/-- `*pp = n->next` -/
theorem Chains.unlink (h : Chains next head key) {k : κ} {n : Nat} {l1 l2 : List Nat} (hl : Linked next (head k) (l1 ++ n :: l2))
    (hd : (l1 ++ n :: l2).Nodup) (hm : ∀ m, m ∈ l1 ++ n :: l2 ↔ key m = some k) :
    Chains (setNext next (lastOr none l1) (next n)) (set head k (setHead (head k) (lastOr none l1) (next n))) (set key n none) := fun k' => by
  by_cases e : k' = k
  · subst e
    have hnn : n ∉ l1 ++ l2 := by
      have := (List.perm_middle (a := n) (l₁ := l1) (l₂ := l2)).nodup_iff.1 hd
      exact (List.nodup_cons.1 this).1
    refine ⟨l1 ++ l2, by rw [set_same]; exact hl.remove hd (fun _ _ => rfl), ?_, fun m => ?_⟩
    · exact (List.nodup_cons.1 ((List.perm_middle (a := n) (l₁ := l1) (l₂ := l2)).nodup_iff.1 hd)).2
    · by_cases em : m = n
      · subst em; rw [set_same]; simp only [hnn, false_iff]; simp
      · rw [set_ne _ _ em, ← hm m]; simp [em]
  · obtain ⟨l, g1, g2, g3⟩ := h k'
    refine ⟨l, ?_, g2, fun m => ?_⟩
    · rw [set_ne _ _ e]
      refine g1.congr (fun a ha => setNext_ne _ _ (fun e' => ?_))
      have h1 := (lastOr_mem l1 none a e').resolve_left (by simp)
      have h2 := (hm a).1 (by simp [h1])
      rw [(g3 a).1 ha] at h2
      exact e (Option.some.inj h2)
    · by_cases em : m = n
      · subst em
        rw [set_same, g3 m, (hm m).1 (by simp)]
        simp; exact fun e' => e e'.symm
      · rw [set_ne _ _ em, g3 m]

/-- `*pp = n` at the end of a list. -/
theorem Chains.append (h : Chains next head key) {k : κ} {n : Nat} {l : List Nat} (hl : Linked next (head k) l)
    (hd : l.Nodup) (hm : ∀ m, m ∈ l ↔ key m = some k) (hn : key n = none) (hx : next n = none) :
    Chains (setNext next (lastOr none l) (some n)) (set head k (setHead (head k) (lastOr none l) (some n))) (set key n (some k)) := fun k' => by
  have hnl : n ∉ l := fun h' => by have := (hm n).1 h'; rw [hn] at this; cases this
  by_cases e : k' = k
  · subst e
    refine ⟨l ++ [n], by
      rw [set_same]
      refine hl.append hd hnl ?_ (fun _ _ => rfl)
      rw [setNext_ne _ _ (fun e' => hnl ((lastOr_mem l none n e').resolve_left (by simp))), hx], ?_, fun m => ?_⟩
    · rw [List.nodup_append]
      refine ⟨hd, by simp, ?_⟩
      rintro a ha b hb rfl
      simp at hb; exact hnl (hb ▸ ha)
    · by_cases em : m = n
      · subst em; rw [set_same]; simp
      · rw [set_ne _ _ em, ← hm m]; simp [em]
  · obtain ⟨l', g1, g2, g3⟩ := h k'
    refine ⟨l', ?_, g2, fun m => ?_⟩
    · rw [set_ne _ _ e]
      refine g1.congr (fun a ha => setNext_ne _ _ (fun e' => ?_))
      have h1 := (lastOr_mem l none a e').resolve_left (by simp)
      have h2 := (hm a).1 h1
      rw [(g3 a).1 ha] at h2
      exact e (Option.some.inj h2)
    · by_cases em : m = n
      · subst em
        rw [set_same, g3 m, hn]
        simp; exact fun e' => e e'.symm
      · rw [set_ne _ _ em, g3 m]

end

/-- `k` numbers satisfy `P`. -/
def Count (P : Nat → Prop) (k : Nat) : Prop := ∃ l : List Nat, l.Nodup ∧ (∀ n, n ∈ l ↔ P n) ∧ k = l.length

theorem Count.zero {P : Nat → Prop} (h : ∀ n, ¬ P n) : Count P 0 := ⟨[], List.nodup_nil, fun n => by simp [h n], rfl⟩

theorem Count.congr {P Q : Nat → Prop} {k : Nat} (h : Count P k) (e : ∀ n, Q n ↔ P n) : Count Q k := by
  obtain ⟨l, h1, h2, h3⟩ := h
  exact ⟨l, h1, fun n => by rw [h2, e], h3⟩

theorem Count.add {P Q : Nat → Prop} {k n : Nat} (h : Count P k) (hn : ¬ P n) (e : ∀ m, Q m ↔ m = n ∨ P m) : Count Q (k + 1) := by
  obtain ⟨l, h1, h2, h3⟩ := h
  exact ⟨n :: l, List.nodup_cons.2 ⟨fun hm => hn ((h2 n).1 hm), h1⟩, fun m => by rw [List.mem_cons, h2, e], by simp [h3]⟩

theorem Count.sub {P Q : Nat → Prop} {k n : Nat} (h : Count P k) (hn : P n) (e : ∀ m, Q m ↔ m ≠ n ∧ P m) : 0 < k ∧ Count Q (k - 1) := by
  obtain ⟨l, h1, h2, h3⟩ := h
  have hm := (h2 n).2 hn
  refine ⟨by rw [h3]; exact List.length_pos_of_mem hm, l.erase n, h1.erase n, fun m => ?_, ?_⟩
  · rw [h1.mem_erase_iff, h2, e]
  · rw [List.length_erase_of_mem hm, h3]

theorem Count.unique {P : Nat → Prop} {j k : Nat} (h : Count P j) (h' : Count P k) : j = k := by
  obtain ⟨l, h1, h2, h3⟩ := h
  obtain ⟨l', g1, g2, g3⟩ := h'
  rw [h3, g3]
  exact length_eq_of_mem_iff h1 g1 (fun a => by rw [h2, g2])

theorem Count.zero_iff {P : Nat → Prop} {k : Nat} (h : Count P k) : k = 0 ↔ ∀ n, ¬ P n := by
  obtain ⟨l, h1, h2, h3⟩ := h
  subst h3
  constructor
  · intro h n hn
    have := (h2 n).2 hn
    rw [List.length_eq_zero_iff.1 h] at this; cases this
  · intro h
    cases l with
    | nil => rfl
    | cons a l => exact absurd ((h2 a).1 (by simp)) (h a)

end Verif
