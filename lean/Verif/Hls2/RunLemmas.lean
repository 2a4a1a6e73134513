import Verif.Hls2.SliceLemmas
/-
Runs: what was taken from the queue so far, and how fragments grow.
-/
namespace Verif.Hls2
open Verif Spec

theorem snoc_ind {α : Type} {P : List α → Prop} (h0 : P []) (h1 : ∀ l x, P l → P (l ++ [x])) (l : List α) : P l := by
  have : ∀ r : List α, P r.reverse := by
    intro r
    induction r with
    | nil => exact h0
    | cons x r ih =>
      rw [List.reverse_cons]
      exact h1 _ _ ih
  simpa using this l.reverse

/-- The fragments of what was taken -/
def slice (c : Conf) (items : List Item) : List Group := items.foldl (extend c) []

theorem slice_snoc (c : Conf) (items : List Item) (x : Item) : slice c (items ++ [x]) = extend c (slice c items) x := by simp [slice]

theorem extend_ne (c : Conf) (gs : List Group) (x : Item) : extend c gs x ≠ [] := by
  unfold extend
  split
  · simp
  · split <;> simp

theorem extend_app (c : Conf) (a : List Group) (g : Group) (x : Item) : extend c (a ++ [g]) x = if Cut c g.start x then (a ++ [g]) ++ [⟨x, []⟩] else a ++ [Group.add g x] := by simp [extend]

theorem extend_items (c : Conf) (gs : List Group) (x : Item) : (extend c gs x).flatMap Group.items = gs.flatMap Group.items ++ [x] := by
  rcases last_cases gs with rfl | ⟨a, g, rfl⟩
  · simp [extend, Group.items]
  · rw [extend_app]
    split <;> simp [Group.items, Group.add]

theorem slice_items (c : Conf) (items : List Item) : (slice c items).flatMap Group.items = items := by
  refine snoc_ind (P := fun items => (slice c items).flatMap Group.items = items) rfl ?_ items
  intro l x ih
  rw [slice_snoc, extend_items, ih]

theorem slice_nil (c : Conf) (items : List Item) (h : slice c items = []) : items = [] := by
  have := slice_items c items
  rw [h] at this
  exact this.symm

theorem sliced_extend (c : Conf) (gs : List Group) (x : Item) (h : Sliced c gs) (ho : gs = [] → MayOpen x) : Sliced c (extend c gs x) := by
  rcases last_cases gs with rfl | ⟨a, g, rfl⟩
  · refine ⟨?_, ?_, ?_⟩
    · intro g e
      have : (⟨x, []⟩ : Group) = g := by simpa [extend] using e
      rw [← this]
      exact ho rfl
    · intro g e y hy
      have : g = ⟨x, []⟩ := by simpa [extend] using e
      subst this
      simp at hy
    · intro i p q _ e
      simp [extend] at e
  · rw [extend_app]
    by_cases hc : Cut c g.start x
    · rw [if_pos hc]
      refine ⟨?_, ?_, ?_⟩
      · intro p e
        refine h.hFirst p ?_
        cases a <;> simpa using e
      · intro p e y hy
        rcases List.mem_append.1 e with e | e
        · exact h.hIn p e y hy
        · have : p = ⟨x, []⟩ := by simpa using e
          subst this
          simp at hy
      · intro i p q e1 e2
        by_cases hi : i + 1 < (a ++ [g]).length
        · rw [List.getElem?_append_left hi] at e2
          rw [List.getElem?_append_left (by omega)] at e1
          exact h.hCut i p q e1 e2
        · have hl := (List.getElem?_eq_some_iff.1 e2).1
          simp only [List.length_append, List.length_cons, List.length_nil] at hl hi
          have : i = a.length := by omega
          subst this
          rw [List.getElem?_append_right (by simp)] at e2
          rw [List.append_assoc, List.getElem?_append_right (by simp)] at e1
          have e1 : g = p := by simpa using e1
          have e2 : (⟨x, []⟩ : Group) = q := by simpa using e2
          subst e1 e2
          exact hc
    · rw [if_neg hc]
      refine ⟨?_, ?_, ?_⟩
      · intro p e
        cases a with
        | nil =>
          have : Group.add g x = p := by simpa using e
          subst this
          exact h.hFirst g (by simp)
        | cons b a => exact h.hFirst p (by simpa using e)
      · intro p e y hy
        rcases List.mem_append.1 e with e | e
        · exact h.hIn p (by simp [e]) y hy
        · have : p = Group.add g x := by simpa using e
          subst this
          simp only [Group.add, List.mem_append, List.mem_cons, List.not_mem_nil, or_false] at hy
          rcases hy with hy | rfl
          · exact h.hIn g (by simp) y hy
          · exact hc
      · intro i p q e1 e2
        have hl := (List.getElem?_eq_some_iff.1 e2).1
        simp only [List.length_append, List.length_cons, List.length_nil] at hl
        rw [List.getElem?_append_left (by omega)] at e1
        by_cases hi : i + 1 < a.length
        · rw [List.getElem?_append_left hi] at e2
          exact h.hCut i p q (by rw [List.getElem?_append_left (by omega)]; exact e1) (by rw [List.getElem?_append_left hi]; exact e2)
        · have hi : i + 1 = a.length := by omega
          rw [hi, List.getElem?_append_right (Nat.le_refl _)] at e2
          have e2 : Group.add g x = q := by simpa using e2
          subst e2
          exact h.hCut i p g (by rw [List.getElem?_append_left (by omega)]; exact e1) (by rw [hi]; simp)

/-- Closed fragments stay, and so does the first frame of each. -/
structure Grows (a b : List Group) : Prop where
  hClosed : a.dropLast <+: b.dropLast
  hFirst : a.map (·.first) <+: b.map (·.first)

theorem Grows.refl (a : List Group) : Grows a a := ⟨List.prefix_refl _, List.prefix_refl _⟩
theorem Grows.trans {a b d : List Group} (h1 : Grows a b) (h2 : Grows b d) : Grows a d := ⟨h1.1.trans h2.1, h1.2.trans h2.2⟩

theorem grows_extend (c : Conf) (gs : List Group) (x : Item) : Grows gs (extend c gs x) := by
  rcases last_cases gs with rfl | ⟨a, g, rfl⟩
  · exact ⟨by simp, by simp⟩
  · rw [extend_app]
    split
    · exact ⟨by rw [List.dropLast_concat, List.dropLast_concat]; exact List.prefix_append _ _, by simp⟩
    · exact ⟨by rw [List.dropLast_concat, List.dropLast_concat]; exact List.prefix_refl _, by simp [Group.add]⟩

theorem grows_slice (c : Conf) (a b : List Item) : Grows (slice c a) (slice c (a ++ b)) := by
  refine snoc_ind (P := fun b => Grows (slice c a) (slice c (a ++ b))) ?_ ?_ b
  · rw [List.append_nil]
    exact Grows.refl _
  · intro l x ih
    rw [← List.append_assoc, slice_snoc]
    exact ih.trans (grows_extend c _ x)

/-! ### Runs -/

/-- A session after the frames of `items` have been taken from its queue -/
structure Run (c : Conf) (s : Sess) (items : List Item) : Prop where
  hInv : Inv c s.st (slice c items)
  hQueue : items = [] ∨ s.queue = []
  hPts : ∀ f ∈ s.queue, f.pts < 2 ^ 63
  hSliced : Sliced c (slice c items)

theorem run_init (c : Conf) : Run c ⟨init c, []⟩ [] := by
  refine ⟨inv_init c, Or.inl rfl, by simp, ⟨by simp [slice], by simp [slice], by simp [slice]⟩⟩

theorem sliced_fold (c : Conf) (k : Codec) : ∀ (fs : List Frame) (gs : List Group), Sliced c gs → (gs = [] → ∀ f l, fs = f :: l → MayOpen (k, f)) → Sliced c ((fs.map fun f => (k, f)).foldl (extend c) gs) := by
  intro fs
  induction fs with
  | nil => intro gs h _; exact h
  | cons f fs ih =>
    intro gs h ho
    rw [List.map_cons, List.foldl_cons]
    exact ih _ (sliced_extend c gs _ h fun e => ho e f fs rfl) fun e => absurd e (extend_ne c gs _)

structure Plain (c : Conf) : Prop where
  hPlain : c.aligned = false
  hQueue : c.queue ≠ 0
  hLen : c.fraglen * 90 < 2 ^ 63

theorem run_feed {c : Conf} (hp : Plain c) {s : Sess} {items : List Item} (h : Run c s items) (k : Codec) (fs : List Frame) (hf : ∀ f ∈ fs, f.pts < 2 ^ 63) :
    ∃ s' new, feed c k fs s = some s' ∧ Run c s' (items ++ new) ∧ new.map (·.2) ++ s'.queue = s.queue ++ fs ∧ (∀ x ∈ new, x.1 = k) ∧
      (s'.queue = [] ∨ (items ++ new = [] ∧ ∀ f l, s'.queue = f :: l → ¬ MayOpen (k, f))) := by
  have hpts : ∀ f ∈ s.queue ++ fs, f.pts < 2 ^ 63 := by
    intro f hm
    rcases List.mem_append.1 hm with hm | hm
    · exact h.hPts f hm
    · exact hf f hm
  obtain ⟨u1, u2⟩ := inv_update hp.1 hp.2 hp.3 k (s.queue ++ fs) s.st (slice c items) h.hInv hpts
  unfold feed
  by_cases hgo : slice c items ≠ [] ∨ ∀ f l, s.queue ++ fs = f :: l → MayOpen (k, f)
  · obtain ⟨s', e, i⟩ := u1 hgo
    refine ⟨⟨s', []⟩, (s.queue ++ fs).map fun f => (k, f), by rw [e]; rfl, ⟨?_, Or.inr rfl, by simp, ?_⟩, ?_, ?_, Or.inl rfl⟩
    · have : slice c (items ++ (s.queue ++ fs).map fun f => (k, f)) = ((s.queue ++ fs).map fun f => (k, f)).foldl (extend c) (slice c items) := by simp [slice]
      rw [this]
      exact i
    · have : slice c (items ++ (s.queue ++ fs).map fun f => (k, f)) = ((s.queue ++ fs).map fun f => (k, f)).foldl (extend c) (slice c items) := by simp [slice]
      rw [this]
      exact sliced_fold c k _ _ h.hSliced fun e => hgo.resolve_left (fun g => g e)
    · rw [List.map_map, List.append_nil]
      exact List.map_id' _
    · intro x hx
      obtain ⟨f, _, rfl⟩ := List.mem_map.1 hx
      rfl
  · obtain ⟨g1, g2⟩ := not_or.1 hgo
    have g1 : slice c items = [] := Decidable.not_not.1 g1
    have hi := slice_nil c items g1
    subst hi
    cases hfs : s.queue ++ fs with
    | nil => exact absurd (fun f l e => by rw [hfs] at e; exact absurd e (by simp)) g2
    | cons f l =>
      have hn : ¬ MayOpen (k, f) := fun hm => g2 fun f' l' e => by
        rw [hfs] at e
        injection e with e1 _
        subst e1
        exact hm
      have e := u2 f l g1 hfs hn
      rw [hfs] at e
      refine ⟨⟨s.st, f :: l⟩, [], by rw [e]; rfl, ⟨h.hInv, Or.inl rfl, by rw [← hfs]; exact hpts, h.hSliced⟩, rfl, by simp, Or.inr ⟨rfl, ?_⟩⟩
      intro f' l' e'
      injection e' with e1 _
      subst e1
      exact hn

theorem run_feeds {c : Conf} (hp : Plain c) : ∀ (l : List (Codec × List Frame)) (s : Sess) (items : List Item), Run c s items → (∀ x ∈ l, ∀ f ∈ x.2, f.pts < 2 ^ 63) →
    ∃ s' new, feeds c l s = some s' ∧ Run c s' (items ++ new) ∧ new.map (·.2) ++ s'.queue = s.queue ++ l.flatMap (·.2) ∧ (∀ x ∈ new, x.1 ∈ l.map (·.1)) := by
  intro l
  induction l with
  | nil =>
    intro s items h _
    exact ⟨s, [], rfl, by simpa using h, by simp, by simp⟩
  | cons x l ih =>
    intro s items h hf
    obtain ⟨k, fs⟩ := x
    obtain ⟨s1, n1, e1, r1, q1, t1, _⟩ := run_feed hp h k fs (hf (k, fs) (by simp))
    obtain ⟨s2, n2, e2, r2, q2, t2⟩ := ih s1 _ r1 (fun x hx => hf x (by simp [hx]))
    refine ⟨s2, n1 ++ n2, ?_, by rw [← List.append_assoc]; exact r2, ?_, ?_⟩
    · unfold feeds
      rw [e1]
      exact e2
    · rw [List.map_append, List.append_assoc, q2, ← List.append_assoc, q1]
      simp
    · intro x hx
      rcases List.mem_append.1 hx with hx | hx
      · simp [t1 x hx]
      · have := t2 x hx
        simp only [List.map_cons, List.mem_cons]
        exact Or.inr this

theorem feeds_app (c : Conf) : ∀ (a b : List (Codec × List Frame)) (s : Sess), feeds c (a ++ b) s = (feeds c a s).bind (feeds c b) := by
  intro a
  induction a with
  | nil => intro b s; rfl
  | cons x a ih =>
    intro b s
    obtain ⟨k, fs⟩ := x
    simp only [List.cons_append, feeds]
    cases feed c k fs s with
    | none => rfl
    | some s' => simp [ih]

end Verif.Hls2
