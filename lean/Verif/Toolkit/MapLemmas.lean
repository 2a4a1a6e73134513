import Verif.Toolkit.MapSpec
/- Helper lemmas about `ngx_map`. -/
namespace Verif.Map

variable {K : Type}

theorem order_total [DecidableEq K] {c : Conf K} (h : Total c.cmp) : Total c.order where
  eq_iff := by
    intro a b
    unfold Conf.order
    by_cases h1 : c.hash a < c.hash b
    · rw [if_pos h1]; simp; intro e; subst e; omega
    · rw [if_neg h1]
      by_cases h2 : c.hash b < c.hash a
      · rw [if_pos h2]; simp; intro e; subst e; omega
      · rw [if_neg h2]; exact h.eq_iff a b
  swap := by
    intro a b
    unfold Conf.order
    by_cases h1 : c.hash a < c.hash b
    · rw [if_pos h1, if_neg (by omega), if_pos h1]; simp
    · by_cases h2 : c.hash b < c.hash a
      · rw [if_neg h1, if_pos h2, if_pos h2]; simp
      · rw [if_neg h1, if_neg h2, if_neg h2, if_neg h1]; exact h.swap a b
  trans := by
    intro a b d
    unfold Conf.order
    by_cases h1 : c.hash a < c.hash b
    · rw [if_pos h1]
      by_cases h2 : c.hash b < c.hash d
      · intro _ _; rw [if_pos (by omega)]
      · rw [if_neg h2]
        by_cases h3 : c.hash d < c.hash b
        · rw [if_pos h3]; intro _ h; cases h
        · intro _ _; rw [if_pos (by omega)]
    · rw [if_neg h1]
      by_cases h4 : c.hash b < c.hash a
      · rw [if_pos h4]; intro h; cases h
      · rw [if_neg h4]
        by_cases h2 : c.hash b < c.hash d
        · intro _ _; rw [if_pos (by omega)]
        · rw [if_neg h2]
          by_cases h3 : c.hash d < c.hash b
          · rw [if_pos h3]; intro _ h; cases h
          · rw [if_neg h3, if_neg (by omega), if_neg (by omega)]; exact h.trans a b d

/-- Strictly increasing in the order of the map. -/
def Sorted (c : Conf K) (l : List (Entry K)) : Prop := l.Pairwise (fun x y => c.order x.key y.key = .lt)

theorem sorted_node {c : Conf K} {l r : Tree K} {e : Entry K} :
    Sorted c (Tree.node l e r).inorder ↔ Sorted c l.inorder ∧ Sorted c r.inorder ∧
      (∀ x ∈ r.inorder, c.order e.key x.key = .lt) ∧ (∀ x ∈ l.inorder, c.order x.key e.key = .lt) ∧
      ∀ x ∈ l.inorder, ∀ y ∈ r.inorder, c.order x.key y.key = .lt := by
  have e1 : (Tree.node l e r).inorder = l.inorder ++ e :: r.inorder := rfl
  rw [e1]
  unfold Sorted
  rw [List.pairwise_append, List.pairwise_cons]
  constructor
  · rintro ⟨h1, ⟨h2, h3⟩, h4⟩
    exact ⟨h1, h3, h2, fun x hx => h4 x hx e (by simp), fun x hx y hy => h4 x hx y (by simp [hy])⟩
  · rintro ⟨h1, h3, h2, h4, h5⟩
    refine ⟨h1, ⟨h2, h3⟩, ?_⟩
    intro x hx y hy
    rcases List.mem_cons.1 hy with rfl | hy
    · exact h4 x hx
    · exact h5 x hx y hy

variable [DecidableEq K]

theorem find_iff {c : Conf K} (hc : Total c.cmp) (k : K) (e : Entry K) : ∀ (t : Tree K), Sorted c t.inorder →
    (find c k t = some e ↔ e ∈ t.inorder ∧ e.key = k) := by
  have ho := order_total hc
  intro t
  induction t with
  | leaf => intro _; simp [find, Tree.inorder]
  | node l x r ihl ihr =>
    intro hs
    obtain ⟨h1, h2, h3, h4, h5⟩ := sorted_node.1 hs
    have key_lt : ∀ {a b : K}, c.order a b = .lt → a ≠ b := by
      intro a b hab e
      rw [(ho.eq_iff a b).2 e] at hab; cases hab
    simp only [find, Tree.inorder, List.mem_append, List.mem_cons]
    cases hk : c.order k x.key with
    | eq =>
      have hkx := (ho.eq_iff _ _).1 hk
      subst hkx
      simp only [Option.some.injEq]
      constructor
      · intro h; subst h; simp
      · rintro ⟨h | h | h, he⟩
        · exact absurd he (key_lt (h4 e h))
        · exact h.symm
        · exact absurd he.symm (key_lt (h3 e h))
    | lt =>
      simp only
      rw [ihl h1]
      constructor
      · rintro ⟨h, he⟩; exact ⟨.inl h, he⟩
      · rintro ⟨h | h | h, he⟩
        · exact ⟨h, he⟩
        · subst h; exact absurd he.symm (key_lt hk)
        · exact absurd he.symm (key_lt (ho.trans _ _ _ hk (h3 e h)))
    | gt =>
      simp only
      have hk' := (ho.swap _ _).2 hk
      rw [ihr h2]
      constructor
      · rintro ⟨h, he⟩; exact ⟨.inr (.inr h), he⟩
      · rintro ⟨h | h | h, he⟩
        · exact absurd he (key_lt (ho.trans _ _ _ (h4 e h) hk'))
        · subst h; exact absurd he (key_lt hk')
        · exact ⟨h, he⟩

theorem find_none_iff {c : Conf K} (hc : Total c.cmp) (k : K) (t : Tree K) (hs : Sorted c t.inorder) :
    find c k t = none ↔ ∀ e ∈ t.inorder, e.key ≠ k := by
  constructor
  · intro h e he hk
    rw [(find_iff hc k e t hs).2 ⟨he, hk⟩] at h
    cases h
  · intro h
    cases hf : find c k t with
    | none => rfl
    | some e =>
      have := (find_iff hc k e t hs).1 hf
      exact absurd this.2 (h e this.1)

theorem insert_spec {c : Conf K} (hc : Total c.cmp) (e : Entry K) : ∀ (t : Tree K), Sorted c t.inorder →
    (∀ x ∈ t.inorder, x.key ≠ e.key) →
    ∃ a b, t.inorder = a ++ b ∧ (insertValue c e t).inorder = a ++ e :: b ∧
      (∀ x ∈ a, c.order x.key e.key = .lt) ∧ ∀ x ∈ b, c.order e.key x.key = .lt := by
  have ho := order_total hc
  intro t
  induction t with
  | leaf => intro _ _; exact ⟨[], [], rfl, rfl, by simp, by simp⟩
  | node l x r ihl ihr =>
    intro hs hn
    obtain ⟨h1, h2, h3, h4, h5⟩ := sorted_node.1 hs
    simp only [Tree.inorder, List.mem_append, List.mem_cons] at hn
    simp only [insertValue]
    cases hk : c.order e.key x.key with
    | eq => exact absurd ((ho.eq_iff _ _).1 hk).symm (hn x (by simp))
    | lt =>
      obtain ⟨a, b, e1, e2, e3, e4⟩ := ihl h1 (fun y hy => hn y (.inl hy))
      refine ⟨a, b ++ x :: r.inorder, by simp [Tree.inorder, e1], by simp [Tree.inorder, e2], e3, ?_⟩
      intro y hy
      rcases List.mem_append.1 hy with hy | hy
      · exact e4 y hy
      · rcases List.mem_cons.1 hy with rfl | hy
        · exact hk
        · exact ho.trans _ _ _ hk (h3 y hy)
    | gt =>
      have hk' := (ho.swap _ _).2 hk
      obtain ⟨a, b, e1, e2, e3, e4⟩ := ihr h2 (fun y hy => hn y (.inr (.inr hy)))
      refine ⟨l.inorder ++ x :: a, b, by simp [Tree.inorder, e1], by simp [Tree.inorder, e2], ?_, e4⟩
      intro y hy
      rcases List.mem_append.1 hy with hy | hy
      · exact ho.trans _ _ _ (h4 y hy) hk'
      · rcases List.mem_cons.1 hy with rfl | hy
        · exact hk'
        · exact e3 y hy

/-- Insertion of a new key. -/
theorem rbInsert_spec {c : Conf K} (hc : Total c.cmp) {t t' : Tree K} {e : Entry K} (hs : Sorted c t.inorder)
    (hn : ∀ x ∈ t.inorder, x.key ≠ e.key) (h : RbInsert c t e t') :
    Sorted c t'.inorder ∧ ∀ x, x ∈ t'.inorder ↔ x = e ∨ x ∈ t.inorder := by
  have ho := order_total hc
  obtain ⟨a, b, e1, e2, e3, e4⟩ := insert_spec hc e t hs hn
  unfold RbInsert at h
  rw [h, e2]
  constructor
  · unfold Sorted at hs ⊢
    rw [e1, List.pairwise_append] at hs
    rw [List.pairwise_append, List.pairwise_cons]
    refine ⟨hs.1, ⟨e4, hs.2.1⟩, ?_⟩
    intro x hx y hy
    rcases List.mem_cons.1 hy with rfl | hy
    · exact e3 x hx
    · exact hs.2.2 x hx y hy
  · intro x
    rw [e1]
    simp only [List.mem_append, List.mem_cons]
    constructor
    · rintro (h | h | h)
      · exact .inr (.inl h)
      · exact .inl h
      · exact .inr (.inr h)
    · rintro (h | h | h)
      · exact .inr (.inl h)
      · exact .inl h
      · exact .inr (.inr h)

theorem delete_spec {c : Conf K} (hc : Total c.cmp) {t t' : Tree K} {k : K} (hs : Sorted c t.inorder)
    (h : Delete c t k t') : Sorted c t'.inorder ∧ ∀ x, x ∈ t'.inorder ↔ x ∈ t.inorder ∧ x.key ≠ k := by
  have ho := order_total hc
  cases h with
  | miss h =>
    refine ⟨hs, fun x => ⟨fun hx => ⟨hx, (find_none_iff hc k t hs).1 h x hx⟩, fun hx => hx.1⟩⟩
  | @hit e _ hf hd =>
    obtain ⟨a, b, e1, e2⟩ := hd
    have hek := ((find_iff hc k e t hs).1 hf).2
    unfold Sorted at hs ⊢
    rw [e1, List.pairwise_append, List.pairwise_cons] at hs
    obtain ⟨s1, ⟨s2, s3⟩, s4⟩ := hs
    have key_lt : ∀ {a b : K}, c.order a b = .lt → a ≠ b := by
      intro a b hab e
      rw [(ho.eq_iff a b).2 e] at hab; cases hab
    rw [e1, e2]
    refine ⟨List.pairwise_append.2 ⟨s1, s3, fun x hx y hy => s4 x hx y (by simp [hy])⟩, ?_⟩
    intro x
    simp only [List.mem_append, List.mem_cons]
    constructor
    · rintro (hx | hx)
      · exact ⟨.inl hx, by rw [← hek]; exact key_lt (s4 x hx e (by simp))⟩
      · exact ⟨.inr (.inr hx), by rw [← hek]; exact (key_lt (s2 x hx)).symm⟩
    · rintro ⟨hx | hx | hx, hne⟩
      · exact .inl hx
      · subst hx; exact absurd hek hne
      · exact .inr hx

theorem contents_key : ∀ (ops : List (Op K)) (k : K) (e : Entry K), contents ops k = some e → e.key = k := by
  intro ops
  induction ops with
  | nil => intro k e h; cases h
  | cons o ops ih =>
    intro k e h
    cases o with
    | delete k' =>
      simp only [contents] at h
      by_cases hk : k = k'
      · rw [if_pos hk] at h; cases h
      · rw [if_neg hk] at h; exact ih k e h
    | insert x cov =>
      simp only [contents] at h
      by_cases hk : k = x.key
      · rw [if_pos hk] at h
        cases ho : contents ops k with
        | none => rw [ho] at h; simp at h; subst h; exact hk.symm
        | some old =>
          rw [ho] at h
          cases cov with
          | true => simp at h; subst h; exact hk.symm
          | false => simp at h; subst h; exact ih k old ho
      · rw [if_neg hk] at h; exact ih k e h

theorem run_spec {c : Conf K} (hc : Total c.cmp) {ops : List (Op K)} {t : Tree K} (h : Run c ops t) :
    Sorted c t.inorder ∧ ∀ e, e ∈ t.inorder ↔ contents ops e.key = some e := by
  induction h with
  | init => exact ⟨List.Pairwise.nil, by simp [Tree.inorder, contents]⟩
  | @delete ops t k t' _ hd ih =>
    obtain ⟨hs, hm⟩ := ih
    obtain ⟨s, m⟩ := delete_spec hc hs hd
    refine ⟨s, fun e => ?_⟩
    rw [m e, hm e]
    simp only [contents]
    by_cases hk : e.key = k
    · simp [hk]
    · simp [hk]
  | @insert ops t e cov t' _ hi ih =>
    obtain ⟨hs, hm⟩ := ih
    have hnone : find c e.key t = none → contents ops e.key = none := by
      intro hf
      cases hcn : contents ops e.key with
      | none => rfl
      | some x =>
        have hk := contents_key ops _ _ hcn
        have : x ∈ t.inorder := (hm x).2 (by rw [hk]; exact hcn)
        exact absurd hk ((find_none_iff hc _ t hs).1 hf x this)
    have hsome : ∀ x, find c e.key t = some x → contents ops e.key = some x := by
      intro x hf
      have := (find_iff hc _ x t hs).1 hf
      have h2 := (hm x).1 this.1
      rwa [this.2] at h2
    cases hi with
    | fresh hf hr =>
      obtain ⟨s, m⟩ := rbInsert_spec hc hs ((find_none_iff hc _ t hs).1 hf) hr
      refine ⟨s, fun x => ?_⟩
      rw [m x, hm x]
      simp only [contents]
      by_cases hk : x.key = e.key
      · rw [if_pos hk, hk, hnone hf]
        simp [eq_comm]
      · rw [if_neg hk]
        constructor
        · rintro (rfl | h)
          · exact absurd rfl hk
          · exact h
        · exact .inr
    | @keep x hf =>
      refine ⟨hs, fun y => ?_⟩
      rw [hm y]
      simp only [contents]
      by_cases hk : y.key = e.key
      · rw [if_pos hk, hk, hsome x hf]; simp
      · rw [if_neg hk]
    | @cover x t1 _ hf hd hr =>
      obtain ⟨s1, m1⟩ := delete_spec hc hs hd
      obtain ⟨s, m⟩ := rbInsert_spec hc s1 (fun y hy => ((m1 y).1 hy).2) hr
      refine ⟨s, fun y => ?_⟩
      rw [m y, m1 y, hm y]
      simp only [contents]
      by_cases hk : y.key = e.key
      · rw [if_pos hk, hk, hsome x hf]
        simp [eq_comm]
      · rw [if_neg hk]
        constructor
        · rintro (rfl | h)
          · exact absurd rfl hk
          · exact h.1
        · exact fun h => .inr ⟨h, hk⟩

/-! ### Iteration -/

omit [DecidableEq K]

/-- Positions of the nodes of the subtree `s` at position `p`, left to right. -/
def paths : Tree K → Path → List Path
  | .leaf, _ => []
  | .node l _ r, p => paths l (.left :: p) ++ p :: paths r (.right :: p)

theorem leftmost_head : ∀ (s : Tree K) (p : Path), s ≠ .leaf → (paths s p).head? = some (leftmost s p) := by
  intro s
  induction s with
  | leaf => intro p h; exact absurd rfl h
  | node l e r ihl _ =>
    intro p _
    cases l with
    | leaf => simp [paths, leftmost]
    | node l' e' r' =>
      have := ihl (.left :: p) (by simp)
      rw [paths, List.head?_append, this]
      simp [leftmost]

theorem rightmost_last : ∀ (s : Tree K) (p : Path), s ≠ .leaf → (paths s p).getLast? = some (rightmost s p) := by
  intro s
  induction s with
  | leaf => intro p h; exact absurd rfl h
  | node l e r _ ihr =>
    intro p _
    cases r with
    | leaf => simp [paths, rightmost]
    | node l' e' r' =>
      have := ihr (.right :: p) (by simp)
      rw [paths, List.getLast?_append, List.getLast?_cons, this]
      simp [rightmost]

theorem paths_nil {s : Tree K} {p : Path} : paths s p = [] ↔ s = .leaf := by
  cases s <;> simp [paths]

theorem next_paths (t : Tree K) : ∀ (s : Tree K) (p : Path), t.at p = s → ∀ (pre : List Path) (q : Path) (post : List Path),
    paths s p = pre ++ q :: post → next t q = (match post with | [] => climbLeft p | r :: _ => some r) := by
  intro s
  induction s with
  | leaf => intro p _ pre q post h; simp [paths] at h
  | node l e r ihl ihr =>
    intro p hp pre q post h
    have hl : t.at (.left :: p) = l := by simp [Tree.at, hp]
    have hr : t.at (.right :: p) = r := by simp [Tree.at, hp]
    rw [paths, List.append_eq_append_iff] at h
    rcases h with ⟨as, h1, h2⟩ | ⟨bs, h1, h2⟩
    · cases as with
      | nil =>
        -- `q` is this node
        simp only [List.nil_append, List.cons.injEq] at h2
        obtain ⟨rfl, h2⟩ := h2
        unfold next
        rw [hr]
        cases r with
        | leaf => simp only [paths] at h2; subst h2; rfl
        | node l' e' r' =>
          have := leftmost_head (.node l' e' r') (.right :: p) (by simp)
          rw [h2] at this
          cases post with
          | nil => simp at this
          | cons x post => simp only [List.head?_cons, Option.some.injEq] at this; rw [this]
      | cons a as =>
        -- in the right subtree
        simp only [List.cons_append, List.cons.injEq] at h2
        have := ihr (.right :: p) hr as q post h2.2
        rw [this]
        cases post <;> rfl
    · cases bs with
      | nil =>
        simp only [List.nil_append, List.cons.injEq] at h2
        obtain ⟨rfl, h2⟩ := h2
        unfold next
        rw [hr]
        cases r with
        | leaf => simp only [paths] at h2; subst h2; rfl
        | node l' e' r' =>
          have := leftmost_head (.node l' e' r') (.right :: q) (by simp)
          rw [← h2] at this
          cases post with
          | nil => simp at this
          | cons x post => simp only [List.head?_cons, Option.some.injEq] at this; rw [this]
      | cons b bs =>
        -- in the left subtree
        simp only [List.cons_append, List.cons.injEq] at h2
        obtain ⟨rfl, h2⟩ := h2
        have := ihl (.left :: p) hl pre q bs h1
        rw [this]
        cases bs with
        | nil => simp only [List.nil_append] at h2; subst h2; rfl
        | cons x bs => simp only [List.cons_append] at h2; subst h2; rfl

theorem prev_paths (t : Tree K) : ∀ (s : Tree K) (p : Path), t.at p = s → ∀ (pre : List Path) (q : Path) (post : List Path),
    paths s p = pre ++ q :: post → prev t q = (match pre.getLast? with | none => climbRight p | some r => some r) := by
  intro s
  induction s with
  | leaf => intro p _ pre q post h; simp [paths] at h
  | node l e r ihl ihr =>
    intro p hp pre q post h
    have hl : t.at (.left :: p) = l := by simp [Tree.at, hp]
    have hr : t.at (.right :: p) = r := by simp [Tree.at, hp]
    have self : ∀ pre', paths l (.left :: p) = pre' → prev t p =
        (match pre'.getLast? with | none => climbRight p | some r => some r) := by
      intro pre' h1
      unfold prev
      rw [hl]
      cases l with
      | leaf => simp only [paths] at h1; subst h1; rfl
      | node l' e' r' =>
        have := rightmost_last (.node l' e' r') (.left :: p) (by simp)
        rw [h1] at this
        rw [this]
    rw [paths, List.append_eq_append_iff] at h
    rcases h with ⟨as, h1, h2⟩ | ⟨bs, h1, h2⟩
    · cases as with
      | nil =>
        simp only [List.nil_append, List.cons.injEq] at h2
        simp only [List.append_nil] at h1
        obtain ⟨rfl, h2⟩ := h2
        exact self pre h1.symm
      | cons a as =>
        simp only [List.cons_append, List.cons.injEq] at h2
        obtain ⟨rfl, h2⟩ := h2
        rw [ihr (.right :: p) hr as q post h2, h1]
        cases as with
        | nil => simp [climbRight]
        | cons x as => simp [List.getLast?_append, List.getLast?_cons]
    · cases bs with
      | nil =>
        simp only [List.nil_append, List.cons.injEq] at h2
        simp only [List.append_nil] at h1
        obtain ⟨rfl, h2⟩ := h2
        exact self pre h1
      | cons b bs =>
        simp only [List.cons_append, List.cons.injEq] at h2
        obtain ⟨rfl, h2⟩ := h2
        rw [ihl (.left :: p) hl pre q bs h1]
        cases pre.getLast? <;> rfl

theorem paths_entries (t : Tree K) : ∀ (s : Tree K) (p : Path), t.at p = s →
    (paths s p).map t.entry? = s.inorder.map some := by
  intro s
  induction s with
  | leaf => intro p _; rfl
  | node l e r ihl ihr =>
    intro p hp
    have hl : t.at (.left :: p) = l := by simp [Tree.at, hp]
    have hr : t.at (.right :: p) = r := by simp [Tree.at, hp]
    simp only [paths, List.map_append, List.map_cons, Tree.inorder]
    rw [ihl _ hl, ihr _ hr]
    simp [Tree.entry?, hp]

end Verif.Map
