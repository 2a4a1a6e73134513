import Verif.Zone.Model
/- Helper lemmas about the stream zone: chains, and the effect of the list operations on a ghost description of the memory. -/
namespace Verif.Zone
open Verif

@[simp] theorem upd_self {α} (f : Nat → α) (i : Nat) (v : α) : upd f i v i = v := by simp [upd]
theorem upd_ne {α} (f : Nat → α) {i j : Nat} (v : α) (h : j ≠ i) : upd f i v j = f j := by simp [upd, h]

/-- `l` is the list of nodes met from `start` to the end of the chain. -/
inductive Chain (nodes : Nat → Node) : Option Nat → List Nat → Prop where
  | nil : Chain nodes none []
  | cons {i l} : Chain nodes (nodes i).next l → Chain nodes (some i) (i :: l)

theorem Chain.frame {nodes nodes' : Nat → Node} {s l} (h : Chain nodes s l) :
    (∀ i ∈ l, (nodes' i).next = (nodes i).next) → Chain nodes' s l := by
  induction h with
  | nil => intro _; exact .nil
  | @cons i l _ ih =>
    intro hf
    refine .cons ?_
    rw [hf i (by simp)]
    exact ih (fun j hj => hf j (by simp [hj]))

theorem Chain.head {nodes s l} (h : Chain nodes s l) : s = l.head? := by cases h <;> rfl

theorem Chain.tail {nodes s i l} (h : Chain nodes s (i :: l)) : Chain nodes (nodes i).next l := by
  cases h; assumption

/-- The node after the last one of a prefix. -/
def after (nodes : Nat → Node) (s : Option Nat) : Option Nat → Option Nat
  | none => s
  | some j => (nodes j).next

theorem Chain.drop {nodes : Nat → Node} (pre : List Nat) : ∀ {s : Option Nat} {post : List Nat},
    Chain nodes s (pre ++ post) → Chain nodes (after nodes s pre.getLast?) post := by
  induction pre with
  | nil => intro s post h; exact h
  | cons i pre ih =>
    intro s post h
    have := ih h.tail
    cases pre with
    | nil => exact this
    | cons j pre =>
      have e : (i :: j :: pre).getLast? = (j :: pre).getLast? := by simp
      rw [e]
      cases hl : (j :: pre).getLast? with
      | none => simp at hl
      | some x => rw [hl] at this; exact this

theorem Chain.after {nodes s pre post} (h : Chain nodes s (pre ++ post)) :
    Zone.after nodes s pre.getLast? = post.head? := (Chain.drop pre h).head

theorem search_spec (m : Mem) (name : Bytes) : ∀ (post : List Nat) (k : Nat) (pre : List Nat) (s : Option Nat),
    Chain m.nodes s post → post.length < k → (∀ i ∈ pre, isName (m.nodes i) name = false) →
    (∃ mid i post', post = mid ++ i :: post' ∧ (∀ j ∈ mid, isName (m.nodes j) name = false) ∧ isName (m.nodes i) name = true ∧
      search m name k pre.getLast? s = some ((pre ++ mid).getLast?, some i)) ∨
    ((∀ j ∈ post, isName (m.nodes j) name = false) ∧
      search m name k pre.getLast? s = some ((pre ++ post).getLast?, none)) := by
  intro post
  induction post with
  | nil =>
    intro k pre s h hk hp
    cases h
    cases k with
    | zero => omega
    | succ k => right; simp [search]
  | cons i post ih =>
    intro k pre s h hk hp
    have ht := h.tail
    have hs := h.head
    cases k with
    | zero => simp at hk
    | succ k =>
      simp only [List.head?_cons] at hs
      subst hs
      cases hn : isName (m.nodes i) name with
      | true =>
        left
        exact ⟨[], i, post, rfl, by simp, hn, by simp [search, hn]⟩
      | false =>
        have := ih k (pre ++ [i]) _ ht (by simp at hk; omega)
          (by intro j hj; rcases List.mem_append.1 hj with hj | hj
              · exact hp j hj
              · simp at hj; subst hj; exact hn)
        have hl : (pre ++ [i]).getLast? = some i := by simp
        rw [hl] at this
        rcases this with ⟨mid, j, post', h1, h2, h3, h4⟩ | ⟨h1, h2⟩
        · left
          refine ⟨i :: mid, j, post', by simp [h1], ?_, h3, ?_⟩
          · intro x hx
            rcases List.mem_cons.1 hx with rfl | hx
            · exact hn
            · exact h2 x hx
          · simp only [search, hn, Bool.false_eq_true, if_false, h4]
            simp
        · right
          refine ⟨?_, ?_⟩
          · intro x hx
            rcases List.mem_cons.1 hx with rfl | hx
            · exact hn
            · exact h1 x hx
          · simp only [search, hn, Bool.false_eq_true, if_false, h2]
            simp

/-- Where a node is. -/
inductive Place where
  | free
  | held (w : Nat)
  | buck (b : Nat)
deriving DecidableEq

/-- The memory is described by the ghost lists `ch` (contents of the buckets), `fr` (free list) and the place of each node. -/
structure Rep (c : Cfg) (m : Mem) (ch : Nat → List Nat) (fr : List Nat) (pl : Nat → Place) : Prop where
  chain : ∀ b, b < c.nb → Chain m.nodes (m.head b) (ch b)
  free : Chain m.nodes m.free fr
  chMem : ∀ b, b < c.nb → ∀ i, i ∈ ch b ↔ i < c.ns ∧ pl i = .buck b
  frMem : ∀ i, i ∈ fr ↔ i < c.ns ∧ pl i = .free
  chNd : ∀ b, b < c.nb → (ch b).Nodup
  frNd : fr.Nodup
  alloc : m.alloc + fr.length = c.ns
  plb : ∀ i b, i < c.ns → pl i = .buck b → b < c.nb

/-- Bounded duplicate-free lists are short. -/
theorem nodup_len {n : Nat} : ∀ (l : List Nat), l.Nodup → (∀ i ∈ l, i < n) → l.length ≤ n := by
  induction n with
  | zero =>
    intro l _ h
    cases l with
    | nil => simp
    | cons a l => exact absurd (h a (by simp)) (by omega)
  | succ n ih =>
    intro l hn h
    have h1 := ih (l.erase n) (hn.erase n) (fun i hi => by
      have := (hn.mem_erase_iff).1 hi
      have := h i this.2
      omega)
    have : l.length ≤ (l.erase n).length + 1 := by
      by_cases hm : n ∈ l
      · rw [List.length_erase_of_mem hm]; omega
      · rw [List.erase_of_not_mem hm]; omega
    omega

theorem Rep.chLen {c m ch fr pl} (h : Rep c m ch fr pl) {b} (hb : b < c.nb) : (ch b).length < c.ns + 1 := by
  have := nodup_len _ (h.chNd b hb) (fun i hi => ((h.chMem b hb i).1 hi).1)
  omega

theorem init_free (c : Cfg) : ∀ k n, n + k = c.ns →
    Chain (init c).nodes (if n < c.ns then some n else none) (List.range' n k) := by
  intro k
  induction k with
  | zero => intro n h; rw [if_neg (by omega)]; exact .nil
  | succ k ih =>
    intro n h
    rw [if_pos (by omega), List.range'_succ]
    exact .cons (ih (n + 1) (by omega))

theorem init_rep (c : Cfg) (h0 : 0 < c.ns) : Rep c (init c) (fun _ => []) (List.range' 0 c.ns) (fun _ => .free) where
  chain := fun b _ => .nil
  free := by
    have := init_free c c.ns 0 (by omega)
    rwa [if_pos h0] at this
  chMem := by simp
  frMem := by simp [List.mem_range'_1]
  chNd := by simp
  frNd := List.nodup_range'
  alloc := by simp [init]
  plb := by simp

/-- `get_node` on an empty free list. -/
theorem Rep.get_none {c m ch pl} (h : Rep c m ch [] pl) (name : Bytes) (p : Int) : getNode m name p = none := by
  have := h.free.head
  simp only [List.head?_nil] at this
  simp [getNode, this]

/-- `get_node` takes the first free node. -/
theorem Rep.get {c m ch i fr pl} (h : Rep c m ch (i :: fr) pl) (name : Bytes) (p : Int) (w : Nat) :
    ∃ m', getNode m name p = some (i, m') ∧ Rep c m' ch fr (upd pl i (.held w)) ∧ i < c.ns ∧ pl i = .free ∧
      m'.nodes = upd m.nodes i { name := name.take (nameLen - 1), slot := p, next := none } ∧ m'.head = m.head := by
  have hh := h.free.head
  simp only [List.head?_cons] at hh
  have hi : i < c.ns ∧ pl i = .free := (h.frMem i).1 (by simp)
  have hnd := h.frNd
  have hnotch : ∀ b, b < c.nb → i ∉ ch b := by
    intro b hb hm
    have := ((h.chMem b hb i).1 hm).2
    rw [hi.2] at this; cases this
  refine ⟨{ m with
      free := (m.nodes i).next
      nodes := upd m.nodes i { name := name.take (nameLen - 1), slot := p, next := none }
      alloc := m.alloc + 1 }, by simp only [getNode, hh], ?_, hi.1, hi.2, rfl, rfl⟩
  constructor
  · intro b hb
    refine (h.chain b hb).frame ?_
    intro j hj
    have : j ≠ i := fun e => hnotch b hb (e ▸ hj)
    simp [upd, this]
  · refine (h.free.tail).frame ?_
    intro j hj
    have : j ≠ i := fun e => (List.nodup_cons.1 hnd).1 (e ▸ hj)
    simp [upd, this]
  · intro b hb j
    rw [h.chMem b hb j]
    by_cases e : j = i
    · subst e; simp [hi.2]
    · simp [upd, e]
  · intro j
    by_cases e : j = i
    · subst e
      simp [(List.nodup_cons.1 hnd).1]
    · rw [upd_ne _ _ e, ← h.frMem j]; simp [e]
  · exact h.chNd
  · exact (List.nodup_cons.1 hnd).2
  · have := h.alloc
    simp only [List.length_cons] at this
    simp only
    omega
  · intro j b hj
    by_cases e : j = i
    · subst e; simp
    · rw [upd_ne _ _ e]; exact h.plb j b hj

/-- `put_node` of a node in hand. -/
theorem Rep.put {c m ch fr pl} (h : Rep c m ch fr pl) {i w : Nat} (hi : i < c.ns) (hp : pl i = .held w) :
    Rep c (putNode m i) ch (i :: fr) (upd pl i .free) := by
  have hnf : i ∉ fr := by
    intro hm
    have := ((h.frMem i).1 hm).2
    rw [hp] at this; cases this
  have hnotch : ∀ b, b < c.nb → i ∉ ch b := by
    intro b hb hm
    have := ((h.chMem b hb i).1 hm).2
    rw [hp] at this; cases this
  constructor
  · intro b hb
    refine (h.chain b hb).frame ?_
    intro j hj
    have : j ≠ i := fun e => hnotch b hb (e ▸ hj)
    simp [putNode, upd, this]
  · refine .cons ?_
    have : ((putNode m i).nodes i).next = m.free := by simp [putNode]
    rw [this]
    refine h.free.frame ?_
    intro j hj
    have : j ≠ i := fun e => hnf (e ▸ hj)
    simp [putNode, upd, this]
  · intro b hb j
    rw [h.chMem b hb j]
    by_cases e : j = i
    · subst e; simp [hp]
    · simp [upd, e]
  · intro j
    by_cases e : j = i
    · subst e; simp [hi]
    · rw [upd_ne _ _ e, ← h.frMem j]; simp [e]
  · exact h.chNd
  · exact List.nodup_cons.2 ⟨hnf, h.frNd⟩
  · have := h.alloc
    simp only [putNode, List.length_cons]
    omega
  · intro j b hj
    by_cases e : j = i
    · subst e; simp
    · rw [upd_ne _ _ e]; exact h.plb j b hj

/-- Linking a node in hand at the head of bucket `b`. -/
theorem Rep.link {c m ch fr pl} (h : Rep c m ch fr pl) {i w b : Nat} (p : Int) (hb : b < c.nb) (hi : i < c.ns)
    (hp : pl i = .held w) : Rep c (link m b p i) (upd ch b (i :: ch b)) fr (upd pl i (.buck b)) := by
  have hnf : i ∉ fr := by
    intro hm
    have := ((h.frMem i).1 hm).2
    rw [hp] at this; cases this
  have hnotch : ∀ b, b < c.nb → i ∉ ch b := by
    intro b hb hm
    have := ((h.chMem b hb i).1 hm).2
    rw [hp] at this; cases this
  have hfr : ∀ b', b' < c.nb → ∀ j ∈ ch b', ((Zone.link m b p i).nodes j).next = (m.nodes j).next := by
    intro b' hb' j hj
    have : j ≠ i := fun e => hnotch b' hb' (e ▸ hj)
    simp [Zone.link, upd, this]
  constructor
  · intro b' hb'
    by_cases e : b' = b
    · subst e
      simp only [upd_self]
      have hh : (Zone.link m b' p i).head b' = some i := by simp [Zone.link]
      rw [hh]
      refine .cons ?_
      have : ((Zone.link m b' p i).nodes i).next = m.head b' := by simp [Zone.link]
      rw [this]
      exact (h.chain b' hb').frame (hfr b' hb')
    · rw [upd_ne _ _ e]
      have hh : (Zone.link m b p i).head b' = m.head b' := by simp [Zone.link, upd, e]
      rw [hh]
      exact (h.chain b' hb').frame (hfr b' hb')
  · refine h.free.frame ?_
    intro j hj
    have : j ≠ i := fun e => hnf (e ▸ hj)
    simp [Zone.link, upd, this]
  · intro b' hb' j
    by_cases e : b' = b
    · subst e
      simp only [upd_self, List.mem_cons, h.chMem b' hb' j]
      by_cases ej : j = i
      · subst ej; simp [hi]
      · simp [upd, ej]
    · rw [upd_ne _ _ e, h.chMem b' hb' j]
      by_cases ej : j = i
      · subst ej; simp [hp]; intro _ h; exact e h.symm
      · simp [upd, ej]
  · intro j
    rw [h.frMem j]
    by_cases ej : j = i
    · subst ej; simp [hp]
    · simp [upd, ej]
  · intro b' hb'
    by_cases e : b' = b
    · subst e
      simp only [upd_self]
      exact List.nodup_cons.2 ⟨hnotch b' hb', h.chNd b' hb'⟩
    · rw [upd_ne _ _ e]; exact h.chNd b' hb'
  · exact h.frNd
  · exact h.alloc
  · intro j b' hj
    by_cases e : j = i
    · subst e; simp only [upd_self, Place.buck.injEq]; intro e; exact e ▸ hb
    · rw [upd_ne _ _ e]; exact h.plb j b' hj

theorem Chain.remove {nodes s} (pre : List Nat) {i post} (h : Chain nodes s (pre ++ i :: post))
    (hn : (pre ++ i :: post).Nodup) : ∀ c, pre.getLast? = some c →
    Chain (upd nodes c { nodes c with next := (nodes i).next }) s (pre ++ post) := by
  induction pre generalizing s with
  | nil => intro c hc; simp at hc
  | cons a pre ih =>
    intro c hc
    have ha := h.head
    simp only [List.cons_append, List.head?_cons] at ha
    subst ha
    have ht := h.tail
    simp only [List.cons_append, List.nodup_cons] at hn
    cases pre with
    | nil =>
      simp only [List.getLast?_singleton, Option.some.injEq] at hc
      subst hc
      refine .cons ?_
      simp only [upd_self]
      have := ht.tail
      refine this.frame ?_
      intro j hj
      have : j ≠ a := fun e => hn.1 (e ▸ by simp [hj])
      simp [upd, this]
    | cons a' pre =>
      have hc' : (a' :: pre).getLast? = some c := by simpa using hc
      refine .cons ?_
      have hca : a ≠ c := by
        intro e
        have := List.mem_of_getLast? hc'
        exact hn.1 (e ▸ List.mem_append_left _ this)
      rw [upd_ne _ _ hca]
      exact ih ht hn.2 c hc'

/-- Taking a node out of bucket `b`. -/
theorem Rep.unlink {c m ch fr pl} (h : Rep c m ch fr pl) {i b : Nat} (w : Nat) (hb : b < c.nb) {pre post : List Nat}
    (hs : ch b = pre ++ i :: post) :
    Rep c (unlink m b pre.getLast? i) (upd ch b (pre ++ post)) fr (upd pl i (.held w)) := by
  have hnd := h.chNd b hb
  rw [hs] at hnd
  have hchn := h.chain b hb
  rw [hs] at hchn
  have him : i ∈ ch b := by rw [hs]; simp
  have hi := (h.chMem b hb i).1 him
  have hnext : ∀ b', b' < c.nb → b' ≠ b → ∀ j ∈ ch b', ((Zone.unlink m b pre.getLast? i).nodes j).next = (m.nodes j).next := by
    intro b' hb' hne j hj
    cases hl : pre.getLast? with
    | none => simp [Zone.unlink]
    | some x =>
      have hx : x ∈ ch b := by rw [hs]; exact List.mem_append_left _ (List.mem_of_getLast? hl)
      have : j ≠ x := by
        intro e
        subst e
        have h1 := ((h.chMem b hb j).1 hx).2
        have h2 := ((h.chMem b' hb' j).1 hj).2
        rw [h1] at h2
        exact hne (by cases h2; rfl)
      simp [Zone.unlink, upd, this]
  have hmid : i ∉ pre ∧ i ∉ post := by
    rw [List.nodup_append] at hnd
    refine ⟨fun hm => hnd.2.2 i hm i (by simp) rfl, (List.nodup_cons.1 hnd.2.1).1⟩
  constructor
  · intro b' hb'
    by_cases e : b' = b
    · subst e
      simp only [upd_self]
      cases hl : pre.getLast? with
      | none =>
        have : pre = [] := by simpa using hl
        subst this
        simp only [Zone.unlink, upd_self, List.nil_append]
        exact hchn.tail
      | some x =>
        simp only [Zone.unlink]
        exact hchn.remove pre hnd x hl
    · rw [upd_ne _ _ e]
      have hh : (Zone.unlink m b pre.getLast? i).head b' = m.head b' := by
        cases hl : pre.getLast? <;> simp [Zone.unlink, upd, e]
      rw [hh]
      exact (h.chain b' hb').frame (hnext b' hb' e)
  · have hf : (Zone.unlink m b pre.getLast? i).free = m.free := by
      cases pre.getLast? <;> rfl
    rw [hf]
    refine h.free.frame ?_
    intro j hj
    cases hl : pre.getLast? with
    | none => simp [Zone.unlink]
    | some x =>
      have hx : x ∈ ch b := by rw [hs]; exact List.mem_append_left _ (List.mem_of_getLast? hl)
      have : j ≠ x := by
        intro e
        subst e
        have h1 := ((h.chMem b hb j).1 hx).2
        have h2 := ((h.frMem j).1 hj).2
        rw [h1] at h2; cases h2
      simp [Zone.unlink, upd, this]
  · intro b' hb' j
    by_cases e : b' = b
    · subst e
      simp only [upd_self]
      have hm := h.chMem b' hb' j
      rw [hs] at hm
      by_cases ej : j = i
      · subst ej; simp [hmid]
      · rw [upd_ne _ _ ej, ← hm]; simp [ej]
    · rw [upd_ne _ _ e, h.chMem b' hb' j]
      by_cases ej : j = i
      · subst ej
        simp only [upd_self, reduceCtorEq, and_false, iff_false, not_and]
        intro _ h2
        rw [hi.2] at h2
        exact e (by cases h2; rfl)
      · simp [upd, ej]
  · intro j
    rw [h.frMem j]
    by_cases ej : j = i
    · subst ej; simp [hi.2]
    · simp [upd, ej]
  · intro b' hb'
    by_cases e : b' = b
    · subst e
      simp only [upd_self]
      exact hnd.sublist (by simp)
    · rw [upd_ne _ _ e]; exact h.chNd b' hb'
  · exact h.frNd
  · have : (Zone.unlink m b pre.getLast? i).alloc = m.alloc := by
      cases pre.getLast? <;> rfl
    rw [this]; exact h.alloc
  · intro j b' hj
    by_cases e : j = i
    · subst e; simp
    · rw [upd_ne _ _ e]; exact h.plb j b' hj

/-! Names and slots are untouched by list surgery. -/
theorem unlink_name (m : Mem) (b : Nat) (cur : Option Nat) (i j : Nat) :
    ((unlink m b cur i).nodes j).name = (m.nodes j).name ∧ ((unlink m b cur i).nodes j).slot = (m.nodes j).slot := by
  cases cur with
  | none => simp [unlink]
  | some x => by_cases e : j = x <;> simp [unlink, upd, e]

theorem put_name (m : Mem) (i j : Nat) :
    ((putNode m i).nodes j).name = (m.nodes j).name ∧ ((putNode m i).nodes j).slot = (m.nodes j).slot := by
  by_cases e : j = i <;> simp [putNode, upd, e]

theorem link_name (m : Mem) (b : Nat) (p : Int) (i j : Nat) : ((link m b p i).nodes j).name = (m.nodes j).name := by
  by_cases e : j = i <;> simp [link, upd, e]

theorem link_slot (m : Mem) (b : Nat) (p : Int) (i j : Nat) :
    ((link m b p i).nodes j).slot = if j = i then p else (m.nodes j).slot := by
  by_cases e : j = i <;> simp [link, upd, e]

end Verif.Zone
