import Verif.Zone.Inv
import Verif.Zone.Spec
/- From the ghost description to the table of the specification. -/
namespace Verif.Zone
open Verif

theorem On.iff {m : Mem} {b : Nat} {l : List Nat} (h : Chain m.nodes (m.head b) l) (i : Nat) : On m b i ↔ i ∈ l := by
  constructor
  · intro ho
    induction ho with
    | first he =>
      rw [h.head] at he
      exact List.mem_of_head? he
    | @next i j _ hn ih =>
      obtain ⟨pre, post, rfl⟩ := List.append_of_mem ih
      have := (Chain.drop pre h).tail.head
      rw [hn] at this
      have := List.mem_of_head? this.symm
      simp [this]
  · intro hi
    obtain ⟨pre, post, rfl⟩ := List.append_of_mem hi
    clear hi
    revert i post
    suffices ∀ (pre : List Nat) i post, Chain m.nodes (m.head b) (pre.reverse ++ i :: post) → On m b i by
      intro i post h
      exact this pre.reverse i post (by simpa using h)
    intro pre
    induction pre with
    | nil => intro i post h; exact .first h.head
    | cons a pre ih =>
      intro i post h
      have h1 : On m b a := ih a (i :: post) (by simpa using h)
      have h2 : Chain m.nodes (m.head b) ((pre.reverse ++ [a]) ++ i :: post) := by simpa using h
      have := h2.after
      simp only [List.getLast?_append, List.getLast?_singleton, Option.some_or, List.head?_cons] at this
      exact .next h1 this

theorem registered_iff {c m ch fr pl} (h : Rep c m ch fr pl) (n : Bytes) (p : Int) :
    Registered c m n p ↔ ∃ b, b < c.nb ∧ ∃ i ∈ ch b, (m.nodes i).name = n ∧ (m.nodes i).slot = p := by
  constructor
  · rintro ⟨b, hb, i, ho, h1, h2⟩
    exact ⟨b, hb, i, (On.iff (h.chain b hb) i).1 ho, h1, h2⟩
  · rintro ⟨b, hb, i, ho, h1, h2⟩
    exact ⟨b, hb, i, (On.iff (h.chain b hb) i).2 ho, h1, h2⟩

/-- With names free of NUL, an entry is in the bucket of its name. -/
theorem registered_bucket {c s ch fr pl} (h : SInv c True s ch fr pl) (h0 : 0 < c.nb) (n : Bytes) (p : Int) :
    Registered c s.mem n p ↔ ∃ i ∈ ch (c.bucket n), (s.mem.nodes i).name = n ∧ (s.mem.nodes i).slot = p := by
  rw [registered_iff h.rep]
  constructor
  · rintro ⟨b, hb, i, hi, h1, h2⟩
    have := (h.names trivial b hb i hi).2
    rw [h1] at this
    subst this
    exact ⟨i, hi, h1, h2⟩
  · rintro ⟨i, hi, h1, h2⟩
    exact ⟨_, bucket_lt h0 n, i, hi, h1, h2⟩

theorem registered_isName {c s ch fr pl} (h : SInv c True s ch fr pl) (h0 : 0 < c.nb) {n : Bytes} {i : Nat}
    (hi : i ∈ ch (c.bucket n)) : isName (s.mem.nodes i) n = true ↔ (s.mem.nodes i).name = n :=
  isName_iff (h.names trivial _ (bucket_lt h0 n) i hi).1

theorem registered_unique {c s ch fr pl} (h : SInv c True s ch fr pl) (h0 : 0 < c.nb) {n : Bytes} {p q : Int}
    (h1 : Registered c s.mem n p) (h2 : Registered c s.mem n q) : p = q := by
  rw [registered_bucket h h0] at h1 h2
  obtain ⟨i, hi, e1, rfl⟩ := h1
  obtain ⟨j, hj, e2, rfl⟩ := h2
  rw [h.uniq trivial _ (bucket_lt h0 n) i hi j hj (by rw [e1, e2])]

theorem same_table {c m m' ch ch' fr fr' pl pl'} (h : Rep c m ch fr pl) (h' : Rep c m' ch' fr' pl')
    (hs : Same c m m' ch ch') : Registered c m' = Registered c m := by
  funext n p
  apply propext
  rw [registered_iff h, registered_iff h']
  constructor
  · rintro ⟨b, hb, i, hi, h1, h2⟩
    rw [(hs b hb).1] at hi
    have := (hs b hb).2 i hi
    exact ⟨b, hb, i, hi, by rw [← this.1]; exact h1, by rw [← this.2]; exact h2⟩
  · rintro ⟨b, hb, i, hi, h1, h2⟩
    have := (hs b hb).2 i hi
    exact ⟨b, hb, i, by rw [(hs b hb).1]; exact hi, by rw [this.1]; exact h1, by rw [this.2]; exact h2⟩

/-- Removing a node removes its name and nothing else. -/
theorem del_table {c s s' ch ch' fr fr' pl pl' b i} (h : SInv c True s ch fr pl) (h0 : 0 < c.nb)
    (h' : SInv c True s' ch' fr' pl') (hd : Del c s.mem s'.mem ch ch' b i) (n : Bytes) (p : Int) :
    Registered c s'.mem n p ↔ Registered c s.mem n p ∧ n ≠ (s.mem.nodes i).name := by
  obtain ⟨hb, ⟨pre, post, e1, e2⟩, hns⟩ := hd
  have him : i ∈ ch b := by rw [e1]; simp
  have hbk := (h.names trivial b hb i him).2
  have hnd := h.rep.chNd b hb
  rw [e1] at hnd
  rw [registered_bucket h h0, registered_bucket h' h0]
  constructor
  · rintro ⟨j, hj, h1, h2⟩
    rw [(hns j).1] at h1
    rw [(hns j).2] at h2
    have hj' : j ∈ ch (c.bucket n) ∧ j ≠ i := by
      rw [e2] at hj
      by_cases e : c.bucket n = b
      · rw [e, upd_self] at hj
        rw [e, e1]
        rw [List.nodup_append] at hnd
        simp only [List.mem_append, List.mem_cons] at hj ⊢
        rcases hj with hj | hj
        · exact ⟨.inl hj, fun e => hnd.2.2 j hj i (by simp) e⟩
        · exact ⟨.inr (.inr hj), fun e => (List.nodup_cons.1 hnd.2.1).1 (e ▸ hj)⟩
      · rw [upd_ne _ _ e] at hj
        refine ⟨hj, ?_⟩
        intro e3
        subst e3
        exact e (by rw [← h1]; exact hbk)
    refine ⟨⟨j, hj'.1, h1, h2⟩, ?_⟩
    intro e
    have eb : c.bucket n = b := by rw [e]; exact hbk
    have hj2 := hj'.1
    rw [eb] at hj2
    exact hj'.2 (h.uniq trivial b hb j hj2 i him (by rw [h1, e]))
  · rintro ⟨⟨j, hj, h1, h2⟩, hne⟩
    refine ⟨j, ?_, by rw [(hns j).1]; exact h1, by rw [(hns j).2]; exact h2⟩
    have hji : j ≠ i := by
      intro e
      subst e
      exact hne h1.symm
    rw [e2]
    by_cases e : c.bucket n = b
    · rw [e, upd_self]
      rw [e, e1] at hj
      simp only [List.mem_append, List.mem_cons] at hj ⊢
      rcases hj with hj | hj | hj
      · exact .inl hj
      · exact absurd hj hji
      · exact .inr hj
    · rw [upd_ne _ _ e]; exact hj

theorem step_allowed {c : Cfg} {s s' : Sys} {w : Nat} {e : Ev} {ch fr pl} (h0 : 0 < c.nb)
    (h : SInv c True s ch fr pl) (hst : Step c s w e s') (hn : ∀ n, e.asks = some n → 0 ∉ n) :
    ∃ ch' fr' pl', SInv c True s' ch' fr' pl' ∧ Allowed (Registered c s.mem) (Registered c s'.mem) e ∧
      (∀ w' n, e = .inserted w' n .error → nameLen ≤ n.length ∨ fr = []) := by
  obtain ⟨ch', fr', pl', h', heff⟩ := step_inv h0 h hst (fun _ => hn)
  refine ⟨ch', fr', pl', h', ?_, ?_⟩
  · cases e with
    | tau => exact same_table h.rep h'.rep heff
    | asked _ n => exact same_table h.rep h'.rep heff.1
    | removed w n =>
      obtain ⟨i, hd, h1, h2⟩ := heff
      have him : i ∈ ch (c.bucket n) := by
        obtain ⟨_, ⟨pre, post, e1, _⟩, _⟩ := hd
        rw [e1]; simp
      rw [registered_isName h h0 him] at h1
      refine ⟨(registered_bucket h h0 n w).2 ⟨i, him, h1, h2⟩, ?_, ?_⟩
      · intro q hq
        exact ((del_table h h0 h' hd n q).1 hq).2 h1.symm
      · intro k hk
        funext q
        apply propext
        rw [del_table h h0 h' hd k q, h1]
        simp [hk]
    | notRemoved w n =>
      refine ⟨?_, same_table h.rep h'.rep heff.1⟩
      intro hr
      rw [registered_bucket h h0] at hr
      obtain ⟨i, hi, e1, e2⟩ := hr
      rcases heff.2 with h2 | ⟨j, hj, h2, h3⟩
      · have := h2 i hi
        rw [(registered_isName h h0 hi).2 e1] at this
        cases this
      · rw [registered_isName h h0 hj] at h2
        have := h.uniq trivial _ (bucket_lt h0 n) i hi j hj (by rw [e1, h2])
        subst this
        exact h3 e2
    | dropped w i =>
      obtain ⟨b, hd, hs⟩ := heff
      have him : i ∈ ch b := by
        obtain ⟨_, ⟨pre, post, e1, _⟩, _⟩ := hd
        rw [e1]; simp
      refine ⟨(s.mem.nodes i).name, (registered_iff h.rep _ _).2 ⟨b, hd.1, i, him, rfl, hs⟩, ?_⟩
      intro k q
      exact del_table h h0 h' hd k q
    | cleared w =>
      refine ⟨?_, same_table h.rep h'.rep heff.1⟩
      intro n hr
      rw [registered_iff h.rep] at hr
      obtain ⟨b, hb, i, hi, _, e2⟩ := hr
      exact heff.2 b hb i hi e2
    | inserted w' n r =>
      cases r with
      | error => exact same_table h.rep h'.rep heff.1
      | slot p =>
        rcases heff with ⟨_, ⟨hs, i, hi, h1, h2⟩ | ⟨rfl, i, hp, e2, e3, e4, e5⟩⟩
        · have ht := same_table h.rep h'.rep hs
          rw [registered_isName h h0 hi] at h1
          have hr := (registered_bucket h h0 n p).2 ⟨i, hi, h1, h2⟩
          refine ⟨by rw [ht]; exact hr, fun q hq => registered_unique h h0 hq hr, fun hno => absurd ⟨p, hr⟩ hno, ?_, ?_⟩
          · intro q hq
            rw [ht] at hq
            exact registered_unique h h0 hq hr
          · intro k _; rw [ht]
        · have hr : Registered c s'.mem n w' := by
            rw [registered_bucket h' h0]
            exact ⟨i, by rw [e2]; simp, e4, e3⟩
          have hpc := h.pcOk w'
          rw [hp] at hpc
          have hno : ∀ q, ¬ Registered c s.mem n q := by
            intro q hq
            rw [registered_bucket h h0] at hq
            obtain ⟨j, hj, e6, _⟩ := hq
            exact (hpc.2.2.2 trivial).2 j hj e6
          refine ⟨hr, fun q hq => absurd hq (hno q), fun _ => rfl, fun q hq => registered_unique h' h0 hq hr, ?_⟩
          intro k hk
          funext q
          apply propext
          rw [registered_bucket h h0, registered_bucket h' h0]
          constructor
          · rintro ⟨j, hj, e6, e7⟩
            have hj' : j ∈ ch (c.bucket k) := by
              rw [e2] at hj
              by_cases eb : c.bucket k = c.bucket n
              · rw [eb, upd_self] at hj
                rcases List.mem_cons.1 hj with rfl | hj
                · exact absurd (e6.symm.trans e4) hk
                · rw [eb]; exact hj
              · rwa [upd_ne _ _ eb] at hj
            have := e5 _ (bucket_lt h0 k) j hj'
            exact ⟨j, hj', by rw [← this.1]; exact e6, by rw [← this.2]; exact e7⟩
          · rintro ⟨j, hj, e6, e7⟩
            have := e5 _ (bucket_lt h0 k) j hj
            refine ⟨j, ?_, by rw [this.1]; exact e6, by rw [this.2]; exact e7⟩
            rw [e2]
            by_cases eb : c.bucket k = c.bucket n
            · rw [eb, upd_self, ← eb]; exact List.mem_cons_of_mem _ hj
            · rwa [upd_ne _ _ eb]
  · intro w' n hw
    subst hw
    exact heff.2

/-- Free slots plus different registered names never exceed the number of slots. -/
theorem registered_len {c m ch fr pl} (h : Rep c m ch fr pl) (l : List Bytes) (hn : l.Nodup)
    (hr : ∀ n ∈ l, ∃ p, Registered c m n p) : l.length + fr.length ≤ c.ns := by
  have : ∃ is : List Nat, is.map (fun i => (m.nodes i).name) = l ∧ ∀ i ∈ is, i < c.ns ∧ pl i ≠ .free := by
    clear hn
    induction l with
    | nil => exact ⟨[], rfl, by simp⟩
    | cons n l ih =>
      obtain ⟨is, e1, e2⟩ := ih (fun n hn => hr n (by simp [hn]))
      obtain ⟨p, hp⟩ := hr n (by simp)
      obtain ⟨b, hb, i, hi, e3, _⟩ := (registered_iff h n p).1 hp
      have := (h.chMem b hb i).1 hi
      refine ⟨i :: is, by simp [e1, e3], ?_⟩
      intro j hj
      rcases List.mem_cons.1 hj with rfl | hj
      · exact ⟨this.1, by rw [this.2]; simp⟩
      · exact e2 j hj
  obtain ⟨is, rfl, e2⟩ := this
  have hnd : is.Nodup := List.Pairwise.of_map _ (fun a b h e => h (by rw [e])) hn
  have := nodup_len (n := c.ns) (is ++ fr) (List.nodup_append.2 ⟨hnd, h.frNd, fun a ha b hb e => by
    subst e
    exact (e2 a ha).2 ((h.frMem a).1 hb).2⟩) (by
      intro i hi
      rcases List.mem_append.1 hi with hi | hi
      · exact (e2 i hi).1
      · exact ((h.frMem i).1 hi).1)
  simpa using this

/-- No free slot and nothing in hand: all slots hold different names. -/
theorem full_of_nil {c s ch pl} (h : SInv c True s ch [] pl) (hq : ∀ w, holds (s.pc w) = none) : Full c s.mem := by
  have hp : ∀ i, i < c.ns → ∃ b, b < c.nb ∧ i ∈ ch b := by
    intro i hi
    cases hpl : pl i with
    | free => have := (h.rep.frMem i).2 ⟨hi, hpl⟩; simp at this
    | held w =>
      have := (h.held w i hi).1 hpl
      rw [hq w] at this; cases this
    | buck b =>
      have hb := h.rep.plb i b hi hpl
      exact ⟨b, hb, (h.rep.chMem b hb i).2 ⟨hi, hpl⟩⟩
  refine ⟨(List.range c.ns).map (fun i => (s.mem.nodes i).name), ?_, by simp, ?_⟩
  · rw [List.Nodup, List.pairwise_map]
    refine List.Pairwise.imp_of_mem ?_ List.nodup_range
    intro i j hi hj hne e
    obtain ⟨b, hb, hib⟩ := hp i (by simpa using hi)
    obtain ⟨b', hb', hjb⟩ := hp j (by simpa using hj)
    have h1 := (h.names trivial b hb i hib).2
    have h2 := (h.names trivial b' hb' j hjb).2
    rw [e, h2] at h1
    subst h1
    exact hne (h.uniq trivial b' hb' i hib j hjb e)
  · intro n hn
    simp only [List.mem_map, List.mem_range] at hn
    obtain ⟨i, hi, rfl⟩ := hn
    obtain ⟨b, hb, hib⟩ := hp i hi
    exact ⟨_, (registered_iff h.rep _ _).2 ⟨b, hb, i, hib, rfl, rfl⟩⟩

end Verif.Zone
