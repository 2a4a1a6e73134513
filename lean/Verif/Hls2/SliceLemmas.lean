import Verif.Hls2.Spec
/-
The fragments in the ring are those of the stream.
-/
namespace Verif.Hls2
open Verif Spec

theorem diff_fwd (a b : Nat) (ha : a < 2 ^ 63) (h : b ≤ a) : diff a b = a - b := by unfold diff; omega
theorem diff_back (a b : Nat) (hb : b < 2 ^ 63) (h : a < b) : diff a b = a + 2 ^ 64 - b := by unfold diff; omega

theorem sdiff_eq (a b : Nat) (ha : a < 2 ^ 63) (hb : b < 2 ^ 63) : sdiff a b = (a : Int) - b := by
  unfold sdiff
  by_cases h : b ≤ a
  · rw [diff_fwd a b ha h, if_pos (by omega)]
    omega
  · rw [diff_back a b hb (by omega), if_neg (by omega)]
    omega

/-- The fragment for a group -/
def fragBase (c : Conf) (i : Nat) (k : Codec) : Frag := { (Frag.put c.queue { id := i, discont := decide (i = 0) } k.frame) with length := 376 }

def fragOf (c : Conf) (i : Nat) (g : Group) (t : Nat) : Frag := { (g.frames.foldl (Frag.put c.queue) (fragBase c i g.first.1)) with ticks := t }

/-- The duration that is kept for fragment `i` -/
def ticksOf (c : Conf) (gs : List Group) (i : Nat) (g : Group) : Nat :=
  match gs[i + 1]? with
  | some b => diff (if Forced c g.start b.first.2 then g.stop else b.start) g.start
  | none => diff g.stop g.start

theorem put_ticks (q : Nat) (g : Frag) (f : Frame) (t : Nat) : Frag.put q { g with ticks := t } f = { (Frag.put q g f) with ticks := t } := rfl

/-- One more frame -/
def Group.add (g : Group) (x : Item) : Group := { g with more := g.more ++ [x] }

theorem add_frames (g : Group) (x : Item) : (Group.add g x).frames = g.frames ++ [x.2] := by simp [Group.add, Group.frames, Group.items]
theorem add_stop (g : Group) (x : Item) : (Group.add g x).stop = x.2.pts := by simp [Group.add, Group.stop]
theorem add_start (g : Group) (x : Item) : (Group.add g x).start = g.start := rfl

theorem fragOf_add (c : Conf) (i : Nat) (g : Group) (x : Item) (t : Nat) : fragOf c i (Group.add g x) t = Frag.put c.queue (fragOf c i g t) x.2 := by
  unfold fragOf
  rw [add_frames, List.foldl_append, put_ticks]
  rfl

theorem fragOf_ticks (c : Conf) (i : Nat) (g : Group) (t u : Nat) : { (fragOf c i g t) with ticks := u } = fragOf c i g u := rfl

/-- How the fragments grow -/
def extend (c : Conf) (gs : List Group) (x : Item) : List Group :=
  match gs.getLast? with
  | none => [⟨x, []⟩]
  | some g => if Cut c g.start x then gs ++ [⟨x, []⟩] else gs.dropLast ++ [Group.add g x]

structure Inv (c : Conf) (s : St) (gs : List Group) : Prop where
  hLen : s.ring.length = c.size
  hEmpty : gs = [] → s = init c
  hOpen : gs ≠ [] → s.opened = true
  hPos : s.nfrag + s.nfrags = gs.length - 1
  hWin : s.nfrags = min (gs.length - 1) c.win
  hTs : ∀ g, gs.getLast? = some g → s.fragTs = g.start
  hPlay : s.playing = decide (2 ≤ gs.length ∧ c.minfrags ≤ s.nfrags)
  hSlot : ∀ i g, gs[i]? = some g → gs.length ≤ i + c.size → s.ring[i % c.size]? = some (some (fragOf c i g (ticksOf c gs i g)))
  hPts : ∀ g ∈ gs, ∀ x ∈ g.items, x.2.pts < 2 ^ 63

theorem inv_init (c : Conf) : Inv c (init c) [] := by
  refine ⟨by simp [init], fun _ => rfl, fun h => absurd rfl h, rfl, by simp [init], by simp, by simp [init], by simp, by simp⟩

theorem size_pos (c : Conf) : 0 < c.size := by unfold Conf.size; omega

/-- The fragment that is open -/
theorem Inv.cur {c : Conf} {s : St} {gs : List Group} {g : Group} (h : Inv c s (gs ++ [g])) : getFrag c s s.nfrags = some (fragOf c gs.length g (diff g.stop g.start)) := by
  have e := h.hPos
  simp only [List.length_append, List.length_cons, List.length_nil] at e
  unfold getFrag
  rw [show s.nfrag + s.nfrags = gs.length by omega, h.hSlot gs.length g (by simp) (by simp; have := size_pos c; omega)]
  simp [ticksOf]

/-- What is set at the open fragment -/
theorem setFrag_cur {c : Conf} {s : St} (n m : Nat) (h : s.nfrag + n = m) (f : Frag) : setFrag c s n f = { s with ring := s.ring.set (m % c.size) (some f) } := by
  unfold setFrag
  rw [h]

theorem last_cases (gs : List Group) : gs = [] ∨ ∃ a g, gs = a ++ [g] := by
  rcases List.eq_nil_or_concat gs with h | ⟨a, g, h⟩
  · exact Or.inl h
  · exact Or.inr ⟨a, g, by simpa using h⟩

/-- Two different fragments in the ring are in different slots. -/
theorem slot_ne {i j n : Nat} (h1 : i < j) (h2 : j < i + n) : i % n ≠ j % n := by
  intro h
  have hn : 0 < n := by omega
  have a := Nat.div_add_mod i n
  have b := Nat.div_add_mod j n
  rw [h] at a
  have lt : i / n < j / n ∨ j / n ≤ i / n := by omega
  rcases lt with lt | lt
  · have : n * (i / n + 1) ≤ n * (j / n) := Nat.mul_le_mul_left n lt
    rw [Nat.mul_add] at this
    omega
  · have : n * (j / n) ≤ n * (i / n) := Nat.mul_le_mul_left n lt
    omega

theorem ticksOf_app (c : Conf) (gs l : List Group) (i : Nat) (g : Group) (h : i + 1 < gs.length) : ticksOf c (gs ++ l) i g = ticksOf c gs i g := by
  unfold ticksOf
  rw [List.getElem?_append_left h]

/-- A frame is written into the open fragment. -/
theorem inv_write {c : Conf} {s : St} {gs : List Group} {g : Group} (hq : c.queue ≠ 0) (h : Inv c s (gs ++ [g])) (x : Item) (hx : x.2.pts < 2 ^ 63) :
    ∃ s', writeFrame c (setFrag c s s.nfrags (fragOf c gs.length g (diff x.2.pts g.start))) x.2 = some s' ∧ s'.opened = true ∧ Inv c s' (gs ++ [Group.add g x]) := by
  have hp := h.hPos
  simp only [List.length_append, List.length_cons, List.length_nil] at hp
  have hm : s.nfrag + s.nfrags = gs.length := by omega
  have hlt : gs.length % c.size < s.ring.length := by rw [h.hLen]; exact Nat.mod_lt _ (size_pos c)
  obtain ⟨t, ht⟩ : ∃ t, diff x.2.pts g.start = t := ⟨_, rfl⟩
  rw [ht, setFrag_cur _ _ hm]
  have eg : getFrag c { s with ring := s.ring.set (gs.length % c.size) (some (fragOf c gs.length g t)) } s.nfrags = some (fragOf c gs.length g t) := by
    unfold getFrag
    dsimp only
    rw [hm, List.getElem?_set_self hlt]
    rfl
  unfold writeFrame
  rw [eg]
  dsimp only
  rw [if_neg hq]
  refine ⟨_, rfl, ?_, ?_⟩
  · unfold setFrag; exact h.hOpen (by simp)
  rw [setFrag_cur (c := c) (s := { s with ring := s.ring.set (gs.length % c.size) (some (fragOf c gs.length g t)) }) s.nfrags gs.length hm, ← fragOf_add]
  dsimp only
  rw [List.set_set]
  refine ⟨?_, ?_, ?_, ?_, ?_, ?_, ?_, ?_, ?_⟩
  · simp [h.hLen]
  · intro e; simp at e
  · intro _; exact h.hOpen (by simp)
  · simp only [List.length_append, List.length_cons, List.length_nil]; omega
  · have := h.hWin
    simp only [List.length_append, List.length_cons, List.length_nil] at this ⊢
    exact this
  · intro g' e
    have e : Group.add g x = g' := by simpa using e
    rw [← e, add_start]
    exact h.hTs g (by simp)
  · have := h.hPlay
    simp only [List.length_append, List.length_cons, List.length_nil] at this ⊢
    exact this
  · intro i g' e hi
    simp only [List.length_append, List.length_cons, List.length_nil] at hi
    dsimp only
    by_cases hl : i < gs.length
    · rw [List.getElem?_append_left hl] at e
      rw [List.getElem?_set_ne (slot_ne (n := c.size) hl (by omega)).symm]
      rw [h.hSlot i g' (by rw [List.getElem?_append_left hl]; exact e) (by simp; omega)]
      have : ticksOf c (gs ++ [Group.add g x]) i g' = ticksOf c (gs ++ [g]) i g' := by
        unfold ticksOf
        by_cases hl2 : i + 1 < gs.length
        · rw [List.getElem?_append_left hl2, List.getElem?_append_left hl2]
        · have : i + 1 = gs.length := by omega
          rw [this]
          simp only [List.getElem?_append_right (Nat.le_refl gs.length), Nat.sub_self, List.getElem?_cons_zero]
          rfl
      rw [this]
    · have hi2 : i = gs.length := by
        have := (List.getElem?_eq_some_iff.1 e).1
        simp only [List.length_append, List.length_cons, List.length_nil] at this
        omega
      subst hi2
      have e : Group.add g x = g' := by simpa using e
      subst e
      rw [List.getElem?_set_self hlt]
      have : ticksOf c (gs ++ [Group.add g x]) gs.length (Group.add g x) = t := by
        unfold ticksOf
        rw [List.getElem?_eq_none (by simp)]
        dsimp only
        rw [add_stop, add_start, ht]
      rw [this]
  · intro g' hg y hy
    rcases List.mem_append.1 hg with hg | hg
    · exact h.hPts g' (by simp [hg]) y hy
    · have hg : g' = Group.add g x := by simpa using hg
      subst hg
      have : y ∈ g.items ∨ y = x := by
        simp only [Group.add, Group.items, List.mem_cons, List.mem_append, List.not_mem_nil, or_false] at hy ⊢
        rcases hy with hy | hy | hy
        · exact Or.inl (Or.inl hy)
        · exact Or.inl (Or.inr hy)
        · exact Or.inr hy
      rcases this with hy | rfl
      · exact h.hPts g (by simp) y hy
      · exact hx

theorem diff_self (a : Nat) : diff a a = 0 := by unfold diff; omega

/-- Between fragments: those of `gs` are closed, `x` starts the next. -/
structure Mid (c : Conf) (s : St) (gs : List Group) (x : Item) : Prop where
  hLen : s.ring.length = c.size
  hOpen : s.opened = false
  hPos : s.nfrag + s.nfrags = gs.length
  hWin : s.nfrags = min gs.length c.win
  hPlay : s.playing = decide (1 ≤ gs.length ∧ c.minfrags ≤ s.nfrags)
  hSlot : ∀ i g, gs[i]? = some g → gs.length + 1 ≤ i + c.size → s.ring[i % c.size]? = some (some (fragOf c i g (ticksOf c (gs ++ [⟨x, []⟩]) i g)))
  hPts : ∀ g ∈ gs, ∀ x ∈ g.items, x.2.pts < 2 ^ 63

theorem inv_open {c : Conf} {s : St} {gs : List Group} {x : Item} (hq : c.queue ≠ 0) (hx : x.2.pts < 2 ^ 63) (h : Mid c s gs x) :
    ∃ s1 s', openFragment c x.1 x.2.pts (decide (gs.length = 0)) s = some s1 ∧ s1.opened = true ∧ writeFrame c s1 x.2 = some s' ∧ s'.opened = true ∧ Inv c s' (gs ++ [⟨x, []⟩]) := by
  have hm := h.hPos
  have hlt : gs.length % c.size < s.ring.length := by rw [h.hLen]; exact Nat.mod_lt _ (size_pos c)
  -- states that differ from `s` in this slot
  have get (f : Frag) : getFrag c { s with ring := s.ring.set (gs.length % c.size) (some f), opened := true, fragTs := x.2.pts } s.nfrags = some f := by
    unfold getFrag
    dsimp only
    rw [hm, List.getElem?_set_self hlt]
    rfl
  have set (f f' : Frag) : setFrag c { s with ring := s.ring.set (gs.length % c.size) (some f), opened := true, fragTs := x.2.pts } s.nfrags f' =
      { s with ring := s.ring.set (gs.length % c.size) (some f'), opened := true, fragTs := x.2.pts } := by
    rw [setFrag_cur (c := c) (s := { s with ring := s.ring.set (gs.length % c.size) (some f), opened := true, fragTs := x.2.pts }) s.nfrags gs.length hm]
    dsimp only
    rw [List.set_set]
  have write (f : Frag) (y : Frame) : writeFrame c { s with ring := s.ring.set (gs.length % c.size) (some f), opened := true, fragTs := x.2.pts } y =
      some { s with ring := s.ring.set (gs.length % c.size) (some (f.put c.queue y)), opened := true, fragTs := x.2.pts } := by
    unfold writeFrame
    dsimp only
    rw [get]
    dsimp only
    rw [if_neg hq, set]
  refine ⟨{ s with ring := s.ring.set (gs.length % c.size) (some (fragBase c gs.length x.1)), opened := true, fragTs := x.2.pts }, _, ?_, rfl, write _ _, rfl, ?_⟩
  · unfold openFragment
    rw [if_neg (by simp [h.hOpen])]
    dsimp only
    rw [hm, write]
    dsimp only
    rw [get]
    dsimp only
    rw [set]
    rfl
  refine ⟨?_, ?_, ?_, ?_, ?_, ?_, ?_, ?_, ?_⟩
  · simp [h.hLen]
  · intro e; simp at e
  · intro _; rfl
  · simp only [List.length_append, List.length_cons, List.length_nil]; omega
  · have := h.hWin
    simp only [List.length_append, List.length_cons, List.length_nil, Nat.add_sub_cancel, Nat.zero_add] at this ⊢
    exact this
  · intro g' e
    have e : (⟨x, []⟩ : Group) = g' := by simpa using e
    rw [← e]
    rfl
  · have := h.hPlay
    simp only [List.length_append, List.length_cons, List.length_nil]
    rw [this]
    congr 1
    simp only [eq_iff_iff]
    omega
  · intro i g' e hi
    simp only [List.length_append, List.length_cons, List.length_nil] at hi
    dsimp only
    by_cases hl : i < gs.length
    · rw [List.getElem?_append_left hl] at e
      rw [List.getElem?_set_ne (slot_ne (n := c.size) hl (by omega)).symm]
      exact h.hSlot i g' e (by omega)
    · have hi2 : i = gs.length := by
        have := (List.getElem?_eq_some_iff.1 e).1
        simp only [List.length_append, List.length_cons, List.length_nil] at this
        omega
      subst hi2
      have e : (⟨x, []⟩ : Group) = g' := by simpa using e
      subst e
      rw [List.getElem?_set_self hlt]
      have : ticksOf c (gs ++ [⟨x, []⟩]) gs.length ⟨x, []⟩ = 0 := by
        unfold ticksOf
        rw [List.getElem?_eq_none (by simp)]
        exact diff_self _
      rw [this]
      rfl
  · intro g' hg y hy
    rcases List.mem_append.1 hg with hg | hg
    · exact h.hPts g' hg y hy
    · have hg : g' = ⟨x, []⟩ := by simpa using hg
      subst hg
      have : y = x := by simpa [Group.items] using hy
      subst this
      exact hx

/-- Closing the open fragment, when its duration has been set -/
theorem inv_close {c : Conf} {s : St} {gs : List Group} {g : Group} (h : Inv c s (gs ++ [g])) (x : Item) :
    Mid c (closeFragment c (setFrag c s s.nfrags (fragOf c gs.length g (ticksOf c (gs ++ [g] ++ [⟨x, []⟩]) gs.length g)))) (gs ++ [g]) x := by
  have hp := h.hPos
  have hw := h.hWin
  have hpl := h.hPlay
  simp only [List.length_append, List.length_cons, List.length_nil, Nat.zero_add, Nat.add_sub_cancel] at hp hw hpl
  have hlt : gs.length % c.size < s.ring.length := by rw [h.hLen]; exact Nat.mod_lt _ (size_pos c)
  obtain ⟨t, ht⟩ : ∃ t, ticksOf c (gs ++ [g] ++ [⟨x, []⟩]) gs.length g = t := ⟨_, rfl⟩
  rw [ht, setFrag_cur _ _ hp]
  have hslots : ∀ i g', (gs ++ [g])[i]? = some g' → (gs ++ [g]).length + 1 ≤ i + c.size →
      (s.ring.set (gs.length % c.size) (some (fragOf c gs.length g t)))[i % c.size]? = some (some (fragOf c i g' (ticksOf c (gs ++ [g] ++ [⟨x, []⟩]) i g'))) := by
    intro i g' e hi
    simp only [List.length_append, List.length_cons, List.length_nil] at hi
    by_cases hl : i < gs.length
    · rw [List.getElem?_set_ne (slot_ne (n := c.size) hl (by omega)).symm, h.hSlot i g' e (by simp; omega), ticksOf_app c (gs ++ [g]) [⟨x, []⟩] i g' (by simp; omega)]
    · have hi2 : i = gs.length := by
        have := (List.getElem?_eq_some_iff.1 e).1
        simp only [List.length_append, List.length_cons, List.length_nil] at this
        omega
      subst hi2
      have e : g = g' := by simpa using e
      subst e
      rw [List.getElem?_set_self hlt, ht]
  have ho := h.hOpen (by simp)
  unfold closeFragment
  dsimp only
  rw [if_neg (by simp [ho])]
  unfold nextFrag
  dsimp only
  by_cases hfull : s.nfrags = c.win
  · rw [if_pos hfull]
    dsimp only
    by_cases hpp : c.minfrags ≤ s.nfrags ∧ (!s.playing) = true
    · rw [if_pos hpp]
      refine ⟨by simp [h.hLen], rfl, ?_, ?_, ?_, hslots, h.hPts⟩
      · simp only [List.length_append, List.length_cons, List.length_nil]; omega
      · simp only [List.length_append, List.length_cons, List.length_nil]; omega
      · simp only [List.length_append, List.length_cons, List.length_nil]
        rw [eq_comm, decide_eq_true_eq]
        exact ⟨by omega, hpp.1⟩
    · rw [if_neg hpp]
      refine ⟨by simp [h.hLen], rfl, ?_, ?_, ?_, hslots, h.hPts⟩
      · simp only [List.length_append, List.length_cons, List.length_nil]; omega
      · simp only [List.length_append, List.length_cons, List.length_nil]; omega
      · simp only [List.length_append, List.length_cons, List.length_nil]
        by_cases hmf : c.minfrags ≤ s.nfrags
        · have : s.playing = true := by simpa [hmf] using hpp
          rw [this, eq_comm, decide_eq_true_eq]
          exact ⟨by omega, hmf⟩
        · rw [hpl, eq_comm]
          congr 1
          simp only [eq_iff_iff]
          omega
  · rw [if_neg hfull]
    dsimp only
    by_cases hpp : c.minfrags ≤ s.nfrags + 1 ∧ (!s.playing) = true
    · rw [if_pos hpp]
      refine ⟨by simp [h.hLen], rfl, ?_, ?_, ?_, hslots, h.hPts⟩
      · simp only [List.length_append, List.length_cons, List.length_nil]; omega
      · simp only [List.length_append, List.length_cons, List.length_nil]; omega
      · simp only [List.length_append, List.length_cons, List.length_nil]
        rw [eq_comm, decide_eq_true_eq]
        exact ⟨by omega, hpp.1⟩
    · rw [if_neg hpp]
      refine ⟨by simp [h.hLen], rfl, ?_, ?_, ?_, hslots, h.hPts⟩
      · simp only [List.length_append, List.length_cons, List.length_nil]; omega
      · simp only [List.length_append, List.length_cons, List.length_nil]; omega
      · simp only [List.length_append, List.length_cons, List.length_nil]
        by_cases hmf : c.minfrags ≤ s.nfrags + 1
        · have : s.playing = true := by simpa [hmf] using hpp
          rw [this, eq_comm, decide_eq_true_eq]
          exact ⟨by omega, hmf⟩
        · rw [hpl]
          have a : decide (2 ≤ gs.length + 1 ∧ c.minfrags ≤ s.nfrags) = false := by rw [decide_eq_false_iff_not]; omega
          have b : decide (1 ≤ gs.length + 1 ∧ c.minfrags ≤ s.nfrags + 1) = false := by rw [decide_eq_false_iff_not]; omega
          rw [a, b]

theorem Inv.start_lt {c : Conf} {s : St} {gs : List Group} {g : Group} (h : Inv c s (gs ++ [g])) : g.start < 2 ^ 63 := h.hPts g (by simp) g.first (by simp [Group.items])

theorem mayStart_boundary (x : Item) : boundary x.1 true x.2 = decide (MayStart x) := by
  obtain ⟨⟨avc, aac, tb⟩, ⟨v, key, pts, d⟩⟩ := x
  unfold boundary MayStart
  cases v <;> cases key <;> cases aac <;> cases avc <;> rfl

theorem mayOpen_boundary (x : Item) : boundary x.1 false x.2 = decide (MayOpen x) := by
  obtain ⟨⟨avc, aac, tb⟩, ⟨v, key, pts, d⟩⟩ := x
  unfold boundary MayOpen
  cases v <;> cases key <;> cases aac <;> cases avc <;> rfl

/-- `updateFragment` when a fragment is open -/
theorem updateFragment_eq {c : Conf} {k : Codec} {ts : Nat} {b force : Bool} {s : St} {g : Frag} {d : Nat} (hpl : c.aligned = false) (ho : s.opened = true) (hc : getFrag c s s.nfrags = some g)
    (hf : (decide (((c.maxFraglen * 90 : Nat) : Int) < sdiff ts s.fragTs) || decide (sdiff ts s.fragTs < -90000)) = force) (hd : diff ts s.fragTs = d) :
    updateFragment c k ts b s =
      if force then openFragment c k ts false (closeFragment c (setFrag c s s.nfrags g))
      else if b && !decide (d < c.fraglen * 90) then openFragment c k ts false (closeFragment c (setFrag c s s.nfrags { g with ticks := d }))
      else some (setFrag c s s.nfrags { g with ticks := d }) := by
  have e : ∀ g', (setFrag c s s.nfrags g').opened = true := fun _ => ho
  unfold updateFragment
  rw [ho, hc, hpl, hd, Bool.true_and, hf]
  dsimp only
  rw [if_pos rfl, if_neg (by simp), if_neg (by simp)]
  cases force
  · simp only [Bool.false_and, Bool.not_false, Bool.and_true, Bool.false_eq_true, if_false, Option.map_some, Bool.or_false, e, Bool.not_true]
  · simp only [Bool.or_true, if_true, Bool.false_and, Bool.false_eq_true, if_false, e, Bool.not_true]

theorem cut_iff {c : Conf} {a : Nat} {x : Item} (hfl : c.fraglen * 90 < 2 ^ 63) (hx : x.2.pts < 2 ^ 63) (ha : a < 2 ^ 63) (hf : ¬ Forced c a x.2) :
    (decide (MayStart x) && !decide (diff x.2.pts a < c.fraglen * 90)) = decide (Cut c a x) := by
  by_cases hm : MayStart x
  · by_cases hlt : diff x.2.pts a < c.fraglen * 90
    · have : ¬ Cut c a x := by
        rintro (h | ⟨_, h⟩)
        · exact hf h
        · by_cases hle : a ≤ x.2.pts
          · rw [diff_fwd _ _ hx hle] at hlt
            omega
          · rw [diff_back _ _ ha (by omega)] at hlt
            omega
      simp [hlt, this]
    · have : Cut c a x := by
        refine Or.inr ⟨hm, ?_⟩
        by_cases hle : a ≤ x.2.pts
        · rw [diff_fwd _ _ hx hle] at hlt
          omega
        · omega
      rw [decide_eq_false hlt, decide_eq_true hm, decide_eq_true this]
      rfl
  · have : ¬ Cut c a x := by
      rintro (h1 | ⟨h1, _⟩)
      · exact hf h1
      · exact hm h1
    simp [hm, this]

theorem force_eq {c : Conf} {a : Nat} {f : Frame} (hx : f.pts < 2 ^ 63) (ha : a < 2 ^ 63) :
    (decide (((c.maxFraglen * 90 : Nat) : Int) < sdiff f.pts a) || decide (sdiff f.pts a < -90000)) = decide (Forced c a f) := by
  rw [sdiff_eq _ _ hx ha]
  have : Forced c a f ↔ ((c.maxFraglen * 90 : Nat) : Int) < (f.pts : Int) - a ∨ (f.pts : Int) - a < -90000 := by
    unfold Forced
    push_cast
    exact Iff.rfl
  by_cases h : Forced c a f
  · rw [decide_eq_true h, Bool.or_eq_true, decide_eq_true_eq, decide_eq_true_eq]
    exact this.1 h
  · rw [decide_eq_false h, Bool.or_eq_false_iff, decide_eq_false_iff_not, decide_eq_false_iff_not]
    exact not_or.1 fun g => h (this.2 g)

/-- What is kept of the duration of the open fragment, and whether it ends -/
theorem updateFragment_open {c : Conf} {s : St} {gs : List Group} {g : Group} (hpl : c.aligned = false) (hfl : c.fraglen * 90 < 2 ^ 63) (h : Inv c s (gs ++ [g])) (x : Item) (hx : x.2.pts < 2 ^ 63) :
    updateFragment c x.1 x.2.pts (boundary x.1 s.opened x.2) s =
      if Cut c g.start x then openFragment c x.1 x.2.pts (decide ((gs ++ [g]).length = 0)) (closeFragment c (setFrag c s s.nfrags (fragOf c gs.length g (ticksOf c (gs ++ [g] ++ [⟨x, []⟩]) gs.length g))))
      else some (setFrag c s s.nfrags (fragOf c gs.length g (diff x.2.pts g.start))) := by
  have ho := h.hOpen (by simp)
  have hts := h.hTs g (by simp)
  have hst := h.start_lt
  have htick : ticksOf c (gs ++ [g] ++ [⟨x, []⟩]) gs.length g = diff (if Forced c g.start x.2 then g.stop else x.2.pts) g.start := by
    unfold ticksOf
    rw [List.getElem?_append_right (by simp)]
    simp [Group.start]
  have hcur := h.cur
  have hz : decide ((gs ++ [g]).length = 0) = false := by simp
  have hfe := force_eq (c := c) hx hst
  have hce := cut_iff (c := c) (a := g.start) (x := x) hfl hx hst
  rw [htick, hz]
  clear htick hz
  generalize hstop : diff g.stop g.start = d0 at *
  generalize hd : diff x.2.pts g.start = d at *
  rw [updateFragment_eq (force := decide (Forced c g.start x.2)) (d := d) hpl ho hcur (by rw [hts]; exact hfe) (by rw [hts]; exact hd), ho, mayStart_boundary]
  by_cases hf : Forced c g.start x.2
  · rw [decide_eq_true hf, if_pos rfl, if_pos (show Cut c g.start x from Or.inl hf), if_pos hf, hstop]
  · rw [decide_eq_false hf, if_neg (by simp), hce hf, if_neg hf, hd, fragOf_ticks]
    by_cases hcut : Cut c g.start x
    · rw [decide_eq_true hcut, if_pos rfl, if_pos hcut]
    · rw [decide_eq_false hcut, if_neg (by simp), if_neg hcut]

/-- `updateFragment` before the first fragment -/
theorem updateFragment_first {c : Conf} (hpl : c.aligned = false) (x : Item) :
    updateFragment c x.1 x.2.pts (boundary x.1 (init c).opened x.2) (init c) = if MayOpen x then openFragment c x.1 x.2.pts true (init c) else some (init c) := by
  unfold updateFragment
  have ho : (init c).opened = false := rfl
  rw [ho, mayOpen_boundary, hpl]
  simp only [Bool.false_and, Bool.not_false, Bool.and_true, Bool.false_eq_true, if_false, Bool.or_false, false_and]
  have hcl : closeFragment c (init c) = init c := by unfold closeFragment; rw [ho]; rfl
  simp only [Option.map_none, ho, hcl]
  by_cases hm : MayOpen x <;> simp [hm]

theorem mid_init (c : Conf) (x : Item) : Mid c (init c) [] x := by
  refine ⟨by simp [init], rfl, rfl, by simp [init], by simp [init], by simp, by simp⟩

/-- One frame -/
theorem inv_step {c : Conf} {s : St} {gs : List Group} (hpl : c.aligned = false) (hq : c.queue ≠ 0) (hfl : c.fraglen * 90 < 2 ^ 63) (h : Inv c s gs) (x : Item) (hx : x.2.pts < 2 ^ 63)
    (ho : gs = [] → MayOpen x) :
    ∃ s1 s', updateFragment c x.1 x.2.pts (boundary x.1 s.opened x.2) s = some s1 ∧ s1.opened = true ∧ writeFrame c s1 x.2 = some s' ∧ s'.opened = true ∧ Inv c s' (extend c gs x) := by
  rcases last_cases gs with rfl | ⟨a, g, rfl⟩
  · obtain rfl := h.hEmpty rfl
    rw [updateFragment_first hpl, if_pos (ho rfl)]
    obtain ⟨s1, s', h1, h2, h3, h4, h5⟩ := inv_open hq hx (mid_init c x)
    exact ⟨s1, s', h1, h2, h3, h4, h5⟩
  · rw [updateFragment_open hpl hfl h x hx]
    have he : extend c (a ++ [g]) x = if Cut c g.start x then (a ++ [g]) ++ [⟨x, []⟩] else a ++ [Group.add g x] := by simp [extend]
    rw [he]
    by_cases hc : Cut c g.start x
    · rw [if_pos hc, if_pos hc]
      exact inv_open hq hx (inv_close h x)
    · rw [if_neg hc, if_neg hc]
      obtain ⟨s', h1, h2, h3⟩ := inv_write hq h x hx
      exact ⟨_, s', rfl, h.hOpen (by simp), h1, h2, h3⟩

/-- Frames that are taken from the queue -/
theorem inv_update {c : Conf} (hpl : c.aligned = false) (hq : c.queue ≠ 0) (hfl : c.fraglen * 90 < 2 ^ 63) (k : Codec) : ∀ (fs : List Frame) (s : St) (gs : List Group), Inv c s gs → (∀ f ∈ fs, f.pts < 2 ^ 63) →
    ((gs ≠ [] ∨ ∀ f l, fs = f :: l → MayOpen (k, f)) → ∃ s', update c k fs s = some (s', []) ∧ Inv c s' ((fs.map fun f => (k, f)).foldl (extend c) gs)) ∧
    (∀ f l, gs = [] → fs = f :: l → ¬ MayOpen (k, f) → update c k fs s = some (s, fs)) := by
  intro fs
  induction fs with
  | nil =>
    intro s gs h _
    exact ⟨fun _ => ⟨s, rfl, h⟩, fun f l _ e => by simp at e⟩
  | cons f fs ih =>
    intro s gs h hp
    refine ⟨fun hne => ?_, fun f' l hg e hn => ?_⟩
    · obtain ⟨s1, s', h1, h2, h3, h4, h5⟩ := inv_step hpl hq hfl h (k, f) (hp f (by simp)) (fun e => by
        rcases hne with hne | hne
        · exact absurd e hne
        · exact hne f fs rfl)
      have hne' : extend c gs (k, f) ≠ [] := by
        unfold extend
        split
        · simp
        · split <;> simp
      obtain ⟨s2, e2, i2⟩ := (ih s' _ h5 (fun f' hf => hp f' (by simp [hf]))).1 (Or.inl hne')
      refine ⟨s2, ?_, i2⟩
      unfold update
      rw [h1]
      dsimp only
      rw [if_neg (by simp [h2]), h3]
      exact e2
    · injection e with e1 e2
      subst e1
      obtain rfl := h.hEmpty hg
      unfold update
      rw [updateFragment_first (x := (k, f)) hpl, if_neg hn]
      rfl

end Verif.Hls2
