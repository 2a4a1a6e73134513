import Verif.Hls2.HeapSim
import Verif.Hls2.HeapSpec
/-
Lemmas for C75: all sessions and responses.
-/
namespace Verif.Hls2.Mem
open Verif Verif.Hls2 Spec

def sring : Option HSess → List Nat
  | none => []
  | some x => addrs x.st.ring

def rheld : Option HReq → List Nat
  | none => []
  | some r => [r.frag]

/-- The references of rings, and of responses -/
def World.rings (w : World) : List Nat := w.sess.flatMap sring
def World.held (w : World) : List Nat := w.reqs.flatMap rheld

structure Same (q : Nat) (w : World) (i : IWorld) : Prop where
  ok : HeapOk q w.heap
  hRef : ∀ a, w.heap.ref a = w.rings.count a + w.held.count a
  hNodup : w.rings.Nodup
  hLenS : w.sess.length = i.sess.length
  hLenR : w.reqs.length = i.reqs.length
  hSessN : ∀ n, w.session n = none ↔ i.session n = none
  hSess : ∀ n x y, w.session n = some x → i.session n = some y →
    x.conf = y.conf ∧ x.last = y.last ∧ y.now = some ⟨view w.heap x.st, x.queue⟩ ∧ Plain y.conf ∧ y.conf.queue = q ∧ (∀ z ∈ y.fed, ∀ f ∈ z.2, f.pts < 2 ^ 63) ∧ x.st.ring.length = x.conf.size
  hReqN : ∀ n, w.request n = none ↔ i.request n = none
  hReq : ∀ n r y, w.request n = some r → i.request n = some y →
    r.sess = y.sess ∧ w.heap.get r.frag = some y.frag ∧ r.length = y.frag.length ∧ r.pos = min (4 * y.sends) y.frag.last ∧ r.sent = y.sent ∧ y.frag.last ≤ y.frag.content.length ∧ y.frag.last < q ∧
    w.session r.sess ≠ none ∧ ∀ m x, w.session m = some x → cur x.conf x.st ≠ some r.frag
  hLast : ∀ n x rid, w.session n = some x → x.last = some rid → ∃ r, w.request rid = some r ∧ r.sess = n

/-! ### Lists -/

theorem join_some {α : Type} {l : List (Option α)} {n : Nat} {x : α} (h : (l[n]?).join = some x) : l[n]? = some (some x) := by
  cases e : l[n]? with
  | none => rw [e] at h; simp at h
  | some o => rw [e] at h; simp at h; rw [h]

theorem join_set {α : Type} {l : List (Option α)} {n : Nat} (hn : n < l.length) (y : Option α) (m : Nat) : ((l.set n y)[m]?).join = if m = n then y else (l[m]?).join := by
  by_cases h : m = n
  · subst h
    rw [List.getElem?_set_self hn, if_pos rfl]
    rfl
  · rw [List.getElem?_set_ne (by omega), if_neg h]

theorem join_snoc {α : Type} (l : List (Option α)) (y : Option α) (m : Nat) : ((l ++ [y])[m]?).join = if m = l.length then y else (l[m]?).join := by
  by_cases h : m = l.length
  · subst h
    simp
  · rw [if_neg h]
    by_cases hlt : m < l.length
    · rw [List.getElem?_append_left hlt]
    · rw [List.getElem?_eq_none (by simp; omega), List.getElem?_eq_none (by omega)]

theorem join_lt {α : Type} {l : List (Option α)} {n : Nat} {x : α} (h : (l[n]?).join = some x) : n < l.length := (List.getElem?_eq_some_iff.1 (join_some h)).1

theorem nodup_swap {A R B R' : List Nat} (h : (A ++ R ++ B).Nodup) (h2 : R'.Nodup) (h3 : ∀ a ∈ R', a ∈ R ∨ (a ∉ A ∧ a ∉ B)) : (A ++ R' ++ B).Nodup := by
  have h1 := List.nodup_append.1 h
  have h4 := List.nodup_append.1 h1.1
  refine List.nodup_append.2 ⟨List.nodup_append.2 ⟨h4.1, h2, ?_⟩, h1.2.1, ?_⟩
  · intro a ha b hb e
    subst e
    rcases h3 a hb with h | h
    · exact h4.2.2 a ha a h rfl
    · exact h.1 ha
  · intro a ha b hb e
    subst e
    rcases List.mem_append.1 ha with ha | ha
    · exact h1.2.2 a (List.mem_append_left _ ha) a hb rfl
    · rcases h3 a ha with h | h
      · exact h1.2.2 a (List.mem_append_right _ h) a hb rfl
      · exact h.2 hb

/-! ### One session among the others -/

theorem rings_at {w : World} {n : Nat} {x : HSess} (hx : w.session n = some x) : ∃ A B, (∀ y, (w.sess.set n y).flatMap sring = A ++ sring y ++ B) ∧ w.rings = A ++ addrs x.st.ring ++ B ∧
    ∀ m x', m ≠ n → w.session m = some x' → ∀ a ∈ addrs x'.st.ring, a ∈ A ++ B := by
  obtain ⟨l1, l2, e, hl⟩ := split_at w.sess n _ (join_some hx)
  refine ⟨l1.flatMap sring, l2.flatMap sring, ?_, ?_, ?_⟩
  · intro y
    rw [e, ← hl, set_split]
    simp
  · unfold World.rings
    rw [e]
    simp [sring]
  · intro m x' hm hx' a ha
    have h' := join_some hx'
    rw [e] at h'
    by_cases hlt : m < l1.length
    · rw [List.getElem?_append_left hlt] at h'
      exact List.mem_append_left _ (List.mem_flatMap.2 ⟨_, List.mem_of_getElem? h', ha⟩)
    · rw [List.getElem?_append_right (by omega)] at h'
      obtain ⟨j, hj⟩ : ∃ j, m - l1.length = j + 1 := ⟨m - l1.length - 1, by omega⟩
      rw [hj, List.getElem?_cons_succ] at h'
      exact List.mem_append_right _ (List.mem_flatMap.2 ⟨_, List.mem_of_getElem? h', ha⟩)

theorem held_at {w : World} {n : Nat} {r : HReq} (hr : w.request n = some r) : ∃ A B, (∀ y, (w.reqs.set n y).flatMap rheld = A ++ rheld y ++ B) ∧ w.held = A ++ [r.frag] ++ B := by
  obtain ⟨l1, l2, e, hl⟩ := split_at w.reqs n _ (join_some hr)
  refine ⟨l1.flatMap rheld, l2.flatMap rheld, ?_, ?_⟩
  · intro y
    rw [e, ← hl, set_split]
    simp
  · unfold World.held
    rw [e]
    simp [rheld]

theorem cur_mem {c : Conf} {s : HSt} {a : Nat} (h : cur c s = some a) : a ∈ addrs s.ring ∧ s.opened = true ∧ s.ring[(s.nfrag + s.nfrags) % c.size]? = some (some a) := by
  unfold cur at h
  split at h
  · rename_i ho
    exact ⟨mem_addrs (addr_slot h), ho, addr_slot h⟩
  · simp at h

theorem mem_rings {w : World} {n : Nat} {x : HSess} (hx : w.session n = some x) {a : Nat} (ha : a ∈ addrs x.st.ring) : a ∈ w.rings :=
  List.mem_flatMap.2 ⟨some x, List.mem_of_getElem? (join_some hx), ha⟩

theorem mem_held {w : World} {n : Nat} {r : HReq} (hr : w.request n = some r) : r.frag ∈ w.held :=
  List.mem_flatMap.2 ⟨some r, List.mem_of_getElem? (join_some hr), by simp [rheld]⟩

theorem view_congr {h h' : Heap} {s : HSt} (hg : ∀ a ∈ addrs s.ring, h'.get a = h.get a) : view h' s = view h s := by
  unfold view
  congr 1
  apply List.map_congr_left
  intro o ho
  cases o with
  | none => rfl
  | some b => exact hg b (List.mem_filterMap.2 ⟨some b, ho, rfl⟩)

theorem Same.sess_some {q : Nat} {w : World} {i : IWorld} (h : Same q w i) {n : Nat} {x : HSess} (hx : w.session n = some x) : ∃ y, i.session n = some y := by
  cases e : i.session n with
  | none => have := (h.hSessN n).2 e; rw [hx] at this; simp at this
  | some y => exact ⟨y, rfl⟩

theorem Same.req_some {q : Nat} {w : World} {i : IWorld} (h : Same q w i) {n : Nat} {r : HReq} (hx : w.request n = some r) : ∃ y, i.request n = some y := by
  cases e : i.request n with
  | none => have := (h.hReqN n).2 e; rw [hx] at this; simp at this
  | some y => exact ⟨y, rfl⟩

theorem Same.sess_none {q : Nat} {w : World} {i : IWorld} (h : Same q w i) {n : Nat} (hx : w.session n = none) : i.session n = none := (h.hSessN n).1 hx
theorem Same.req_none {q : Nat} {w : World} {i : IWorld} (h : Same q w i) {n : Nat} (hx : w.request n = none) : i.request n = none := (h.hReqN n).1 hx

theorem same_init (q : Nat) : Same q {} {} := by
  refine ⟨heapOk_init q, ?_, ?_, rfl, rfl, ?_, ?_, ?_, ?_, ?_⟩
  · intro a; simp [World.rings, World.held, Heap.ref]
  · simp [World.rings]
  · intro n; simp [World.session, IWorld.session]
  · intro n x y h; simp [World.session] at h
  · intro n; simp [World.request, IWorld.request]
  · intro n x y h; simp [World.request] at h
  · intro n x rid h; simp [World.session] at h

/-! ### Steps -/

theorem join_same {q : Nat} {w : World} {i : IWorld} (h : Same q w i) (c : Conf) (hc : Plain c) (hq : c.queue = q) : ∃ w', step w (.join c) = some w' ∧ Same q w' (istep i (.join c)) := by
  have ringz : addrs (hinit c).ring = [] := by
    unfold addrs hinit
    dsimp only
    generalize c.size = m
    induction m with
    | zero => rfl
    | succ m ih => rw [List.replicate_succ, List.filterMap_cons]; exact ih
  have hw : ∀ n, (World.mk w.heap (w.sess ++ [some { conf := c, st := hinit c }]) w.reqs).session n = if n = w.sess.length then some { conf := c, st := hinit c } else w.session n := fun n => join_snoc _ _ _
  have hi : ∀ n, (IWorld.mk (i.sess ++ [some { conf := c }]) i.reqs).session n = if n = w.sess.length then some { conf := c } else i.session n := fun n => by rw [h.hLenS]; exact join_snoc _ _ _
  have hr : (World.mk w.heap (w.sess ++ [some { conf := c, st := hinit c }]) w.reqs).rings = w.rings := by
    unfold World.rings
    simp [sring, ringz]
  refine ⟨_, rfl, ⟨h.ok, ?_, by rw [hr]; exact h.hNodup, by simp [istep, h.hLenS], h.hLenR, ?_, ?_, h.hReqN, ?_, ?_⟩⟩
  · intro a; rw [hr]; exact h.hRef a
  · intro n
    show (World.mk w.heap _ w.reqs).session n = none ↔ (IWorld.mk _ i.reqs).session n = none
    rw [hw, hi]
    split
    · simp
    · exact h.hSessN n
  · intro n x y hx hy
    have hx : (if n = w.sess.length then some _ else w.session n) = some x := (hw n) ▸ hx
    have hy : (if n = w.sess.length then some _ else i.session n) = some y := (hi n) ▸ hy
    by_cases hn : n = w.sess.length
    · rw [if_pos hn] at hx hy
      injection hx with hx
      injection hy with hy
      subst hx hy
      refine ⟨rfl, rfl, ?_, hc, hq, by simp, by simp [hinit]⟩
      show some (Sess.mk (init c) []) = _
      unfold view hinit init
      simp
    · rw [if_neg hn] at hx hy
      exact h.hSess n x y hx hy
  · intro n r y hx hy
    obtain ⟨a1, a2, a3, a4, a5, a6, a7, a8, a9⟩ := h.hReq n r y hx hy
    refine ⟨a1, a2, a3, a4, a5, a6, a7, ?_, ?_⟩
    · show (World.mk w.heap _ w.reqs).session _ ≠ none
      rw [hw]
      split
      · simp
      · exact a8
    · intro m x hm
      have hm : (if m = w.sess.length then some _ else w.session m) = some x := (hw m) ▸ hm
      split at hm
      · injection hm with hm
        subst hm
        intro e
        have := (cur_mem e).2.1
        simp [hinit] at this
      · exact a9 m x hm
  · intro n x rid hx hl
    have hx : (if n = w.sess.length then some _ else w.session n) = some x := (hw n) ▸ hx
    split at hx
    · injection hx with hx
      subst hx
      simp at hl
    · exact h.hLast n x rid hx hl

theorem feed_same {q : Nat} {w : World} {i : IWorld} (h : Same q w i) (sid : Nat) (k : Codec) (fs : List Frame) (hf : ∀ f ∈ fs, f.pts < 2 ^ 63) :
    ∃ w', step w (.feed sid k fs) = some w' ∧ Same q w' (istep i (.feed sid k fs)) := by
  cases hs : w.session sid with
  | none =>
    refine ⟨w, by unfold step; dsimp only; rw [hs], ?_⟩
    unfold istep
    dsimp only
    rw [h.sess_none hs]
    exact h
  | some x =>
    obtain ⟨y, hy⟩ := h.sess_some hs
    obtain ⟨b1, b2, b3, b4, b5, b6, b7⟩ := h.hSess sid x y hs hy
    -- with values
    have hf' : ∀ z ∈ y.fed ++ [(k, fs)], ∀ f ∈ z.2, f.pts < 2 ^ 63 := by
      intro z hz
      rcases List.mem_append.1 hz with hz | hz
      · exact b6 z hz
      · simp at hz; rw [hz]; exact hf
    obtain ⟨s1, it, e1, _, _, _⟩ := run_feeds b4 (y.fed ++ [(k, fs)]) ⟨init y.conf, []⟩ [] (run_init y.conf) hf'
    have hnow := b3
    unfold ISess.now at hnow
    have e1' := e1
    rw [feeds_app, hnow, Option.bind_some, feeds] at e1'
    cases hu : feed y.conf k fs ⟨view w.heap x.st, x.queue⟩ with
    | none => rw [hu] at e1'; simp at e1'
    | some s2 =>
      rw [hu, Option.bind_some, feeds] at e1'
      injection e1' with e1'
      subst e1'
      unfold feed at hu
      dsimp only at hu
      cases hup : update y.conf k (x.queue ++ fs) (view w.heap x.st) with
      | none => rw [hup] at hu; simp at hu
      | some p =>
        obtain ⟨v, qq⟩ := p
        rw [hup, Option.map_some] at hu
        injection hu with hu
        -- with pointers
        obtain ⟨A, B, r1, r2, r3⟩ := rings_at hs
        obtain ⟨extra, hex⟩ : ∃ extra : Nat → Nat, ∀ a, extra a = (A ++ B).count a + w.held.count a := ⟨fun a => (A ++ B).count a + w.held.count a, fun _ => rfl⟩
        have hcount : ∀ (R : List Nat) a, (A ++ R ++ B).count a + w.held.count a = R.count a + extra a := by
          intro R a
          rw [hex]
          simp only [List.count_append]
          omega
        have nd := h.hNodup
        rw [r2] at nd
        have nd1 := List.nodup_append.1 nd
        have nd2 := List.nodup_append.1 nd1.1
        have sim : Sim x.conf w.heap x.st extra := by
          refine ⟨by rw [b1, b5]; exact h.ok, b7, ?_, nd2.2.1⟩
          intro a
          rw [h.hRef a, r2]
          exact hcount _ a
        rw [← b1] at hup
        obtain ⟨h', s', u1, u2, u3⟩ := hupdate_sim (by rw [b1]; exact b4.hPlain) k _ _ _ sim v qq hup
        have hn : sid < w.sess.length := join_lt hs
        have hw : ∀ m, (World.mk h' (w.sess.set sid (some { x with st := s', queue := qq })) w.reqs).session m = if m = sid then some { x with st := s', queue := qq } else w.session m := fun m => join_set hn _ m
        have hi : ∀ m, (IWorld.mk (i.sess.set sid (some { y with fed := y.fed ++ [(k, fs)] })) i.reqs).session m = if m = sid then some { y with fed := y.fed ++ [(k, fs)] } else i.session m :=
          fun m => join_set (by rw [← h.hLenS]; exact hn) _ m
        have hrings : (World.mk h' (w.sess.set sid (some { x with st := s', queue := qq })) w.reqs).rings = A ++ addrs s'.ring ++ B := r1 _
        have hother : ∀ m x', m ≠ sid → w.session m = some x' → ∀ a ∈ addrs x'.st.ring, 0 < extra a ∧ cur x.conf x.st ≠ some a := by
          intro m x' hm hx' a ha
          have hab := r3 m x' hm hx' a ha
          have hp := List.count_pos_iff.2 hab
          refine ⟨by rw [hex]; omega, ?_⟩
          intro hc
          have hc := (cur_mem hc).1
          rcases List.mem_append.1 hab with hab | hab
          · exact nd2.2.2 a hab a hc rfl
          · exact nd1.2.2 a (List.mem_append_right _ hc) a hab rfl
        have hheld : ∀ a ∈ w.held, 0 < extra a := by
          intro a ha
          have hp := List.count_pos_iff.2 ha
          rw [hex]
          omega
        refine ⟨⟨h', w.sess.set sid (some { x with st := s', queue := qq }), w.reqs⟩, ?_, ?_⟩
        · unfold step
          dsimp only
          rw [hs]
          dsimp only
          rw [u1]
          rfl
        · unfold istep
          dsimp only
          rw [hy]
          refine ⟨by have := u3.sim.ok; rw [b1, b5] at this; exact this, ?_, ?_, ?_, h.hLenR, ?_, ?_, h.hReqN, ?_, ?_⟩
          · intro a
            rw [hrings]
            show h'.ref a = _ + w.held.count a
            rw [hcount, u3.sim.hRef a]
          · rw [hrings]
            refine nodup_swap nd u3.sim.hNodup ?_
            intro a ha
            rcases u3.ring a ha with h1 | h1
            · exact Or.inl h1
            · rw [hex] at h1
              have : (A ++ B).count a = 0 := by omega
              have := List.count_eq_zero.1 this
              exact Or.inr ⟨fun h => this (List.mem_append_left _ h), fun h => this (List.mem_append_right _ h)⟩
          · simp [h.hLenS]
          · intro m
            rw [hw, hi]
            split
            · simp
            · exact h.hSessN m
          · intro m x' y' hx' hy'
            rw [hw] at hx'
            rw [hi] at hy'
            by_cases hm : m = sid
            · rw [if_pos hm] at hx' hy'
              injection hx' with hx'
              injection hy' with hy'
              subst hx' hy'
              refine ⟨b1, b2, ?_, b4, b5, hf', u3.sim.hLen⟩
              show feeds y.conf (y.fed ++ [(k, fs)]) _ = _
              rw [e1, ← hu, u2]
            · rw [if_neg hm] at hx' hy'
              obtain ⟨d1, d2, d3, d4, d5, d6, d7⟩ := h.hSess m x' y' hx' hy'
              refine ⟨d1, d2, ?_, d4, d5, d6, d7⟩
              rw [d3]
              have := view_congr (h := w.heap) (h' := h') (s := x'.st) (fun a ha => (u3.keep a (hother m x' hm hx' a ha).1 (hother m x' hm hx' a ha).2).1)
              rw [this]
          · intro n r y' hx' hy'
            obtain ⟨a1, a2, a3, a4, a5, a6, a7, a8, a9⟩ := h.hReq n r y' hx' hy'
            have hk := u3.keep r.frag (hheld _ (mem_held hx')) (a9 sid x hs)
            refine ⟨a1, by rw [← a2]; exact hk.1, a3, a4, a5, a6, a7, ?_, ?_⟩
            · rw [hw]
              split
              · simp
              · exact a8
            · intro m x' hm
              rw [hw] at hm
              split at hm
              · injection hm with hm
                subst hm
                exact hk.2
              · exact a9 m x' hm
          · intro n x' rid hx' hl
            rw [hw] at hx'
            split at hx'
            · rename_i hm
              injection hx' with hx'
              subst hx'
              rw [hm]
              exact h.hLast sid x rid hs hl
            · exact h.hLast n x' rid hx' hl

end Verif.Hls2.Mem
