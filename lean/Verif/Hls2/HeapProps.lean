import Verif.Hls2.HeapServe
import Verif.Hls2.Props
/-
C75: the memory of HLS fragments.
-/
namespace Verif.Hls2.Mem
open Verif Verif.Hls2 Spec

/-- How often an object is referred to: by the slots of sessions that are there, and by responses that are there -/
def World.refs (w : World) (a : Nat) : Nat :=
  (w.sess.map fun o => match o with | none => 0 | some x => x.st.ring.count (some a)).sum + (w.reqs.filter fun o => match o with | none => false | some r => r.frag == a).length

/-- The memory `w` does what is expected (`i`). -/
structure Holds (w : World) (i : IWorld) : Prop where
  /-- sessions are what C74 says of one alone that is fed the same: slots hold the fragments it has -/
  hSess : ∀ n, (w.session n = none ∧ i.session n = none) ∨ ∃ x y s, w.session n = some x ∧ i.session n = some y ∧ x.conf = y.conf ∧ y.now = some s ∧ x.queue = s.queue ∧
    x.st.nfrag = s.st.nfrag ∧ x.st.nfrags = s.st.nfrags ∧ x.st.opened = s.st.opened ∧ x.st.playing = s.st.playing ∧ x.st.ring.map (Option.bind · w.heap.get) = s.st.ring
  /-- responses are what copies would give -/
  hReq : ∀ n, (w.request n = none ∧ i.request n = none) ∨ ∃ r y, w.request n = some r ∧ i.request n = some y ∧ r.sess = y.sess ∧ r.length = y.frag.length ∧ r.sent = y.sent
  /-- an object is counted as often as it is referred to -/
  hCount : ∀ a x, w.heap.cells[a]? = some x → x.ref = w.refs a
  /-- no object is in two slots -/
  hOne : ∀ n m x y (j k a : Nat), w.session n = some x → w.session m = some y → x.st.ring[j]? = some (some a) → y.st.ring[k]? = some (some a) → n = m ∧ j = k
  /-- each object nothing refers to is in the free list once, and no other -/
  hFree : w.heap.free.Nodup ∧ ∀ a, a ∈ w.heap.free ↔ a < w.heap.cells.length ∧ w.refs a = 0

theorem count_addrs (l : List (Option Nat)) (a : Nat) : (addrs l).count a = l.count (some a) := by
  induction l with
  | nil => rfl
  | cons o l ih =>
    cases o with
    | none => simp only [addrs, List.filterMap_cons, id] at ih ⊢; rw [ih, List.count_cons]; simp
    | some b => simp only [addrs, List.filterMap_cons, id, List.count_cons] at ih ⊢; rw [ih]; simp

theorem refs_eq (w : World) (a : Nat) : w.refs a = w.rings.count a + w.held.count a := by
  unfold World.refs World.rings World.held
  congr 1
  · induction w.sess with
    | nil => rfl
    | cons o l ih =>
      rw [List.map_cons, List.sum_cons, List.flatMap_cons, List.count_append, ih]
      congr 1
      cases o with
      | none => rfl
      | some x => exact (count_addrs _ _).symm
  · induction w.reqs with
    | nil => rfl
    | cons o l ih =>
      rw [List.flatMap_cons, List.count_append, ← ih, List.filter_cons]
      cases o with
      | none => simp [rheld]
      | some r =>
        by_cases h : r.frag = a
        · simp [rheld, h]; omega
        · simp [rheld, h]

theorem Same.holds {q : Nat} {w : World} {i : IWorld} (h : Same q w i) : Holds w i := by
  refine ⟨?_, ?_, ?_, ?_, h.ok.hFree, ?_⟩
  · intro n
    cases hs : w.session n with
    | none => exact Or.inl ⟨rfl, (h.hSessN n).1 hs⟩
    | some x =>
      obtain ⟨y, hy⟩ := h.sess_some hs
      obtain ⟨b1, b2, b3, _⟩ := h.hSess n x y hs hy
      exact Or.inr ⟨x, y, _, rfl, hy, b1, b3, rfl, rfl, rfl, rfl, rfl, rfl⟩
  · intro n
    cases hs : w.request n with
    | none => exact Or.inl ⟨rfl, (h.hReqN n).1 hs⟩
    | some r =>
      obtain ⟨y, hy⟩ := h.req_some hs
      obtain ⟨a1, _, a3, _, a5, _⟩ := h.hReq n r y hs hy
      exact Or.inr ⟨r, y, rfl, hy, a1, a3, a5⟩
  · intro a x hx
    have := h.hRef a
    unfold Heap.ref at this
    rw [hx] at this
    rw [refs_eq]
    exact this
  · intro n m x y j k a hx hy hj hk
    obtain ⟨A, B, _, r2, r3⟩ := rings_at hx
    have nd := h.hNodup
    rw [r2] at nd
    have nd1 := List.nodup_append.1 nd
    have nd2 := List.nodup_append.1 nd1.1
    by_cases hm : m = n
    · subst hm
      rw [hx] at hy
      injection hy with hy
      subst hy
      exact ⟨rfl, slot_inj nd2.2.1 hj hk⟩
    · exfalso
      have g1 := mem_addrs hj
      rcases List.mem_append.1 (r3 m y hm hy a (mem_addrs hk)) with hab | hab
      · exact nd2.2.2 a hab a g1 rfl
      · exact nd1.2.2 a (List.mem_append_right _ g1) a hab rfl
  · intro a
    rw [h.ok.hIff a, refs_eq, h.hRef a]

/-- C75 (partial: for orderly steps; the violations show what else happens): no pointer to nothing is ever used, sessions and responses are as if each fragment had been copied, and counts are right. -/
theorem C75_refine_partial (q : Nat) (ops : List Op) (i : IWorld) (hr : Runs q ops {} i) : ∃ w, run ops {} = some w ∧ Holds w i := by
  obtain ⟨w, e, h⟩ := run_same ops {} {} i (same_init q) hr
  exact ⟨w, e, h.holds⟩

/-- C75: when no session and no response is left, every object that was ever allocated is free, once. -/
theorem C75_no_leak_partial (q : Nat) (ops : List Op) (i : IWorld) (hr : Runs q ops {} i) (hs : ∀ n, i.session n = none) (hq : ∀ n, i.request n = none) :
    ∃ w, run ops {} = some w ∧ w.heap.free.Nodup ∧ ∀ a, a ∈ w.heap.free ↔ a < w.heap.cells.length := by
  obtain ⟨w, e, h⟩ := run_same ops {} {} i (same_init q) hr
  have h1 : w.rings = [] := by
    cases hc : w.rings with
    | nil => rfl
    | cons a l =>
      have : a ∈ w.rings := by rw [hc]; simp
      obtain ⟨o, ho, hm⟩ := List.mem_flatMap.1 this
      cases o with
      | none => simp [sring] at hm
      | some x =>
        obtain ⟨n, hn⟩ := List.mem_iff_getElem?.1 ho
        have hw : w.session n = some x := by unfold World.session; rw [hn]; rfl
        have := (h.hSessN n).2 (hs n)
        rw [hw] at this
        simp at this
  have h2 : w.held = [] := by
    cases hc : w.held with
    | nil => rfl
    | cons a l =>
      have : a ∈ w.held := by rw [hc]; simp
      obtain ⟨o, ho, hm⟩ := List.mem_flatMap.1 this
      cases o with
      | none => simp [rheld] at hm
      | some x =>
        obtain ⟨n, hn⟩ := List.mem_iff_getElem?.1 ho
        have hw : w.request n = some x := by unfold World.request; rw [hn]; rfl
        have := (h.hReqN n).2 (hq n)
        rw [hw] at this
        simp at this
  refine ⟨w, e, h.ok.hFree, ?_⟩
  intro a
  rw [h.ok.hIff a, h.hRef a, h1, h2]
  simp

/-! ### How much memory there is -/

def slots : Option ISess → Nat
  | none => 0
  | some x => x.conf.size

/-- The slots all sessions have, and the responses there are -/
def _root_.Verif.Hls2.Mem.Spec.IWorld.need (i : IWorld) : Nat :=
  (i.sess.map slots).sum + (i.reqs.filter (·.isSome)).length

theorem rings_len {q : Nat} {w : World} {i : IWorld} (h : Same q w i) (sid : Nat) (x : HSess) (hx : w.session sid = some x) :
    ∀ A B, w.rings = A ++ addrs x.st.ring ++ B → (∀ y, (World.mk w.heap (w.sess.set sid y) w.reqs).rings = A ++ sring y ++ B) →
    (A ++ B).length + x.conf.size + w.held.length ≤ i.need := by
  intro A B _ r1
  have e0 : (w.sess.set sid none).flatMap sring = A ++ B := by
    have := r1 none
    simpa [World.rings, sring] using this
  -- slot by slot
  have key : ∀ (l : List (Option HSess)) (m : List (Option ISess)), l.length = m.length →
      (∀ n : Nat, (l[n]?).join = none ↔ (m[n]?).join = none) → (∀ (n : Nat) x y, (l[n]?).join = some x → (m[n]?).join = some y → x.conf = y.conf ∧ x.st.ring.length = x.conf.size) →
      (l.flatMap sring).length ≤ (m.map slots).sum ∧
      ∀ (k : Nat) x, (l[k]?).join = some x → ((l.set k none).flatMap sring).length + x.conf.size ≤ (m.map slots).sum := by
    intro l
    induction l with
    | nil => intro m hl _ _; cases m with | nil => exact ⟨by simp, by intro k x hk; simp at hk⟩ | cons => simp at hl
    | cons o l ih =>
      intro m hl hn hc
      cases m with
      | nil => simp at hl
      | cons p m =>
        obtain ⟨i1, i2⟩ := ih m (by simpa using hl) (fun n => by simpa using hn (n + 1)) (fun n x y => by simpa using hc (n + 1) x y)
        have hsz : (sring o).length ≤ slots p ∧ ∀ x, o = some x → x.conf.size = slots p := by
          have h0 := hn 0
          have h1 := hc 0
          simp at h0 h1
          cases o with
          | none => exact ⟨by simp [sring], by simp⟩
          | some x =>
            cases p with
            | none => simp at h0
            | some y =>
              obtain ⟨c1, c2⟩ := h1 x y rfl rfl
              refine ⟨?_, ?_⟩
              · show (addrs x.st.ring).length ≤ y.conf.size
                rw [← c1, ← c2]
                exact List.length_filterMap_le _ _
              · intro x' hx'
                injection hx' with hx'
                rw [← hx', c1]
                rfl
        rw [List.map_cons, List.sum_cons]
        refine ⟨by rw [List.flatMap_cons, List.length_append]; have := hsz.1; omega, ?_⟩
        intro k x hk
        cases k with
        | zero =>
          simp at hk
          have := hsz.2 x hk
          rw [List.set_cons_zero, List.flatMap_cons, List.length_append]
          have h0 : (sring none).length = 0 := rfl
          omega
        | succ k =>
          have := i2 k x (by simpa using hk)
          have := hsz.1
          rw [List.set_cons_succ, List.flatMap_cons, List.length_append]
          omega
  have k1 := (key w.sess i.sess h.hLenS h.hSessN (fun n x y hx hy => by have := h.hSess n x y hx hy; exact ⟨this.1, this.2.2.2.2.2.2⟩)).2 sid x hx
  rw [e0] at k1
  have key2 : ∀ (l : List (Option HReq)) (m : List (Option IReq)), l.length = m.length → (∀ n : Nat, (l[n]?).join = none ↔ (m[n]?).join = none) → (l.flatMap rheld).length = (m.filter (·.isSome)).length := by
    intro l
    induction l with
    | nil => intro m hl _; cases m with | nil => rfl | cons => simp at hl
    | cons o l ih =>
      intro m hl hn
      cases m with
      | nil => simp at hl
      | cons p m =>
        have := ih m (by simpa using hl) (fun n => by simpa using hn (n + 1))
        have h0 := hn 0
        simp at h0
        rw [List.flatMap_cons, List.length_append, this, List.filter_cons]
        cases o with
        | none => rw [h0.1 rfl]; simp [rheld]
        | some r =>
          cases p with
          | none => simp at h0
          | some y => simp [rheld]; omega
  have k2 := key2 w.reqs i.reqs h.hLenR h.hReqN
  unfold IWorld.need
  unfold World.held
  omega

theorem finish_len {w w' : World} {rid : Nat} {r : HReq} (e : finish w rid r = some w') : w'.heap.cells.length = w.heap.cells.length := by
  unfold finish at e
  cases hx : w.session r.sess with
  | none => rw [hx] at e; simp at e
  | some x =>
    rw [hx, Option.bind_some] at e
    cases hr : w.heap.release r.frag with
    | none => rw [hr] at e; simp at e
    | some h' => rw [hr] at e; injection e with e; rw [← e]; exact release_len hr

/-- There are more objects after a step only if all slots and responses need them. -/
theorem step_len {q : Nat} {w w' : World} {i : IWorld} (h : Same q w i) (o : Op) (ho : Orderly q i o) (e : step w o = some w') : w'.heap.cells.length ≤ max w.heap.cells.length i.need := by
  cases o with
  | join c => unfold step at e; injection e with e; rw [← e]; show w.heap.cells.length ≤ _; omega
  | feed sid k fs =>
    unfold step at e
    dsimp only at e
    cases hs : w.session sid with
    | none => rw [hs] at e; injection e with e; rw [← e]; omega
    | some x =>
      rw [hs] at e
      dsimp only at e
      obtain ⟨y, hy⟩ := h.sess_some hs
      obtain ⟨b1, b2, b3, b4, b5, b6, b7⟩ := h.hSess sid x y hs hy
      have hf' : ∀ z ∈ y.fed ++ [(k, fs)], ∀ f ∈ z.2, f.pts < 2 ^ 63 := by
        intro z hz
        rcases List.mem_append.1 hz with hz | hz
        · exact b6 z hz
        · simp at hz; rw [hz]; exact ho
      obtain ⟨s1, it, e1, _, _, _⟩ := run_feeds b4 (y.fed ++ [(k, fs)]) ⟨init y.conf, []⟩ [] (run_init y.conf) hf'
      have hnow := b3
      unfold ISess.now at hnow
      rw [feeds_app, hnow, Option.bind_some, feeds] at e1
      cases hu : feed y.conf k fs ⟨view w.heap x.st, x.queue⟩ with
      | none => rw [hu] at e1; simp at e1
      | some s2 =>
        unfold feed at hu
        dsimp only at hu
        cases hup : update y.conf k (x.queue ++ fs) (view w.heap x.st) with
        | none => rw [hup] at hu; simp at hu
        | some p =>
          obtain ⟨v, qq⟩ := p
          obtain ⟨A, B, r1, r2, r3⟩ := rings_at hs
          have nd := h.hNodup
          rw [r2] at nd
          have nd1 := List.nodup_append.1 nd
          have nd2 := List.nodup_append.1 nd1.1
          have sim : Sim x.conf w.heap x.st (fun a => (A ++ B).count a + w.held.count a) := by
            refine ⟨by rw [b1, b5]; exact h.ok, b7, ?_, nd2.2.1⟩
            intro a
            rw [h.hRef a, r2]
            simp only [List.count_append]
            omega
          rw [← b1] at hup
          obtain ⟨h', s', u1, _, u3⟩ := hupdate_sim (by rw [b1]; exact b4.hPlain) k _ _ _ sim v qq hup
          rw [u1] at e
          injection e with e
          rw [← e]
          have hb : Bound (fun a => (A ++ B).count a + w.held.count a) ((A ++ B).length + w.held.length) := by
            intro l hl hp
            rw [← List.length_append]
            refine List.Nodup.length_le_of_subset hl ?_
            intro a ha
            have : 0 < (A ++ B).count a + w.held.count a := hp a ha
            rw [← List.count_append] at this
            exact List.count_pos_iff.1 this
          have g1 := u3.grow _ hb
          have g2 := rings_len h sid x hs A B r2 (fun y => r1 y)
          show h'.cells.length ≤ _
          omega
  | ask sid name after =>
    unfold step at e
    dsimp only at e
    cases hs : w.session sid with
    | none => rw [hs] at e; injection e with e; rw [← e]; omega
    | some x =>
      rw [hs] at e
      dsimp only at e
      cases hf : hfind x name after with
      | none => rw [hf] at e; injection e with e; rw [← e]; show w.heap.cells.length ≤ _; omega
      | some a =>
        rw [hf] at e
        dsimp only at e
        cases hg : w.heap.get a with
        | none => rw [hg] at e; simp at e
        | some g =>
          rw [hg, Option.bind_some] at e
          cases ha : w.heap.acquire a with
          | none => rw [ha] at e; simp at e
          | some h' =>
            rw [ha] at e
            injection e with e
            rw [← e]
            have := acquire_len ha
            show h'.cells.length ≤ _
            omega
  | askFails sid name after =>
    unfold step at e
    dsimp only at e
    cases hs : w.session sid with
    | none => rw [hs] at e; injection e with e; rw [← e]; omega
    | some x =>
      rw [hs] at e
      dsimp only at e
      cases hf : hfind x name after with
      | none => rw [hf] at e; injection e with e; rw [← e]; show w.heap.cells.length ≤ _; omega
      | some a =>
        rw [hf] at e
        dsimp only at e
        cases ha : w.heap.release a with
        | none => rw [ha] at e; simp at e
        | some h' =>
          rw [ha] at e
          injection e with e
          rw [← e]
          have := release_len ha
          show h'.cells.length ≤ _
          omega
  | playlist sid =>
    unfold step at e
    dsimp only at e
    cases hs : w.session sid with
    | none => rw [hs] at e; injection e with e; rw [← e]; omega
    | some x => rw [hs] at e; injection e with e; rw [← e]; show w.heap.cells.length ≤ _; omega
  | send rid =>
    unfold step at e
    dsimp only at e
    cases hr : w.request rid with
    | none => rw [hr] at e; injection e with e; rw [← e]; omega
    | some r =>
      rw [hr] at e
      dsimp only at e
      cases hs : w.session r.sess with
      | none => rw [hs] at e; simp at e
      | some x =>
        rw [hs, Option.bind_some] at e
        cases hg : w.heap.get r.frag with
        | none => rw [hg] at e; simp at e
        | some g =>
          rw [hg, Option.bind_some] at e
          cases hz : sendGo x.conf.queue g 4 r.pos with
          | none => rw [hz] at e; simp at e
          | some z => rw [hz] at e; injection e with e; rw [← e]; show w.heap.cells.length ≤ _; omega
  | finish rid =>
    unfold step at e
    dsimp only at e
    cases hr : w.request rid with
    | none => rw [hr] at e; injection e with e; rw [← e]; omega
    | some r => rw [hr] at e; have := finish_len e; omega
  | close sid =>
    unfold step at e
    dsimp only at e
    cases hs : w.session sid with
    | none => rw [hs] at e; injection e with e; rw [← e]; omega
    | some x =>
      rw [hs] at e
      dsimp only at e
      have fin : ∀ w1 : World, w1.heap.cells.length = w.heap.cells.length → (releaseAll x.st.ring w1.heap).map (fun h => { w1 with heap := h, sess := w1.sess.set sid none }) = some w' →
          w'.heap.cells.length ≤ max w.heap.cells.length i.need := by
        intro w1 h1 h2
        cases ha : releaseAll x.st.ring w1.heap with
        | none => rw [ha] at h2; simp at h2
        | some h' =>
          rw [ha] at h2
          injection h2 with h2
          rw [← h2]
          have := releaseAll_len _ _ _ ha
          show h'.cells.length ≤ _
          omega
      cases hl : x.last with
      | none => rw [hl] at e; exact fin w rfl e
      | some rid =>
        rw [hl] at e
        dsimp only at e
        cases hr : w.request rid with
        | none => rw [hr] at e; simp at e
        | some r =>
          rw [hr] at e
          dsimp only at e
          cases hf : finish w rid r with
          | none => rw [hf] at e; simp at e
          | some w1 => rw [hf, Option.bind_some] at e; exact fin w1 (finish_len hf) e

/-- All states of a run need at most `K`. -/
def Needs (K : Nat) : List Op → IWorld → Prop
  | [], i => i.need ≤ K
  | o :: l, i => i.need ≤ K ∧ Needs K l (istep i o)

/-- C75: there are never more objects than slots and responses there were at once. -/
theorem C75_memory_partial (q K : Nat) (ops : List Op) (i : IWorld) (hr : Runs q ops {} i) (hk : Needs K ops {}) : ∃ w, run ops {} = some w ∧ w.heap.cells.length ≤ K := by
  have key : ∀ (l : List Op) (w : World) (i i' : IWorld), Same q w i → Runs q l i i' → Needs K l i → w.heap.cells.length ≤ K → ∃ w', run l w = some w' ∧ w'.heap.cells.length ≤ K := by
    intro l
    induction l with
    | nil => intro w i i' _ _ _ hw; exact ⟨w, rfl, hw⟩
    | cons o l ih =>
      intro w i i' h hr hn hw
      obtain ⟨w1, e1, e2⟩ := step_same h o hr.1
      have g := step_len h o hr.1 e1
      obtain ⟨w2, e3, e4⟩ := ih w1 _ i' e2 hr.2 hn.2 (by have := hn.1; omega)
      exact ⟨w2, by rw [run, e1]; exact e3, e4⟩
  exact key ops {} {} i (same_init q) hr hk (by simp)

/-! ### One response -/

theorem irequest_step {i : IWorld} (o : Op) {rid : Nat} {y : IReq} (h : i.request rid = some y) :
    (istep i o).request rid = none ∧ (o = .finish rid ∨ o = .close y.sess) ∨ (istep i o).request rid = some { y with sends := y.sends + if o = .send rid then 1 else 0 } := by
  have hl : rid < i.reqs.length := join_lt h
  cases o with
  | join c => exact Or.inr (by simp [istep]; exact h)
  | feed sid k fs =>
    refine Or.inr ?_
    unfold istep
    dsimp only
    split <;> (simp; exact h)
  | ask sid name after =>
    refine Or.inr ?_
    unfold istep
    dsimp only
    split
    · simp; exact h
    · split
      · simp; exact h
      · show ((i.reqs ++ [_])[rid]?).join = _
        rw [join_snoc, if_neg (by omega)]
        simp; exact h
  | askFails sid name after =>
    refine Or.inr ?_
    unfold istep
    dsimp only
    split <;> (simp; exact h)
  | playlist sid =>
    refine Or.inr ?_
    unfold istep
    dsimp only
    split <;> (simp; exact h)
  | send rid' =>
    refine Or.inr ?_
    unfold istep
    dsimp only
    by_cases hr : rid' = rid
    · subst hr
      rw [h]
      show ((i.reqs.set rid' _)[rid']?).join = _
      rw [join_set hl]
      simp
    · have hne : (Op.send rid' = Op.send rid) = False := by simp [hr]
      rw [if_neg (by rw [hne]; exact id)]
      split
      · simp; exact h
      · rename_i r' hr'
        show ((i.reqs.set rid' _)[rid]?).join = _
        rw [join_set (join_lt hr'), if_neg (fun e => hr e.symm)]
        simp; exact h
  | finish rid' =>
    unfold istep
    dsimp only
    by_cases hr : rid' = rid
    · subst hr
      refine Or.inl ⟨?_, Or.inl rfl⟩
      rw [h]
      have : (i.finish rid' y).reqs = i.reqs.set rid' none := by unfold IWorld.finish; split <;> rfl
      unfold IWorld.request
      dsimp only
      rw [this, join_set hl]
      simp
    · refine Or.inr ?_
      split
      · simp; exact h
      · rename_i r' hr'
        have : (i.finish rid' r').reqs = i.reqs.set rid' none := by unfold IWorld.finish; split <;> rfl
        unfold IWorld.request
        rw [this, join_set (join_lt hr'), if_neg (fun e => hr e.symm)]
        simp; exact h
  | close sid =>
    unfold istep
    dsimp only
    split
    · exact Or.inr (by simp; exact h)
    · have e : ((i.reqs.map (dropOf sid))[rid]?).join = dropOf sid (some y) := by
        rw [List.getElem?_map, join_some h]
        rfl
      by_cases hs : y.sess = sid
      · refine Or.inl ⟨?_, Or.inr (by rw [hs])⟩
        show ((i.reqs.map (dropOf sid))[rid]?).join = none
        rw [e]
        simp [dropOf, hs]
      · refine Or.inr ?_
        show ((i.reqs.map (dropOf sid))[rid]?).join = _
        rw [e]
        simp [dropOf, hs]

theorem irequest_none {i : IWorld} (o : Op) {rid : Nat} (hl : rid < i.reqs.length) (h : i.request rid = none) : (istep i o).request rid = none := by
  cases o with
  | join c => exact h
  | feed sid k fs =>
    unfold istep
    dsimp only
    split <;> exact h
  | ask sid name after =>
    unfold istep
    dsimp only
    split
    · exact h
    · split
      · exact h
      · show ((i.reqs ++ [_])[rid]?).join = _
        rw [join_snoc, if_neg (by omega)]
        exact h
  | askFails sid name after => unfold istep; dsimp only; split <;> exact h
  | playlist sid => unfold istep; dsimp only; split <;> exact h
  | send rid' =>
    unfold istep
    dsimp only
    split
    · exact h
    · rename_i r' hr'
      have hne : rid ≠ rid' := by intro e; subst e; rw [h] at hr'; simp at hr'
      show ((i.reqs.set rid' _)[rid]?).join = _
      rw [join_set (join_lt hr'), if_neg hne]
      exact h
  | finish rid' =>
    unfold istep
    dsimp only
    split
    · exact h
    · rename_i r' hr'
      have hne : rid ≠ rid' := by intro e; subst e; rw [h] at hr'; simp at hr'
      have : (i.finish rid' r').reqs = i.reqs.set rid' none := by unfold IWorld.finish; split <;> rfl
      unfold IWorld.request
      rw [this, join_set (join_lt hr'), if_neg hne]
      exact h
  | close sid =>
    unfold istep
    dsimp only
    split
    · exact h
    · show ((i.reqs.map (dropOf sid))[rid]?).join = none
      rw [List.getElem?_map]
      unfold IWorld.request at h
      cases e : i.reqs[rid]? with
      | none => rfl
      | some o =>
        rw [e] at h
        cases o with
        | none => rfl
        | some r => simp at h

theorem istep_len (i : IWorld) (o : Op) : i.reqs.length ≤ (istep i o).reqs.length := by
  cases o with
  | join c => simp [istep]
  | feed sid k fs => unfold istep; dsimp only; split <;> simp
  | ask sid name after =>
    unfold istep
    dsimp only
    split
    · simp
    · split <;> simp [IWorld.forget]
  | askFails sid name after => unfold istep; dsimp only; split <;> simp [IWorld.forget]
  | playlist sid => unfold istep; dsimp only; split <;> simp [IWorld.forget]
  | send rid => unfold istep; dsimp only; split <;> simp
  | finish rid =>
    unfold istep
    dsimp only
    split
    · simp
    · rename_i r _
      have : (i.finish rid r).reqs = i.reqs.set rid none := by unfold IWorld.finish; split <;> rfl
      rw [this]
      simp
  | close sid => unfold istep; dsimp only; split <;> simp

theorem irequest_runs {q : Nat} {rid : Nat} : ∀ (l : List Op) (i i' : IWorld), Runs q l i i' → ∀ y, i.request rid = some y →
    (i'.request rid = none ∧ (.finish rid ∈ l ∨ .close y.sess ∈ l)) ∨ i'.request rid = some { y with sends := y.sends + l.count (.send rid) } := by
  have gone : ∀ (l : List Op) (i i' : IWorld), Runs q l i i' → rid < i.reqs.length → i.request rid = none → i'.request rid = none := by
    intro l
    induction l with
    | nil => intro i i' h _ hn; rw [h]; exact hn
    | cons o l ih =>
      intro i i' h hl hn
      exact ih _ i' h.2 (Nat.lt_of_lt_of_le hl (istep_len i o)) (irequest_none o hl hn)
  intro l
  induction l with
  | nil => intro i i' h y hy; refine Or.inr ?_; rw [h, hy]; rfl
  | cons o l ih =>
    intro i i' h y hy
    rcases irequest_step o hy with ⟨hn, ho⟩ | hs
    · refine Or.inl ⟨gone l _ i' h.2 (Nat.lt_of_lt_of_le (join_lt hy) (istep_len i o)) hn, ?_⟩
      rcases ho with ho | ho <;> simp [ho]
    · rcases ih _ i' h.2 _ hs with ⟨g1, g2⟩ | g
      · refine Or.inl ⟨g1, ?_⟩
        rcases g2 with g2 | g2
        · exact Or.inl (List.mem_cons_of_mem _ g2)
        · exact Or.inr (List.mem_cons_of_mem _ g2)
      · refine Or.inr ?_
        rw [g, List.count_cons]
        by_cases ho : o = .send rid
        · rw [ho]; simp; omega
        · simp [ho]

theorem runs_app {q : Nat} : ∀ (l1 l2 : List Op) (i i1 i2 : IWorld), Runs q l1 i i1 → Runs q l2 i1 i2 → Runs q (l1 ++ l2) i i2 := by
  intro l1
  induction l1 with
  | nil => intro l2 i i1 i2 h1 h2; rw [h1] at h2; exact h2
  | cons o l1 ih => intro l2 i i1 i2 h1 h2; exact ⟨h1.1, ih l2 _ i1 i2 h1.2 h2⟩

/-- C75: whatever happens after a fragment was asked for (new fragments take its slot, sessions come and go), the response tells the length the fragment had, and sends its bytes, in order, and no others;
all of them once it was sent from often enough. It is there until it is finished, or its session is closed. -/
theorem C75_response_partial (q : Nat) (l1 l2 : List Op) (i1 i2 : IWorld) (h1 : Runs q l1 {} i1) (sid : Nat) (name : HlsRestore.Text) (after : Char) (h2 : Runs q (.ask sid name after :: l2) i1 i2)
    (y : ISess) (hy : i1.session sid = some y) (g : Frag) (hg : y.find name after = some g) :
    ∃ w, run (l1 ++ .ask sid name after :: l2) {} = some w ∧
      ((w.request i1.reqs.length = none ∧ (.finish i1.reqs.length ∈ l2 ∨ .close sid ∈ l2)) ∨
       ∃ r, w.request i1.reqs.length = some r ∧ r.length = g.length ∧ r.sent <+: g.body ∧ (g.last ≤ 4 * l2.count (.send i1.reqs.length) → r.sent = g.body)) := by
  obtain ⟨w, e, h⟩ := run_same _ {} {} i2 (same_init q) (runs_app l1 _ {} i1 i2 h1 h2)
  refine ⟨w, e, ?_⟩
  have hreq : (istep i1 (.ask sid name after)).request i1.reqs.length = some { sess := sid, frag := g } := by
    unfold istep
    dsimp only
    rw [hy]
    dsimp only
    rw [hg]
    show ((i1.reqs ++ [_])[i1.reqs.length]?).join = _
    rw [join_snoc, if_pos rfl]
  rcases irequest_runs l2 _ i2 h2.2 _ hreq with ⟨g1, g2⟩ | g1
  · exact Or.inl ⟨(h.hReqN _).2 g1, g2⟩
  · refine Or.inr ?_
    cases hr : w.request i1.reqs.length with
    | none => rw [(h.hReqN _).1 hr] at g1; simp at g1
    | some r =>
      obtain ⟨a1, a2, a3, a4, a5, a6, a7, _⟩ := h.hReq _ r _ hr g1
      refine ⟨r, rfl, a3, ?_, ?_⟩
      · rw [a5]
        unfold IReq.sent Frag.body
        dsimp only
        refine ⟨((g.content.take g.last).drop (4 * (0 + l2.count (.send i1.reqs.length)))).flatMap (·.data), ?_⟩
        rw [← List.flatMap_append, List.take_append_drop]
      · intro hc
        rw [a5]
        unfold IReq.sent Frag.body
        dsimp only
        rw [List.take_of_length_le (l := g.content.take g.last) (by rw [List.length_take]; omega)]

/-! ### Examples -/

/-- Whether a step is orderly, decided -/
def okStep (q : Nat) (w : IWorld) : Op → Bool
  | .join c => !c.aligned && decide (c.queue ≠ 0) && decide (c.fraglen * 90 < 2 ^ 63) && decide (c.queue = q)
  | .feed _ _ fs => fs.all fun f => decide (f.pts < 2 ^ 63)
  | .ask sid name after =>
    match w.session sid with
    | none => true
    | some x =>
      match x.now with
      | none => true
      | some s =>
        match findSlot x.conf s.st.nfrag s.st.nfrags name after with
        | none => true
        | some i => !s.st.opened || decide (i ≠ (s.st.nfrag + s.st.nfrags) % x.conf.size)
  | .askFails sid name after => match w.session sid with | none => true | some x => (x.find name after).isNone
  | .playlist _ => true
  | .send _ => true
  | .finish _ => true
  | .close sid =>
    match w.session sid with
    | none => true
    | some x => (List.range w.reqs.length).all fun rid => match w.request rid with | none => true | some r => decide (r.sess ≠ sid) || decide (x.last = some rid)

theorem okStep_sound {q : Nat} {w : IWorld} {o : Op} (h : okStep q w o = true) : Orderly q w o := by
  cases o with
  | join c =>
    simp only [okStep, Bool.and_eq_true, Bool.not_eq_true', decide_eq_true_eq] at h
    exact ⟨⟨h.1.1.1, h.1.1.2, h.1.2⟩, h.2⟩
  | feed sid k fs =>
    simp only [okStep, List.all_eq_true, decide_eq_true_eq] at h
    exact h
  | ask sid name after =>
    intro x s i hx hs hi ho
    simp only [okStep, hx, hs, hi, ho, Bool.not_true, Bool.false_or, decide_eq_true_eq] at h
    exact h
  | askFails sid name after =>
    intro x hx
    simp only [okStep, hx] at h
    exact Option.isNone_iff_eq_none.1 h
  | playlist sid => trivial
  | send rid => trivial
  | finish rid => trivial
  | close sid =>
    intro x hx rid r hr hs
    simp only [okStep, hx, List.all_eq_true, List.mem_range] at h
    have := h rid (join_lt hr)
    rw [hr] at this
    simp only [hs, ne_eq, not_true_eq_false, decide_false, Bool.false_or, decide_eq_true_eq] at this
    exact this

def okRun (q : Nat) : List Op → IWorld → Bool
  | [], _ => true
  | o :: l, w => okStep q w o && okRun q l (istep w o)

theorem okRun_sound {q : Nat} : ∀ (l : List Op) (w : IWorld), okRun q l w = true → Runs q l w (l.foldl istep w) := by
  intro l
  induction l with
  | nil => intro w _; rfl
  | cons o l ih =>
    intro w h
    simp only [okRun, Bool.and_eq_true] at h
    exact ⟨okStep_sound h.1, ih _ h.2⟩

def exConf : Conf := { queue := 16 }
def exName (i : Nat) : HlsRestore.Text := parseFrag (uri exNames i)

/-- Two sessions are fed; a response of the first is sent while more than all its slots are used again; then all is closed. -/
def exBefore : List Op := [.join exConf, .join exConf] ++ (exFeeds 13).flatMap fun x => [.feed 0 x.1 x.2, .feed 1 x.1 x.2]
def exMore : List Op := (List.range 26).map fun i => .feed 0 exCodec [exKey ((13 + i) * 225000), exOther ((13 + i) * 225000 + 90000)]
def exAfter : List Op := [.ask 1 (exName 3) ' ', .send 0] ++ exMore ++ [.send 0, .finish 1, .close 1]

example : okRun 16 (exBefore ++ .ask 0 (exName 3) ' ' :: exAfter) {} = true := by decide +kernel

example : (run (exBefore ++ .ask 0 (exName 3) ' ' :: exAfter) {}).map (fun w => (w.reqs.map (Option.map fun r => (r.length, decide (r.sent = List.replicate 376 0 ++ [0x47, 6, 0x47, 255, 0x47, 7, 0x47, 255]))), w.heap.cells.length, w.heap.free.length)) =
    some ([some (384, true), none], 15, 7) := by decide +kernel

example : okRun 16 (exBefore ++ .ask 0 (exName 3) ' ' :: exAfter ++ [.close 0]) {} = true ∧ (run (exBefore ++ .ask 0 (exName 3) ' ' :: exAfter ++ [.close 0]) {}).map (fun w => (w.sess, w.reqs, w.heap.cells.length, w.heap.free.length)) =
    some ([none, none], [none, none], 15, 15) := by decide +kernel

def needs (K : Nat) : List Op → IWorld → Bool
  | [], i => decide (i.need ≤ K)
  | o :: l, i => decide (i.need ≤ K) && needs K l (istep i o)

theorem needs_sound {K : Nat} : ∀ (l : List Op) (i : IWorld), needs K l i = true → Needs K l i := by
  intro l
  induction l with
  | nil => intro i h; simp only [needs, decide_eq_true_eq] at h; exact h
  | cons o l ih => intro i h; simp only [needs, Bool.and_eq_true, decide_eq_true_eq] at h; exact ⟨h.1, ih _ h.2⟩

example : needs 16 (exBefore ++ .ask 0 (exName 3) ' ' :: exAfter ++ [.close 0]) {} = true := by decide +kernel

end Verif.Hls2.Mem
