import Verif.Live.GopSendStep
/- The invariant over whole runs (C62). -/
namespace Verif.GopSend
open Verif Verif.Gop

variable {k : Conf} {b b' : Pub} {D m D' m' : Nat} {I : Nat → Fr} {S : Prop} {p p' : Player} {J : Nat}

theorem set_pl_same (f : Nat → Player) (i : Nat) (p : Player) : set f i p i = p := by simp [set]
theorem set_pl_ne {i j : Nat} (f : Nat → Player) (p : Player) (h : j ≠ i) : set f i p j = f j := by simp [set, h]

/-- In the strict case the headers kept with the cache do not change any more. -/
theorem Ctx.headers (c : Ctx k b D m I S) (s : S) : b.st.aac = lastOf I false (List.range m) ∧ b.st.avc = lastOf I true (List.range m) := by
  obtain ⟨h1, h2⟩ := c.g.split
  have e : ∀ v, lastHdr b.st.info v (List.range D) = lastOf I v (List.range m) := by
    intro v
    have hDn := c.g.hDn
    have : lastHdr b.st.info v (List.range D) = lastOf I v (List.range D) :=
      (lastOf_congr (I := b.st.info) (I' := I) (fun f hf => (c.hI f (by have := List.mem_range.1 hf; omega)).symm)).symm
    rw [this]
    exact lastOf_range c.g.hmD (fun y y1 y2 => (c.hS s).2 y y1 (by omega))
  exact ⟨by rw [h1, e], by rw [h2, e]⟩

/-- The publication of a frame, before the player's turn. -/
theorem PI.pub (c : Ctx k b D m I S) (c' : Ctx k b' D' m' I S) (h : PI k b D m I S 0 p) (hD : D ≤ D') (hm : m < b.st.n → m' = m) (hn : b'.st.n = b.st.n + 1) (hv : b'.ver = b.ver) :
    PI k b' D' m' I S 1 p := by
  have key : S → m < b.st.n → b'.st.aac = b.st.aac ∧ b'.st.avc = b.st.avc := fun s hm' => by
    rw [(c'.headers s).1, (c'.headers s).2, (c.headers s).1, (c.headers s).2, hm hm']; exact ⟨rfl, rfl⟩
  refine ⟨⟨h.base.hA, h.base.hV, fun x hx => by have := h.base.hlt x hx; omega⟩, h.st, fun s h0 => by rw [hv]; exact h.ver s h0, fun h1 => ?_, fun h2 => ?_⟩
  · obtain ⟨a1, a2⟩ := h.low h1
    refine ⟨a1, fun s x hx => ?_⟩
    obtain ⟨a3, a4⟩ := a2 s x hx
    rw [(key s a4).1, (key s a4).2, hm a4]
    exact ⟨a3, by omega⟩
  · obtain ⟨J, j1, j2, j3, j4, j5⟩ := h.high h2
    refine ⟨J, j1, ⟨by rw [hm j5]; exact j2.hmJ, j2.hsort, j2.hltJ, fun s => ?_⟩, by omega, fun s => by have := j4 s; omega, by rw [hm j5]; omega⟩
    obtain ⟨a1, a2, a3, a4, a5⟩ := j2.hst s
    rw [(key s j5).1, (key s j5).2]
    exact ⟨a1, a2, fun z z1 => a3 z (by omega), a4, a5⟩

/-- A player that is not served. -/
theorem PI.skip (h : PI k b D m I S 1 p) (hs : S → p.state = 0) : PI k b D m I S 0 p := by
  refine ⟨h.base, h.st, h.ver, h.low, fun h2 => ?_⟩
  obtain ⟨J, j1, j2, j3, j4, j5⟩ := h.high h2
  exact ⟨J, j1, j2, by omega, fun s => by have := hs s; omega, j5⟩

/-- A player that has not begun. -/
theorem PI.start {e : Nat} (h : PI k b D m I S e p) (h0 : p.state = 0) {e' : Nat} : PI k b D m I S e' p :=
  ⟨h.base, h.st, h.ver, h.low, fun h2 => by omega⟩

theorem PI.fresh {e : Nat} : PI k b D m I S e {} :=
  ⟨⟨rfl, rfl, fun x hx => (by cases hx)⟩, Nat.zero_le _, fun _ h => absurd rfl h, fun _ => ⟨fun x hx => (by cases hx), fun _ x hx => (by cases hx)⟩, fun h => by
    have : 2 ≤ 0 := h
    omega⟩

theorem PI.drain {n : Nat} (h : PI k b D m I S 0 p) : PI k b D m I S 0 (drainPl p n) := by
  refine ⟨h.base.core rfl rfl rfl, h.st, h.ver, h.low, fun h2 => ?_⟩
  obtain ⟨J, j1, j2, j3, j4, j5⟩ := h.high h2
  exact ⟨J, j1, j2.core rfl rfl rfl, j3, j4, j5⟩

theorem fan_spec {S : Nat → Prop} : ∀ {is : List Nat} {b : Pub} {pl : Nat → Player}, is.Nodup → (∀ j, Ctx k b D m I (S j)) → (∀ j ∈ is, PI k b D m I (S j) 1 (pl j)) →
    ∃ b' pl', fan k is b pl = some (b', pl') ∧ SameB b b' ∧ (∀ j ∈ is, PI k b D m I (S j) 0 (pl' j) ∧ ∃ b1 b2, SameB b b1 ∧ gopSend k b1 (pl j) = some (b2, pl' j)) ∧
      (∀ j, j ∉ is → pl' j = pl j)
  | [], b, pl, _, _, _ => ⟨b, pl, rfl, SameB.refl _, fun j hj => (by cases hj), fun _ _ => rfl⟩
  | i :: is, b, pl, hnd, c, h => by
    obtain ⟨hni, hnd⟩ := List.nodup_cons.1 hnd
    obtain ⟨b1, p1, e1, s1, h1⟩ := gopSend_spec (c i) (h i List.mem_cons_self)
    obtain ⟨b2, pl2, e2, s2, h2, h3⟩ := fan_spec (is := is) (b := b1) (pl := set pl i p1) hnd (fun j => (c j).same s1) (fun j hj => by
      rw [set_pl_ne _ _ (fun e : j = i => hni (e ▸ hj))]
      exact (h j (List.mem_cons_of_mem _ hj)).same s1)
    refine ⟨b2, pl2, ?_, s1.trans s2, ?_, ?_⟩
    · unfold fan; rw [e1]; exact e2
    · intro j hj
      rcases List.mem_cons.1 hj with e | e
      · subst e; rw [h3 j hni, set_pl_same]; exact ⟨h1, b, b1, SameB.refl _, e1⟩
      · obtain ⟨h4, b3, b4, h5, h6⟩ := h2 j e
        rw [set_pl_ne _ _ (fun e' : j = i => hni (e' ▸ e))] at h6
        exact ⟨h4.same s1.symm, b3, b4, s1.trans h5, h6⟩
    · intro j hj
      rw [h3 j (fun e => hj (List.mem_cons_of_mem _ e)), set_pl_ne _ _ (fun e : j = i => hj (e ▸ List.mem_cons_self))]

/-- The invariant of the world. `S j`: player `j` is in the strict case. -/
structure WI (k : Conf) (I : Nat → Fr) (S : Nat → Prop) (seen : List Nat) (w : World) (hist : List Fr) : Prop where
  pub : ∃ D m, (∀ j, Ctx k w.b D m I (S j)) ∧ (∀ j, PI k w.b D m I (S j) 0 (w.pl j))
  hist : Hist w.b hist
  nodup : w.subs.Nodup
  fresh : ∀ j, j ∉ seen → w.pl j = {} ∧ j ∉ w.subs
  strict : ∀ j, S j → j ∈ w.subs ∨ (w.pl j).state = 0

/-- What strict players exclude. -/
def Allowed (S : Nat → Prop) : Op → Prop
  | .data _ => ∀ j, ¬ S j
  | .pause j => ¬ S j
  | .resume j => ¬ S j
  | _ => True

/-- The players seen after an operation. -/
def seenBy (seen : List Nat) : Op → List Nat
  | .join i => i :: seen
  | .resume i => i :: seen
  | _ => seen

/-- The frame of an operation. -/
def frOf : Op → List Fr
  | .pub fr _ => [fr]
  | _ => []

/-- The strict case is one of streams whose headers come first. -/
structure Strictly (k : Conf) (I : Nat → Fr) (S : Nat → Prop) (n : Nat) : Prop where
  hlow : ∀ j, S j → k.low = false
  hfirst : ∀ j, S j → ∀ x, x < n → (I x).header = true → ∀ y, y < x → (I y).header = true

theorem WI.step {S : Nat → Prop} {seen : List Nat} {w : World} {hist : List Fr} {o : Op} {n : Nat} (h : WI k I S seen w hist) (hq : 3 ≤ k.c.q) (hK : ∀ x, (I x).key = true → (I x).video = true)
    (hst : Strictly k I S n) (hfr : ∀ fr t, o = .pub fr t → I hist.length = fr ∧ okNext hist fr ∧ hist.length < n)
    (ht : ∀ fr t, o = .pub fr t → ∀ b, cachePub k w.b fr t = some b → b.st.acq w.b.st.n = 1) (ha : Allowed S o) (hj : ∀ i, o = .join i → i ∉ seen) :
    ∃ w', step k w o = some w' ∧ WI k I S (seenBy seen o) w' (hist ++ frOf o) ∧
      (∀ fr t, o = .pub fr t → ∀ j ∈ w.subs, ∃ D' m' b1 b2, Ctx k b1 D' m' I (S j) ∧ b1.st.n = w.b.st.n + 1 ∧ SameB b1 w'.b ∧ PI k b1 D' m' I (S j) 1 (w.pl j) ∧
        gopSend k b1 (w.pl j) = some (b2, w'.pl j)) := by
  obtain ⟨⟨D, m, c, hp⟩, hh, hnd, hfs, hstr⟩ := h
  cases o with
  | pub fr t =>
    obtain ⟨i1, i2, i3⟩ := hfr fr t rfl
    obtain ⟨s', e1, _⟩ := sim_step (ts := fun x => if Item.av x = Item.av w.b.st.n then t else w.b.ts (.av x)) (c 0).g.hsim ((c 0).g.legal hq hh i2)
    obtain ⟨b1, e2⟩ : ∃ b1, cachePub k w.b fr t = some b1 := by
      unfold cachePub
      dsimp only
      rw [e1]
      split
      · contradiction
      · exact ⟨_, rfl⟩
      · exact ⟨_, rfl⟩
    obtain ⟨D', m', g', hh', hD, hm, hmm, hn, hinfo, hv, _⟩ := good_step hq (c 0).g hh i2 e2 (ht fr t rfl b1 e2)
    have hI' : ∀ x, x < b1.st.n → b1.st.info x = I x := by
      intro x hx
      by_cases hx' : x < w.b.st.n
      · rw [hinfo x hx']; exact (c 0).hI x hx'
      · have hxl : x = hist.length := by have := hh.hn; omega
        subst hxl
        have := hh'.hi hist.length (by rw [List.length_append, List.length_singleton]; omega)
        rw [this, i1]
        simp
    have c' : ∀ j, Ctx k b1 D' m' I (S j) := fun j => ⟨g', hq, hI', hK, fun s => ⟨hst.hlow j s, fun x x1 x2 => by
      by_cases hx : (I x).header = true
      · obtain ⟨y, y1, y2⟩ := g'.hhdr x x1 x2 (by rw [hI' x x2]; exact hx)
        have := hst.hfirst j s x (by have := hh.hn; omega) hx y y1
        unfold isKey at y2
        rw [hI' y (by omega), this] at y2
        simp at y2
      · simpa using hx⟩⟩
    have hp1 : ∀ j, PI k b1 D' m' I (S j) 1 (w.pl j) := fun j => (hp j).pub (c j) (c' j) hD hmm hn hv
    obtain ⟨b2, pl2, e3, s3, f1, f2⟩ := fan_spec hnd c' (fun j _ => hp1 j)
    refine ⟨{ w with b := b2, pl := pl2 }, by unfold GopSend.step; dsimp only; rw [e2]; dsimp only; rw [e3], ⟨⟨D', m', fun j => (c' j).same s3, fun j => ?_⟩, ?_, hnd, ?_, ?_⟩, fun fr' t' _ j hj => ?_⟩
    · by_cases hj : j ∈ w.subs
      · exact (f1 j hj).1.same s3
      · show PI k b2 D' m' I (S j) 0 (pl2 j)
        rw [f2 j hj]
        exact ((hp1 j).skip (fun s => (hstr j s).resolve_left hj)).same s3
    · have : b2.st = b1.st := by rw [s3]
      exact ⟨by show b2.st.n = _; rw [this]; exact hh'.hn, by show ∀ x h, b2.st.info x = _; rw [this]; exact hh'.hi⟩
    · intro j hj
      obtain ⟨a1, a2⟩ := hfs j hj
      exact ⟨by show pl2 j = _; rw [f2 j a2]; exact a1, a2⟩
    · intro j s
      by_cases hj : j ∈ w.subs
      · exact .inl hj
      · right
        show (pl2 j).state = 0
        rw [f2 j hj]; exact (hstr j s).resolve_left hj
    · obtain ⟨_, b3, b4, s4, e4⟩ := f1 j hj
      exact ⟨D', m', b3, b4, (c' j).same s4, by rw [s4]; exact hn, s4.symm.trans s3, (hp1 j).same s4, e4⟩
  | data t =>
    have hns : ∀ j, ¬ S j := ha
    refine ⟨_, rfl, ⟨⟨D, m, fun j => ?_, fun j => ?_⟩, ?_, hnd, hfs, hstr⟩, fun _ _ e => by cases e⟩
    · have g := (c j).g
      exact ⟨⟨g.hsim, g.hpos, g.hlast, g.hm, g.hmD, g.hDn, g.hslots, g.hheads, g.hphase, g.hhdr, g.hkeyd, g.hlatA, g.hlatV⟩, hq, (c j).hI, (c j).hK, (c j).hS⟩
    · have q := hp j
      refine ⟨q.base, q.st, fun s => absurd s (hns j), q.low, fun h2 => ?_⟩
      obtain ⟨J, j1, j2, j3, j4, j5⟩ := q.high h2
      exact ⟨J, j1, ⟨j2.hmJ, j2.hsort, j2.hltJ, fun s => absurd s (hns j)⟩, j3, j4, j5⟩
    · show Hist _ (hist ++ [])
      rw [List.append_nil]; exact ⟨hh.hn, hh.hi⟩
  | join i =>
    have hi := hj i rfl
    obtain ⟨a1, a2⟩ := hfs i hi
    have hh0 : Hist w.b (hist ++ []) := by rw [List.append_nil]; exact hh
    have hnd' : (i :: w.subs).Nodup := List.nodup_cons.2 ⟨a2, hnd⟩
    unfold GopSend.step
    dsimp only
    rw [if_neg a2]
    by_cases h0 : w.b.st.n = 0
    · rw [if_pos h0]
      refine ⟨_, rfl, ⟨⟨D, m, c, hp⟩, hh0, hnd', fun j hj => ?_, fun j s => ?_⟩, fun _ _ e => by cases e⟩
      · have hj' : j ≠ i ∧ j ∉ seen := ⟨fun e => hj (e ▸ List.mem_cons_self), fun e => hj (List.mem_cons_of_mem _ e)⟩
        obtain ⟨b1, b2⟩ := hfs j hj'.2
        exact ⟨b1, fun e => by rcases List.mem_cons.1 e with e | e; exact hj'.1 e; exact b2 e⟩
      · rcases hstr j s with e | e
        · exact .inl (List.mem_cons_of_mem _ e)
        · exact .inr e
    · rw [if_neg h0]
      obtain ⟨b1, p1, e1, s1, h1⟩ := gopSend_spec (c i) (p := w.pl i) (by rw [a1]; exact PI.fresh)
      rw [e1]
      refine ⟨_, rfl, ⟨⟨D, m, fun j => (c j).same s1, fun j => ?_⟩, ?_, hnd', fun j hj => ?_, fun j s => ?_⟩, fun _ _ e => by cases e⟩
      · show PI k b1 D m I (S j) 0 (set w.pl i p1 j)
        by_cases e : j = i
        · subst e; rw [set_pl_same]; exact h1.same s1
        · rw [set_pl_ne _ _ e]; exact (hp j).same s1
      · have : b1.st = w.b.st := by rw [s1]
        exact ⟨by show b1.st.n = _; rw [this]; exact hh0.hn, by show ∀ x h, b1.st.info x = _; rw [this]; exact hh0.hi⟩
      · have hj' : j ≠ i ∧ j ∉ seen := ⟨fun e => hj (e ▸ List.mem_cons_self), fun e => hj (List.mem_cons_of_mem _ e)⟩
        obtain ⟨b1, b2⟩ := hfs j hj'.2
        exact ⟨by show set w.pl i p1 j = _; rw [set_pl_ne _ _ hj'.1]; exact b1, fun e => by rcases List.mem_cons.1 e with e | e; exact hj'.1 e; exact b2 e⟩
      · by_cases e : j = i
        · exact .inl (e ▸ List.mem_cons_self)
        · rcases hstr j s with e' | e'
          · exact .inl (List.mem_cons_of_mem _ e')
          · exact .inr (by show (set w.pl i p1 j).state = 0; rw [set_pl_ne _ _ e]; exact e')
  | pause i =>
    have hns : ¬ S i := ha
    refine ⟨_, rfl, ⟨⟨D, m, c, hp⟩, by show Hist _ (hist ++ []); rw [List.append_nil]; exact hh, hnd.sublist List.filter_sublist, fun j hj => ?_, fun j s => ?_⟩, fun _ _ e => by cases e⟩
    · obtain ⟨b1, b2⟩ := hfs j hj
      exact ⟨b1, fun e => b2 (List.mem_filter.1 e).1⟩
    · rcases hstr j s with e | e
      · refine .inl (List.mem_filter.2 ⟨e, ?_⟩)
        have : j ≠ i := fun e => hns (e ▸ s)
        simpa using this
      · exact .inr e
  | resume i =>
    have hns : ¬ S i := ha
    have hh0 : Hist w.b (hist ++ []) := by rw [List.append_nil]; exact hh
    unfold GopSend.step
    dsimp only
    split
    · exact ⟨_, rfl, ⟨⟨D, m, c, hp⟩, hh0, hnd, fun j hj => hfs j (fun e => hj (List.mem_cons_of_mem _ e)), hstr⟩, fun _ _ e => by cases e⟩
    · rename_i hni
      refine ⟨_, rfl, ⟨⟨D, m, c, hp⟩, hh0, List.nodup_cons.2 ⟨hni, hnd⟩, fun j hj => ?_, fun j s => ?_⟩, fun _ _ e => by cases e⟩
      · have hj' : j ≠ i ∧ j ∉ seen := ⟨fun e => hj (e ▸ List.mem_cons_self), fun e => hj (List.mem_cons_of_mem _ e)⟩
        obtain ⟨b1, b2⟩ := hfs j hj'.2
        exact ⟨b1, fun e => by rcases List.mem_cons.1 e with e | e; exact hj'.1 e; exact b2 e⟩
      · rcases hstr j s with e | e
        · exact .inl (List.mem_cons_of_mem _ e)
        · exact .inr e
  | drain i n =>
    refine ⟨_, rfl, ⟨⟨D, m, c, fun j => ?_⟩, by show Hist _ (hist ++ []); rw [List.append_nil]; exact hh, hnd, fun j hj => ?_, fun j s => ?_⟩, fun _ _ e => by cases e⟩
    · show PI _ _ _ _ _ _ _ (set w.pl i (drainPl (w.pl i) n) j)
      by_cases e : j = i
      · subst e; rw [set_pl_same]; exact (hp j).drain
      · rw [set_pl_ne _ _ e]; exact hp j
    · obtain ⟨b1, b2⟩ := hfs j hj
      refine ⟨?_, b2⟩
      show set w.pl i (drainPl (w.pl i) n) j = {}
      by_cases e : j = i
      · subst e; rw [set_pl_same, b1]; simp [drainPl]
      · rw [set_pl_ne _ _ e]; exact b1
    · rcases hstr j s with e | e
      · exact .inl e
      · right
        show (set w.pl i (drainPl (w.pl i) n) j).state = 0
        by_cases e' : j = i
        · subst e'; rw [set_pl_same]; exact e
        · rw [set_pl_ne _ _ e']; exact e

end Verif.GopSend
