import Verif.Hls2.GopWorld
/-
Closing the cache, and runs.
-/
namespace Verif.Hls2.Gop
open Verif Verif.Hls2 Verif.Hls2.Gop.Spec

/-- While the cache is given back: slots stay as they are. -/
structure Left (c : Conf) (b : Pub) : Prop where
  hGone : b.gone ≤ b.hist.length
  hRoom : b.hist.length < b.gone + c.q
  hLast : b.last = b.hist.length % c.q
  hPos : b.pos = b.gone % c.q
  hSlot : ∀ i f : Nat, b.gone ≤ i → b.hist[i]? = some f → b.cache (i % c.q) = some f
  hNodup : b.hist.Nodup
  hLt : ∀ f ∈ b.hist, f < b.frames.length
  hAcq : ∀ f, b.acq f = if f ∈ b.hist then 1 else 0
  hRel : ∀ f, b.rel f = if f ∈ b.hist.take b.gone then 1 else 0

theorem Good.left {c : Conf} {b : Pub} (h : Good c b) : Left c b := ⟨h.core.hGone, h.core.hRoom, h.core.hLast, h.hPos, h.core.hSlot, h.core.nodup, h.core.hLt, h.core.hAcq, h.core.hRel⟩

theorem freeAll_ok {c : Conf} : ∀ (k : Nat) (b : Pub), Left c b → b.hist.length - b.gone < k → ∃ b', freeAll c k b = some b' ∧ b'.frames = b.frames ∧ b'.acq = b.acq ∧ ∀ f, b'.rel f = b'.acq f := by
  intro k
  induction k with
  | zero => intro b _ hk; omega
  | succ k ih =>
    intro b h hk
    have hg := h.hGone
    have hr := h.hRoom
    unfold freeAll
    by_cases he : b.gone = b.hist.length
    · rw [if_pos (by rw [h.hPos, h.hLast, he])]
      refine ⟨b, rfl, rfl, rfl, ?_⟩
      intro f
      rw [h.hRel, h.hAcq, he, List.take_length]
    · rw [if_neg (by rw [h.hPos, h.hLast]; exact fun e => he (mod_inj e (by omega) (by omega)))]
      have hlt : b.gone < b.hist.length := by omega
      have hf : b.hist[b.gone]? = some b.hist[b.gone] := List.getElem?_eq_getElem hlt
      generalize b.hist[b.gone] = f at hf
      have hm := List.mem_of_getElem? hf
      rw [h.hPos, h.hSlot _ _ (Nat.le_refl _) hf]
      have ha : b.acq f = 1 := by rw [h.hAcq, if_pos hm]
      have hrf : b.rel f = 0 := by rw [h.hRel, if_neg (by rw [mem_take_iff h.hNodup hf]; omega)]
      have hget : b.get f = some (b.frames[f]'(h.hLt f hm)) := by
        unfold Pub.get
        rw [ha, hrf, if_pos (by omega), List.getElem?_eq_getElem (h.hLt f hm)]
      dsimp only
      rw [hget, Option.bind_some]
      have hrel : ∀ g, set b.rel f (b.rel f + 1) g = if g ∈ b.hist.take (b.gone + 1) then 1 else 0 := by
        intro g
        unfold set
        split
        · rename_i e
          rw [e, hrf, if_pos (by rw [mem_take_iff h.hNodup hf]; omega)]
        · rename_i hne
          rw [h.hRel]
          have : g ∈ b.hist.take (b.gone + 1) ↔ g ∈ b.hist.take b.gone := by
            rw [List.take_add_one, hf]
            simp [hne]
          simp only [this]
      exact ih { b with rel := set b.rel f (b.rel f + 1), gone := b.gone + 1, pos := nxt c (b.gone % c.q) }
        ⟨hlt, by show b.hist.length < b.gone + 1 + c.q; omega, h.hLast, nxt_mod c b.gone, fun i g hi hg' => h.hSlot i g (by have : b.gone + 1 ≤ i := hi; omega) hg', h.hNodup, h.hLt, h.hAcq, hrel⟩
        (by show b.hist.length - (b.gone + 1) < k; omega)

theorem close_ok {c : Conf} {b : Pub} (h : Good c b) : ∃ b', Gop.close c b = some b' ∧ b'.frames = b.frames ∧ b'.acq = b.acq ∧ ∀ f, b'.rel f = b'.acq f := by
  unfold Gop.close
  split
  · have := h.core.hRoom
    exact freeAll_ok _ _ h.left (by omega)
  · rename_i hm
    have hne : b.hist = [] := by
      by_cases hne : b.hist = []
      · exact hne
      · exact absurd (h.hMade hne).1 hm
    refine ⟨b, rfl, rfl, rfl, ?_⟩
    intro f
    rw [h.core.hRel, h.core.hAcq, hne]
    simp

theorem good_new {c : Conf} (hq : 0 < c.q) (fs : List Frame) : Good c { frames := fs } := by
  refine ⟨{ hq := hq, hGone := Nat.le_refl _, hRoom := ?_, hLast := ?_, hSlot := ?_, hNull := ?_, hSorted := List.Pairwise.nil, hLt := ?_, hFpos := ?_, hAcq := ?_, hRel := ?_, hNext := ?_ }, ?_, rfl, ?_, fun h => absurd rfl h, ?_⟩
  · show 0 < 0 + c.q
    omega
  · exact (Nat.zero_mod _).symm
  · intro i f _ h
    cases h
  · intro j f h
    cases h
  · intro f h
    cases h
  · intro i f _ h
    cases h
  · intro f
    simp
  · intro f
    simp
  · intro f _
    rfl
  · exact (Nat.zero_mod _).symm
  · intro i f x _ h
    cases h
  · intro f x h
    cases h

theorem pinv_join {c : Conf} {b : Pub} (o : Option St) (ho : o = none ∨ o = some (Hls2.init c.h)) : PInv c b { hls := o, since := b.skip } := by
  refine ⟨⟨by simp, by simp, Nat.le_refl _, ?_⟩, fun _ => ⟨Or.inl ⟨rfl, rfl⟩, ?_⟩, fun _ => ⟨Or.inl ⟨rfl, rfl⟩, ?_⟩⟩
  · intro s hs
    have hs : o = some s := hs
    rcases ho with e | e
    · rw [e] at hs
      cases hs
    · rw [e] at hs
      injection hs with hs
      subst hs
      exact ⟨[], rfl, run_init c.h, rfl, by simp⟩
  · intro _ _ t a b h
    cases h
  · intro _ _ t a b h
    cases h

theorem step_ok {c : Conf} {w : World} (hc : Plain c.h) (ht : c.cacheTime ≠ 0) (h : WInv c w) (o : Op) (ho : o.Ok) : ∃ w', step c w o = some w' ∧ WInv c w' := by
  cases o with
  | av k x =>
    obtain ⟨w', e, hw, _⟩ := av_ok hc ht h k x ho
    exact ⟨w', e, hw⟩
  | join i hls =>
    refine ⟨_, rfl, ?_⟩
    split
    · exact h
    · rename_i hi
      refine ⟨h.hGood, List.nodup_cons.2 ⟨hi, h.hSubs⟩, ?_, h.hPts⟩
      intro j hj
      by_cases e : j = i
      · subst e
        show PInv c w.b (set w.pl j _ j)
        rw [set_same]
        refine pinv_join _ ?_
        cases hls
        · exact Or.inl rfl
        · exact Or.inr rfl
      · show PInv c w.b (set w.pl i _ j)
        rw [set_ne _ _ e]
        rcases List.mem_cons.1 hj with hj | hj
        · exact absurd hj e
        · exact h.hPl j hj
  | leave i =>
    refine ⟨_, rfl, ⟨h.hGood, h.hSubs.filter _, ?_, h.hPts⟩⟩
    intro j hj
    obtain ⟨h1, h2⟩ := List.mem_filter.1 hj
    have h2 : j ≠ i := by simpa using h2
    show PInv c w.b (set w.pl i _ j)
    rw [set_ne _ _ h2]
    exact h.hPl j h1
  | drain i n =>
    refine ⟨_, rfl, ?_⟩
    split
    · rename_i hh
      refine ⟨h.hGood, h.hSubs, ?_, h.hPts⟩
      intro j hj
      show PInv c w.b (set w.pl i _ j)
      by_cases e : j = i
      · subst e
        rw [set_same]
        have hp := h.hPl j hj
        refine ⟨⟨fun f hf => hp.hBase.hQueue f (List.mem_of_mem_drop hf), hp.hBase.hLog, hp.hBase.hSince, ?_⟩, fun hn => absurd hh hn, ?_⟩
        · intro s hs
          have hs : (w.pl j).hls = some s := hs
          rw [hh] at hs
          cases hs
        · intro _
          obtain ⟨d1, d2⟩ := hp.hTs hh
          refine ⟨?_, d2⟩
          rcases d1 with d1 | d1 | ⟨d1, d0, i, d3, d4⟩
          · exact Or.inl d1
          · exact Or.inr (Or.inl d1)
          · exact Or.inr (Or.inr ⟨d1, d0, i, ⟨d3.hPos, d3.hi, d3.hReach⟩, d4⟩)
      · rw [set_ne _ _ e]
        exact h.hPl j hj
    · exact h
  | close => exact absurd ho (by simp [Op.Ok])
  | publish =>
    obtain ⟨b', e, _⟩ := close_ok h.hGood
    refine ⟨{ w with b := { frames := w.b.frames }, pl := fun i => { w.pl i with log := [], full := 0, since := 0, old := (w.pl i).got.flatMap (·.2) } }, by unfold step; dsimp only; rw [e]; rfl, ⟨good_new h.hGood.core.hq _, h.hSubs, ?_, h.hPts⟩⟩
    intro i hi
    have hp := h.hPl i hi
    refine ⟨⟨hp.hBase.hQueue, by simp, Nat.le_refl _, ?_⟩, fun _ => ⟨Or.inr (Or.inl ⟨rfl, Nat.zero_le _⟩), ?_⟩, fun _ => ⟨Or.inr (Or.inl ⟨rfl, rfl⟩), ?_⟩⟩
    · intro s hs
      obtain ⟨items, h1, h2, h3, h4⟩ := hp.hBase.hHls s hs
      exact ⟨items, h1, h2, by simp [vals], h4⟩
    · intro _ _ t a b h
      cases h
    · intro _ _ t a b h
      cases h

theorem run_ok {c : Conf} (hc : Plain c.h) (ht : c.cacheTime ≠ 0) : ∀ (ops : List Op) (w : World), WInv c w → (∀ o ∈ ops, o.Ok) → ∃ w', run c w ops = some w' ∧ WInv c w' := by
  intro ops
  induction ops with
  | nil => intro w h _; exact ⟨w, rfl, h⟩
  | cons o ops ih =>
    intro w h ho
    obtain ⟨w1, e1, h1⟩ := step_ok hc ht h o (ho o (by simp))
    obtain ⟨w2, e2, h2⟩ := ih w1 h1 (fun o hm => ho o (by simp [hm]))
    exact ⟨w2, by rw [run, e1]; exact e2, h2⟩

theorem winv_new {c : Conf} (hq : 0 < c.q) : WInv c {} := ⟨good_new hq [], List.nodup_nil, (fun i hi => nomatch hi), (fun x hx => nomatch hx)⟩

end Verif.Hls2.Gop
