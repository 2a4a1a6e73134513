import Verif.Hls2.GopCache
/-
One frame into the GOP cache.
-/
namespace Verif.Hls2.Gop
open Verif Verif.Hls2 Verif.Hls2.Gop.Spec

theorem isKey_congr {b b' : Pub} (h : b'.frames = b.frames) : isKey b' = isKey b := by
  funext f
  unfold isKey
  rw [h]

theorem lastKey_ok {b : Pub} {f : Nat} (hnf : b.next f = none) : ∀ (l : List Nat) (k n : Nat), Linked b.next (some k) (k :: l) → (k :: l).Nodup → f ∉ k :: l → (∀ g ∈ k :: l, ∃ x, b.get g = some x) → l.length < n →
    ∃ t ∈ k :: l, lastKey b n k = some t ∧ Linked (set b.next t (some f)) (some k) (k :: l ++ [f]) := by
  intro l
  induction l with
  | nil =>
    intro k n hl hd hf hg hn
    obtain ⟨m, rfl⟩ : ∃ m, n = m + 1 := ⟨n - 1, by simp at hn; omega⟩
    obtain ⟨x, hx⟩ := hg k (by simp)
    have hk : b.next k = none := hl.2
    refine ⟨k, by simp, ?_, rfl, ?_⟩
    · unfold lastKey
      rw [hx, Option.bind_some, hk]
    · rw [set_same]
      refine ⟨rfl, ?_⟩
      rw [set_ne _ _ (by intro e; simp [e] at hf)]
      exact hnf
  | cons k2 l ih =>
    intro k n hl hd hf hg hn
    obtain ⟨m, rfl⟩ : ∃ m, n = m + 1 := ⟨n - 1, by simp at hn; omega⟩
    obtain ⟨x, hx⟩ := hg k (by simp)
    have hk : b.next k = some k2 := hl.2.1
    have hl2 : Linked b.next (some k2) (k2 :: l) := ⟨rfl, hl.2.2⟩
    have hd2 := (List.nodup_cons.1 hd)
    obtain ⟨t, ht, e1, e2⟩ := ih k2 m hl2 hd2.2 (fun hm => hf (List.mem_cons_of_mem _ hm)) (fun g hm => hg g (List.mem_cons_of_mem _ hm)) (by simp only [List.length_cons] at hn; omega)
    refine ⟨t, List.mem_cons_of_mem _ ht, ?_, rfl, ?_⟩
    · unfold lastKey
      rw [hx, Option.bind_some, hk]
      exact e1
    · rw [set_ne _ _ (fun e : k = t => hd2.1 (e ▸ ht)), hk]
      exact e2

theorem mem_window {c : Conf} {b : Pub} (_ : Core c b) {f : Nat} (hf : f ∈ b.window) : ∃ i, b.gone ≤ i ∧ b.hist[i]? = some f := by
  obtain ⟨i, hi⟩ := List.mem_iff_getElem?.1 hf
  unfold Pub.window at hi
  rw [List.getElem?_drop] at hi
  exact ⟨b.gone + i, by omega, hi⟩

theorem window_mem {b : Pub} {i f : Nat} (hi : b.gone ≤ i) (hf : b.hist[i]? = some f) : f ∈ b.window := by
  refine List.mem_iff_getElem?.2 ⟨i - b.gone, ?_⟩
  unfold Pub.window
  rw [List.getElem?_drop, show b.gone + (i - b.gone) = i by omega]
  exact hf

theorem window_nodup {c : Conf} {b : Pub} (h : Core c b) : b.window.Nodup := h.nodup.sublist (List.drop_sublist _ _)

/-- The list of key frames with one more -/
theorem addKey_ok {c : Conf} {b : Pub} (h : Good c b) {f : Nat} (hf : f ∉ b.hist) :
    ∃ n' k', addKey b f = some { b with next := n', keyframe := k' } ∧ Linked n' k' (b.window.filter (isKey b) ++ [f]) ∧ (∀ g, g ∉ b.hist → n' g = none) := by
  have hnf := h.core.hNext f hf
  have hk := h.hKeys
  unfold addKey
  cases hl : b.window.filter (isKey b) with
  | nil =>
    rw [hl] at hk
    have hk : b.keyframe = none := hk
    rw [hk]
    exact ⟨b.next, some f, rfl, ⟨rfl, hnf⟩, h.core.hNext⟩
  | cons k l =>
    rw [hl] at hk
    have hk0 : b.keyframe = some k := hk.1
    rw [hk0]
    have hsub : ∀ g ∈ k :: l, g ∈ b.window := fun g hg => (List.mem_filter.1 (hl ▸ hg)).1
    have hd : (k :: l).Nodup := by rw [← hl]; exact (window_nodup h.core).filter _
    have hw : ∀ g ∈ b.window, g ∈ b.hist := fun g hg => List.mem_of_mem_drop hg
    have hlen : l.length < b.frames.length + 1 := by
      have : (k :: l).length ≤ b.frames.length := by
        have := hd.length_le_of_subset (l₂ := List.range b.frames.length) (fun g hg => List.mem_range.2 (h.core.hLt g (hw g (hsub g hg))))
        rwa [List.length_range] at this
      rw [List.length_cons] at this
      omega
    obtain ⟨t, ht, e1, e2⟩ := lastKey_ok hnf l k (b.frames.length + 1) ⟨rfl, hk.2⟩ hd (fun hm => hf (hw _ (hsub _ hm))) (fun g hg => by
      obtain ⟨i, hi, hi2⟩ := mem_window h.core (hsub g hg)
      obtain ⟨x, hx, _⟩ := h.core.get hi hi2
      exact ⟨x, hx⟩) hlen
    refine ⟨set b.next t (some f), some k, ?_, ?_, ?_⟩
    · show (lastKey b (b.frames.length + 1) k).map _ = _
      rw [e1]
      rw [← hk0]
      rfl
    · exact e2
    · intro g hg
      rw [set_ne _ _ (fun e : g = t => hg (e ▸ hw _ (hsub _ ht)))]
      exact h.core.hNext g hg

/-- Into the ring -/
theorem core_push {c : Conf} {b : Pub} (h : Core c b) {f : Nat} {x : Frame} (hroom : b.hist.length + 1 < b.gone + c.q) (hlt : f < b.frames.length) (hall : ∀ g ∈ b.hist, g < f) : Core c (push c b f x) := by
  have hnot : f ∉ b.hist := fun hm => Nat.lt_irrefl _ (hall f hm)
  have hr := h.hRoom
  have hg := h.hGone
  have happ : ∀ i g : Nat, (b.hist ++ [f])[i]? = some g → b.hist[i]? = some g ∨ (i = b.hist.length ∧ g = f) := by
    intro i g hi
    rw [List.getElem?_append] at hi
    split at hi
    · exact Or.inl hi
    · rename_i hge
      cases hj : i - b.hist.length with
      | zero =>
        rw [hj] at hi
        exact Or.inr ⟨by omega, (Option.some.inj hi).symm⟩
      | succ n =>
        rw [hj] at hi
        simp at hi
  refine { hq := h.hq, hGone := ?_, hRoom := ?_, hLast := ?_, hSlot := ?_, hNull := ?_, hSorted := ?_, hLt := ?_, hFpos := ?_, hAcq := ?_, hRel := ?_, hNext := ?_ }
  · show b.gone ≤ (b.hist ++ [f]).length
    rw [List.length_append]
    omega
  · show (b.hist ++ [f]).length < b.gone + c.q
    rw [List.length_append, List.length_singleton]
    omega
  · show nxt c b.last = (b.hist ++ [f]).length % c.q
    unfold nxt
    rw [h.hLast, List.length_append, List.length_singleton, Nat.mod_add_mod]
  · intro i g hi hgi
    have hi : b.gone ≤ i := hi
    show set b.cache b.last (some f) (i % c.q) = some g
    rcases happ i g hgi with hgi | ⟨e1, e2⟩
    · have hl := lt_len hgi
      rw [h.hLast, set_ne _ _ (fun e => by have := mod_inj e (by omega) (by omega); omega)]
      exact h.hSlot i g hi hgi
    · rw [e1, e2, h.hLast, set_same]
  · intro j g hj
    have hj : set b.cache b.last (some f) j = some g := hj
    unfold set at hj
    split at hj
    · rename_i e
      refine ⟨b.hist.length, hg, ?_, ?_⟩
      · rw [e, h.hLast]
      · rw [← Option.some.inj hj]
        show (b.hist ++ [f])[b.hist.length]? = some f
        simp
    · obtain ⟨i, h1, h2, h3⟩ := h.hNull j g hj
      refine ⟨i, h1, h2, ?_⟩
      show (b.hist ++ [f])[i]? = some g
      rw [List.getElem?_append_left (lt_len h3)]
      exact h3
  · show (b.hist ++ [f]).Pairwise (· < ·)
    rw [List.pairwise_append]
    exact ⟨h.hSorted, by simp, fun a ha y hy => by rw [List.mem_singleton.1 hy]; exact hall a ha⟩
  · intro g hgm
    have hgm : g ∈ b.hist ++ [f] := hgm
    show g < b.frames.length
    rcases List.mem_append.1 hgm with hm | hm
    · exact h.hLt g hm
    · rw [List.mem_singleton.1 hm]; exact hlt
  · intro i g hi hgi
    have hi : b.gone ≤ i := hi
    show set b.fpos f b.last g = i % c.q
    rcases happ i g hgi with hgi | ⟨e1, e2⟩
    · rw [set_ne _ _ (fun e : g = f => hnot (e ▸ List.mem_of_getElem? hgi))]
      exact h.hFpos i g hi hgi
    · rw [e1, e2, set_same, h.hLast]
  · intro g
    show set b.acq f (b.acq f + 1) g = if g ∈ b.hist ++ [f] then 1 else 0
    unfold set
    split
    · rename_i e
      rw [e, h.hAcq, if_neg hnot, if_pos (by simp)]
    · rename_i hne
      rw [h.hAcq]
      simp [hne]
  · intro g
    show b.rel g = if g ∈ (b.hist ++ [f]).take b.gone then 1 else 0
    rw [List.take_append_of_le_length hg]
    exact h.hRel g
  · intro g hgm
    have hgm : g ∉ b.hist ++ [f] := hgm
    exact h.hNext g (fun hm => hgm (by simp [hm]))

/-- What a frame does to the cache -/
structure Step (c : Conf) (b b' : Pub) (f : Nat) (x : Frame) : Prop where
  hGood : Good c b'
  hFrames : b'.frames = b.frames
  hMade : b'.made = true
  hHist : (b'.hist = b.hist ∧ b'.gone = b.gone ∧ b'.skip = b.skip + 1) ∨ (b'.hist = b.hist ++ [f] ∧ b.gone ≤ b'.gone ∧ b'.skip = b.skip)
  /-- why frames leave the cache -/
  hDrop : b'.gone = b.gone ∨ b.hist.length + 3 ≥ b.gone + c.q ∨
    (b'.gone = b.gone + 1 ∧ ∃ g y, b'.hist[b.gone]? = some g ∧ b'.frames[g]? = some y ∧ diff x.pts y.pts > c.keep) ∨
    (x.video = true ∧ ∃ g y, b'.hist[b'.gone]? = some g ∧ b'.frames[g]? = some y ∧ y.key = true ∧ diff x.pts y.pts ≥ c.keep)
  /-- frames that are refused -/
  hSkip : b'.skip ≠ b.skip → b.hist.length + 1 ≥ b.gone + c.q ∨ (Inter x ∧ ∀ f ∈ b.window, isKey b f = false)
  hRoom : b'.skip = b.skip → b.hist.length + 1 < b.gone + c.q

theorem filter_two {p : Nat → Bool} {l rest : List Nat} {k k2 : Nat} (h : l.filter p = k :: k2 :: rest) : ∃ l1 l2, l = l1 ++ k2 :: l2 ∧ l2.filter p = rest ∧ l1 ≠ [] ∧ p k2 = true := by
  obtain ⟨a, l', e1, _, _, e2⟩ := List.filter_eq_cons_iff.1 h
  obtain ⟨a', l2, e3, _, hp, e4⟩ := List.filter_eq_cons_iff.1 e2
  exact ⟨a ++ k :: a', l2, by rw [e1, e3]; simp, e4, by simp, hp⟩

theorem linked_keyframe {next : Nat → Option Nat} {h : Option Nat} {l : List Nat} (hl : Linked next h l) : h = l.head? := by
  cases l with
  | nil => exact hl
  | cons a l => exact hl.1

/-- `ngx_mpegts_gop_reset_gop` after a frame was put into the ring -/
theorem resetGop_ok {c : Conf} {b : Pub} (h : Good c b) {f : Nat} {x : Frame} (hlast : b.hist.getLast? = some f) (hx : b.frames[f]? = some x) :
    ∃ b', resetGop c x b = some b' ∧ Good c b' ∧ b'.hist = b.hist ∧ b'.frames = b.frames ∧ b'.made = b.made ∧ b'.skip = b.skip ∧ b.gone ≤ b'.gone ∧
      (b'.gone = b.gone ∨ b.hist.length + 2 ≥ b.gone + c.q ∨
        (b'.gone = b.gone + 1 ∧ ∃ g y, b.hist[b.gone]? = some g ∧ b.frames[g]? = some y ∧ diff x.pts y.pts > c.keep) ∨
        (x.video = true ∧ ∃ g y, b.hist[b'.gone]? = some g ∧ b.frames[g]? = some y ∧ y.key = true ∧ diff x.pts y.pts ≥ c.keep)) := by
  have hne : b.hist ≠ [] := by intro e; rw [e] at hlast; cases hlast
  have hlt := (h.hMade hne).2
  obtain ⟨g, hg⟩ : ∃ g, b.hist[b.gone]? = some g := ⟨b.hist[b.gone], List.getElem?_eq_getElem hlt⟩
  have hs := h.core.hSlot _ _ (Nat.le_refl _) hg
  obtain ⟨y, hy, hy'⟩ := h.core.get (Nat.le_refl _) hg
  have hk := h.hKeys
  have hkf := linked_keyframe hk
  unfold resetGop
  rw [h.hPos, hs]
  dsimp only
  have stay : ∃ b', some b = some b' ∧ Good c b' ∧ b'.hist = b.hist ∧ b'.frames = b.frames ∧ b'.made = b.made ∧ b'.skip = b.skip ∧ b.gone ≤ b'.gone ∧
      (b'.gone = b.gone ∨ b.hist.length + 2 ≥ b.gone + c.q ∨
        (b'.gone = b.gone + 1 ∧ ∃ g y, b.hist[b.gone]? = some g ∧ b.frames[g]? = some y ∧ diff x.pts y.pts > c.keep) ∨
        (x.video = true ∧ ∃ g y, b.hist[b'.gone]? = some g ∧ b.frames[g]? = some y ∧ y.key = true ∧ diff x.pts y.pts ≥ c.keep)) :=
    ⟨b, rfl, h, rfl, rfl, rfl, rfl, Nat.le_refl _, Or.inl rfl⟩
  cases hl : b.window.filter (isKey b) with
  | nil =>
    rw [hl] at hkf
    have hkf : b.keyframe = none := hkf
    rw [hkf, hy]
    dsimp only [Option.map_some]
    unfold audioTrim
    by_cases hd : diff x.pts y.pts > c.keep
    · rw [if_pos hd]
      have hgf : b.gone + 1 < b.hist.length := by
        rcases Nat.lt_or_ge (b.gone + 1) b.hist.length with h1 | h1
        · exact h1
        · exfalso
          have e : b.hist.length - 1 = b.gone := by omega
          rw [List.getLast?_eq_getElem?, e, hg] at hlast
          have := Option.some.inj hlast
          subst this
          rw [hy'] at hx
          have := Option.some.inj hx
          subst this
          have h0 : diff y.pts y.pts = 0 := by
            unfold diff
            have : y.pts + 2 ^ 64 - y.pts = 2 ^ 64 := by omega
            rw [this]
          omega
      have hc := h.core.drop hg
      have hpos : nxt c b.pos = (b.gone + 1) % c.q := by
        unfold nxt
        rw [h.hPos, Nat.mod_add_mod]
      have hw : b.window = g :: b.hist.drop (b.gone + 1) := by
        unfold Pub.window
        rw [List.drop_eq_getElem_cons hlt]
        congr 1
        rw [List.getElem?_eq_getElem hlt] at hg
        exact Option.some.inj hg
      refine ⟨_, rfl, ⟨?_, ?_, ?_, ?_, ?_, ?_⟩, rfl, rfl, rfl, rfl, ?_, Or.inr (Or.inr (Or.inl ⟨rfl, g, y, hg, hy', hd⟩))⟩
      · rw [h.hPos]
        exact { hq := hc.hq, hGone := hc.hGone, hRoom := hc.hRoom, hLast := hc.hLast, hSlot := hc.hSlot, hNull := hc.hNull, hSorted := hc.hSorted, hLt := hc.hLt, hFpos := hc.hFpos, hAcq := hc.hAcq, hRel := hc.hRel, hNext := hc.hNext }
      · exact hpos
      · show Linked b.next b.keyframe ((b.hist.drop (b.gone + 1)).filter (isKey b))
        rw [hw, List.filter_cons] at hl
        split at hl
        · cases hl
        · rw [hl, hkf]
          rfl
      · intro i f' x' hi hf' hx' hin
        have hi : b.gone + 1 ≤ i := hi
        obtain ⟨j, g', h1, h2, h3, h4⟩ := h.hVideo i f' x' (by omega) hf' hx' hin
        have : g' ∈ b.window.filter (isKey b) := List.mem_filter.2 ⟨window_mem h1 h3, h4⟩
        rw [hl] at this
        cases this
      · intro _
        exact ⟨(h.hMade hne).1, hgf⟩
      · exact h.hCur
      · show b.gone ≤ b.gone + 1
        omega
    · rw [if_neg hd]
      exact stay
  | cons k l =>
    rw [hl] at hkf hk
    have hkf : b.keyframe = some k := hkf
    rw [hkf]
    dsimp only
    have hkw : k ∈ b.window := (List.mem_filter.1 (by rw [hl]; simp : k ∈ b.window.filter (isKey b))).1
    obtain ⟨ik, hik, hik2⟩ := mem_window h.core hkw
    obtain ⟨xk, hxk, _⟩ := h.core.get hik hik2
    rw [hxk, Option.bind_some]
    have hnx := linked_keyframe hk.2
    cases l with
    | nil =>
      have hnx : b.next k = none := hnx
      rw [hnx]
      exact stay
    | cons k2 rest =>
      have hnx : b.next k = some k2 := hnx
      rw [hnx]
      dsimp only
      obtain ⟨l1, l2, e1, e2, e3, e4⟩ := filter_two hl
      have hi2 : b.hist[b.gone + l1.length]? = some k2 := by
        have : b.window[l1.length]? = some k2 := by rw [e1]; simp
        unfold Pub.window at this
        rwa [List.getElem?_drop] at this
      obtain ⟨x2, hx2, hx2'⟩ := h.core.get (by omega : b.gone ≤ b.gone + l1.length) hi2
      have hl2 := lt_len hi2
      have hroom := h.core.hRoom
      obtain ⟨b', t1, t2, t3, t4, t5, t6⟩ := trim_ok (c := c) (c.q + 1) b h.core hi2 (by omega) (by omega)
      have hgood : Good c b' := by
        refine ⟨t2, by rw [t5, t4], ?_, ?_, ?_, ?_⟩
        · have hw : b'.window = k2 :: l2 := by
            unfold Pub.window
            rw [t3.hHist, t4, ← List.drop_drop]
            have : b.hist.drop b.gone = l1 ++ k2 :: l2 := e1
            rw [this]
            simp
          rw [isKey_congr t3.hFrames, t3.hNext, t6, hw, List.filter_cons, if_pos e4, e2]
          exact ⟨rfl, hk.2.2⟩
        · intro i f' x' hi hf' hx' hin
          rw [t4] at hi
          rw [t3.hHist] at hf'
          rw [t3.hFrames] at hx'
          have hni : i ≠ b.gone + l1.length := by
            intro e
            rw [e, hi2] at hf'
            have := Option.some.inj hf'
            subst this
            unfold isKey at e4
            rw [hx'] at e4
            have e4 : x'.key = true := e4
            rw [hin.2] at e4
            cases e4
          refine ⟨b.gone + l1.length, k2, by rw [t4]; exact Nat.le_refl _, by omega, by rw [t3.hHist]; exact hi2, by rw [isKey_congr t3.hFrames]; exact e4⟩
        · intro _
          rw [t3.hMade, t3.hHist, t4]
          exact ⟨(h.hMade hne).1, hl2⟩
        · rw [t3.hHist, t3.hFrames, t3.hCur]
          exact h.hCur
      have hcount := Good.count h.core h.hPos
      rw [h.hPos] at hcount
      rw [hcount]
      by_cases hfull : b.hist.length - b.gone + 2 ≥ c.q
      · rw [if_pos hfull]
        exact ⟨b', t1, hgood, t3.hHist, t3.hFrames, t3.hMade, t3.hSkip, by omega, Or.inr (Or.inl (by omega))⟩
      · rw [if_neg hfull]
        by_cases hv : x.video = false
        · rw [if_pos hv]
          exact stay
        · rw [if_neg hv, hx2, Option.bind_some]
          by_cases hd : diff x.pts x2.pts < c.keep
          · rw [if_pos hd]
            exact stay
          · rw [if_neg hd]
            refine ⟨b', t1, hgood, t3.hHist, t3.hFrames, t3.hMade, t3.hSkip, by omega, Or.inr (Or.inr (Or.inr ⟨by simpa using hv, k2, x2, by rw [t4]; exact hi2, hx2', ?_, by omega⟩))⟩
            unfold isKey at e4
            rw [hx2'] at e4
            exact e4

/-- `ngx_mpegts_gop_cache` -/
theorem cacheFrame_ok {c : Conf} {b : Pub} (h : Good c b) (hc : c.cacheTime ≠ 0) {f : Nat} {x : Frame} (hx : b.frames[f]? = some x) (hall : ∀ g ∈ b.hist, g < f) :
    ∃ b', cacheFrame c b f x = some b' ∧ Step c b b' f x := by
  have hnot : f ∉ b.hist := fun hm => Nat.lt_irrefl _ (hall f hm)
  have hmade : Good c { b with made := true } := ⟨{ hq := h.core.hq, hGone := h.core.hGone, hRoom := h.core.hRoom, hLast := h.core.hLast, hSlot := h.core.hSlot, hNull := h.core.hNull, hSorted := h.core.hSorted, hLt := h.core.hLt, hFpos := h.core.hFpos, hAcq := h.core.hAcq, hRel := h.core.hRel, hNext := h.core.hNext }, h.hPos, h.hKeys, h.hVideo, fun hne => ⟨rfl, (h.hMade hne).2⟩, h.hCur⟩
  unfold cacheFrame
  rw [if_neg hc]
  dsimp only
  rw [Good.count h.core h.hPos]
  by_cases hfull : b.hist.length - b.gone + 1 ≥ c.q
  · rw [if_pos hfull]
    refine ⟨_, rfl, ⟨?_, rfl, rfl, Or.inl ⟨rfl, rfl, rfl⟩, Or.inl rfl, fun _ => Or.inl ?_, fun e => absurd e (Nat.succ_ne_self _)⟩⟩
    · exact ⟨{ hq := h.core.hq, hGone := h.core.hGone, hRoom := h.core.hRoom, hLast := h.core.hLast, hSlot := h.core.hSlot, hNull := h.core.hNull, hSorted := h.core.hSorted, hLt := h.core.hLt, hFpos := h.core.hFpos, hAcq := h.core.hAcq, hRel := h.core.hRel, hNext := h.core.hNext }, h.hPos, h.hKeys, h.hVideo, fun hne => ⟨rfl, (h.hMade hne).2⟩, h.hCur⟩
    · have := h.core.hGone
      omega
  · rw [if_neg hfull]
    have hg0 := h.core.hGone
    by_cases hfirst : b.keyframe = none ∧ x.video = true ∧ x.key = false
    · rw [if_pos hfirst]
      refine ⟨_, rfl, ⟨?_, rfl, rfl, Or.inl ⟨rfl, rfl, rfl⟩, Or.inl rfl, fun _ => Or.inr ⟨hfirst.2, ?_⟩, fun e => absurd e (Nat.succ_ne_self _)⟩⟩
      · exact ⟨{ hq := h.core.hq, hGone := h.core.hGone, hRoom := h.core.hRoom, hLast := h.core.hLast, hSlot := h.core.hSlot, hNull := h.core.hNull, hSorted := h.core.hSorted, hLt := h.core.hLt, hFpos := h.core.hFpos, hAcq := h.core.hAcq, hRel := h.core.hRel, hNext := h.core.hNext }, h.hPos, h.hKeys, h.hVideo, fun hne => ⟨rfl, (h.hMade hne).2⟩, h.hCur⟩
      · intro g hg
        have hk := linked_keyframe h.hKeys
        rw [hfirst.1] at hk
        cases hkg : isKey b g with
        | false => rfl
        | true =>
          have : g ∈ b.window.filter (isKey b) := List.mem_filter.2 ⟨hg, hkg⟩
          cases hl : b.window.filter (isKey b) with
          | nil => rw [hl] at this; cases this
          | cons a l => rw [hl] at hk; cases hk
    · rw [if_neg hfirst]
      have hkx : isKey b f = x.key := by unfold isKey; rw [hx]
      -- the list of key frames
      have hkeys : ∃ n' k', (if x.key then addKey { b with made := true } f else some { b with made := true }) = some { b with made := true, next := n', keyframe := k' } ∧
          Linked n' k' ((b.window ++ [f]).filter (isKey b)) ∧ (∀ g, g ∉ b.hist → n' g = none) := by
        rw [List.filter_append]
        by_cases hk : x.key = true
        · obtain ⟨n', k', e1, e2, e3⟩ := addKey_ok hmade (f := f) hnot
          refine ⟨n', k', by rw [if_pos hk, e1], ?_, e3⟩
          have : [f].filter (isKey b) = [f] := by rw [List.filter_cons, hkx, if_pos hk]; rfl
          rw [this]
          exact e2
        · refine ⟨b.next, b.keyframe, by rw [if_neg hk], ?_, h.core.hNext⟩
          have : [f].filter (isKey b) = [] := by rw [List.filter_cons, hkx, if_neg hk]; rfl
          rw [this, List.append_nil]
          exact h.hKeys
      obtain ⟨n', k', e1, e2, e3⟩ := hkeys
      rw [e1, Option.bind_some]
      have hcore : Core c { b with made := true, next := n', keyframe := k' } :=
        { hq := h.core.hq, hGone := h.core.hGone, hRoom := h.core.hRoom, hLast := h.core.hLast, hSlot := h.core.hSlot, hNull := h.core.hNull, hSorted := h.core.hSorted, hLt := h.core.hLt, hFpos := h.core.hFpos, hAcq := h.core.hAcq, hRel := h.core.hRel, hNext := e3 }
      have hpush := core_push hcore (f := f) (x := x) (by show b.hist.length + 1 < b.gone + c.q; omega) (List.getElem?_eq_some_iff.1 hx).1 hall
      have hwin : (b.hist ++ [f]).drop b.gone = b.window ++ [f] := by
        rw [List.drop_append_of_le_length hg0]
        rfl
      have hgood : Good c (push c { b with made := true, next := n', keyframe := k' } f x) := by
        refine ⟨hpush, h.hPos, ?_, ?_, ?_, ?_⟩
        · show Linked n' k' (((b.hist ++ [f]).drop b.gone).filter (isKey b))
          rw [hwin]
          exact e2
        · intro i f' x' hi hf' hx' hin
          have hi : b.gone ≤ i := hi
          have hf' : (b.hist ++ [f])[i]? = some f' := hf'
          have hx' : b.frames[f']? = some x' := hx'
          show ∃ j g : Nat, b.gone ≤ j ∧ j < i ∧ (b.hist ++ [f])[j]? = some g ∧ isKey b g = true
          rcases Nat.lt_or_ge i b.hist.length with hlt | hge
          · rw [List.getElem?_append_left hlt] at hf'
            obtain ⟨j, g, h1, h2, h3, h4⟩ := h.hVideo i f' x' hi hf' hx' hin
            exact ⟨j, g, h1, h2, by rw [List.getElem?_append_left (lt_len h3)]; exact h3, h4⟩
          · have hie : i = b.hist.length := by
              have := lt_len hf'
              rw [List.length_append, List.length_singleton] at this
              omega
            have hff : f' = f := by
              rw [hie] at hf'
              simp at hf'
              exact hf'.symm
            have hxx : b.frames[f]? = some x' := by rw [← hff]; exact hx'
            rw [hx] at hxx
            have := Option.some.inj hxx
            subst this
            cases hk : b.keyframe with
            | none => exact absurd ⟨hk, hin.1, hin.2⟩ hfirst
            | some k =>
              have hkl := linked_keyframe h.hKeys
              rw [hk] at hkl
              have hkm : k ∈ b.window.filter (isKey b) := List.mem_of_mem_head? (by rw [← hkl]; rfl)
              obtain ⟨hm1, hm2⟩ := List.mem_filter.1 hkm
              obtain ⟨j, h1, h2⟩ := mem_window h.core hm1
              exact ⟨j, k, h1, by have := lt_len h2; omega, by rw [List.getElem?_append_left (lt_len h2)]; exact h2, hm2⟩
        · intro _
          refine ⟨rfl, ?_⟩
          show b.gone < (b.hist ++ [f]).length
          rw [List.length_append, List.length_singleton]
          omega
        · intro f' x' hl hx'
          have hl : (b.hist ++ [f]).getLast? = some f' := hl
          rw [List.getLast?_concat] at hl
          have := Option.some.inj hl
          subst this
          have hx' : b.frames[f]? = some x' := hx'
          rw [hx] at hx'
          rw [← Option.some.inj hx']
          rfl
      obtain ⟨b', r1, r2, r3, r4, r5, r6, r7, r8⟩ := resetGop_ok hgood (f := f) (x := x) (by show (b.hist ++ [f]).getLast? = some f; rw [List.getLast?_concat]) hx
      refine ⟨b', r1, ⟨r2, r4, r5, Or.inr ⟨r3, r7, r6⟩, ?_, fun hne => absurd r6 hne, fun _ => by omega⟩⟩
      rcases r8 with r8 | r8 | r8 | r8
      · exact Or.inl r8
      · refine Or.inr (Or.inl ?_)
        have r8 : (b.hist ++ [f]).length + 2 ≥ b.gone + c.q := r8
        rw [List.length_append, List.length_singleton] at r8
        omega
      · refine Or.inr (Or.inr (Or.inl ?_))
        rw [r3, r4]
        exact r8
      · refine Or.inr (Or.inr (Or.inr ?_))
        rw [r3, r4]
        exact r8

end Verif.Hls2.Gop
