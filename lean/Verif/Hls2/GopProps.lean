import Verif.Hls2.GopBurst
/-
C76: the GOP cache for transport streams.
-/
namespace Verif.Hls2.Gop
open Verif Verif.Hls2 Verif.Hls2.Gop.Spec

/-- The cache after any run. `hist` are the frames that were put into it; what is in it now is `window`, all but the first `gone` of them. -/
structure Cached (c : Conf) (b : Pub) : Prop where
  /-- frames of the publisher, in order, each once -/
  hOrder : b.hist.Pairwise (· < ·) ∧ ∀ f ∈ b.hist, f < b.frames.length
  /-- the ring has them from `gop_pos` on and nothing else -/
  hRing : ∀ j f, b.cache j = some f ↔ ∃ t : Nat, b.window[t]? = some f ∧ j = (b.pos + t) % c.q
  hLast : b.last = (b.pos + b.window.length) % c.q
  hRoom : b.window.length < c.q
  /-- a reference for each, none for others -/
  hRefs : ∀ f, b.acq f = b.rel f + (if f ∈ b.window then 1 else 0) ∧ b.acq f ≤ 1
  /-- the list of key frames -/
  hKeys : Linked b.next b.keyframe (b.window.filter fun f => (b.frames[f]?).any (·.key))
  /-- what is in the cache can be decoded -/
  hVideo : Decodable b.frames b.hist b.window

theorem isKey_any (b : Pub) (f : Nat) : isKey b f = (b.frames[f]?).any (·.key) := by
  unfold isKey
  cases b.frames[f]? <;> rfl

theorem Good.cached {c : Conf} {b : Pub} (h : Good c b) : Cached c b := by
  have hg := h.core.hGone
  have hr := h.core.hRoom
  have hlen : b.window.length = b.hist.length - b.gone := List.length_drop
  have hwin : ∀ t : Nat, b.window[t]? = b.hist[b.gone + t]? := fun t => List.getElem?_drop
  have hpos : ∀ t, (b.pos + t) % c.q = (b.gone + t) % c.q := fun t => by rw [h.hPos, Nat.mod_add_mod]
  refine ⟨⟨h.core.hSorted, h.core.hLt⟩, ?_, ?_, by omega, ?_, ?_, ?_⟩
  · intro j f
    constructor
    · intro hj
      obtain ⟨i, h1, h2, h3⟩ := h.core.hNull j f hj
      refine ⟨i - b.gone, ?_, ?_⟩
      · rw [hwin, show b.gone + (i - b.gone) = i by omega]
        exact h3
      · rw [hpos, show b.gone + (i - b.gone) = i by omega]
        exact h2.symm
    · rintro ⟨t, h1, h2⟩
      rw [hwin] at h1
      rw [h2, hpos]
      exact h.core.hSlot _ _ (by omega) h1
  · rw [hpos, hlen, show b.gone + (b.hist.length - b.gone) = b.hist.length by omega]
    exact h.core.hLast
  · intro f
    rw [h.core.hAcq, h.core.hRel]
    by_cases hm : f ∈ b.hist
    · obtain ⟨i, hi⟩ := List.mem_iff_getElem?.1 hm
      rw [if_pos hm]
      by_cases hlt : i < b.gone
      · have h1 : f ∈ b.hist.take b.gone := (mem_take_iff h.core.nodup hi).2 hlt
        have h2 : f ∉ b.window := by
          intro hw
          obtain ⟨t, ht⟩ := List.mem_iff_getElem?.1 hw
          rw [hwin] at ht
          have := idx_inj h.core.nodup hi ht
          omega
        rw [if_pos h1, if_neg h2]
        exact ⟨rfl, Nat.le_refl _⟩
      · have h1 : f ∉ b.hist.take b.gone := fun hc => hlt ((mem_take_iff h.core.nodup hi).1 hc)
        have h2 : f ∈ b.window := List.mem_iff_getElem?.2 ⟨i - b.gone, by rw [hwin, show b.gone + (i - b.gone) = i by omega]; exact hi⟩
        rw [if_neg h1, if_pos h2]
        exact ⟨rfl, Nat.le_refl _⟩
    · rw [if_neg hm, if_neg (fun hc => hm (List.mem_of_mem_take hc)), if_neg (c := f ∈ b.window) (fun hc => hm (List.mem_of_mem_drop hc))]
      exact ⟨rfl, Nat.zero_le _⟩
  · have := h.hKeys
    rw [List.filter_congr (q := fun f => (b.frames[f]?).any (·.key)) (fun f _ => isKey_any b f)] at this
    exact this
  · have := Decodable.run (b := b) (pre := []) (a := b.gone) (Nat.le_refl _) (decodable_nil b) h.hVideo
    rw [List.nil_append, ← window_slice] at this
    exact this

/-- C76: no null pointer or frame that was given back is used and no loop is endless, whatever frames come, whoever comes and goes, and however slow they are. Missing: a session that publishes again after it closed its
stream (C76_again_violation), times from 2^63. -/
theorem C76_safe_partial (c : Conf) (hq : 0 < c.q) (hc : Plain c.h) (ht : c.cacheTime ≠ 0) (ops : List Op) (ho : ∀ o ∈ ops, o.Ok) : ∃ w, run c {} ops = some w := by
  obtain ⟨w, e, _⟩ := run_ok hc ht ops {} (winv_new hq) ho
  exact ⟨w, e⟩

theorem reached {c : Conf} (hq : 0 < c.q) (hc : Plain c.h) (ht : c.cacheTime ≠ 0) {ops : List Op} (ho : ∀ o ∈ ops, o.Ok) {w : World} (hw : run c {} ops = some w) : WInv c w := by
  obtain ⟨w', e, h⟩ := run_ok hc ht ops {} (winv_new hq) ho
  rw [hw] at e
  rw [Option.some.inj e]
  exact h

/-- C76: ring, key frames, and references are right after any run. -/
theorem C76_cache (c : Conf) (hq : 0 < c.q) (hc : Plain c.h) (ht : c.cacheTime ≠ 0) (ops : List Op) (ho : ∀ o ∈ ops, o.Ok) (w : World) (hw : run c {} ops = some w) : Cached c w.b :=
  (reached hq hc ht ho hw).hGood.cached

/-- C76: when the publisher closes its stream, all references of the cache are given back. -/
theorem C76_close (c : Conf) (hq : 0 < c.q) (hc : Plain c.h) (ht : c.cacheTime ≠ 0) (ops : List Op) (ho : ∀ o ∈ ops, o.Ok) (w : World) (hw : run c {} ops = some w) :
    ∃ w', step c w .close = some w' ∧ (∀ f, w'.b.rel f = w'.b.acq f) ∧ w'.b.acq = w.b.acq := by
  obtain ⟨b', e, _, h1, h2⟩ := close_ok (reached hq hc ht ho hw).hGood
  refine ⟨{ w with b := b' }, by unfold step; dsimp only; rw [e]; rfl, h2, h1⟩

/-- Why a frame does not go into the cache -/
def Refused (c : Conf) (b : Pub) (x : Frame) : Prop := b.window.length + 1 ≥ c.q ∨ (Inter x ∧ ∀ f ∈ b.window, ∀ y, b.frames[f]? = some y → y.key = false)

theorem nokeys {c : Conf} {b : Pub} (h : Good c b) (hk : ∀ f ∈ b.window, isKey b f = false) : b.keyframe = none := by
  rw [linked_keyframe h.hKeys]
  have : b.window.filter (isKey b) = [] := List.filter_eq_nil_iff.2 fun f hf => by rw [hk f hf]; simp
  rw [this]
  rfl

/-- C76: a frame goes to the end of the cache unless the ring is full, or it cannot be decoded and there is no key frame; with nothing refused frames that leave are at least `keep` older than it, or the ring is about
to be full. What is left has all key frames it needs (C76_cache). -/
theorem C76_take (c : Conf) (hq : 0 < c.q) (hc : Plain c.h) (ht : c.cacheTime ≠ 0) (ops : List Op) (ho : ∀ o ∈ ops, o.Ok) (w : World) (hw : run c {} ops = some w) (k : Codec) (x : Frame) (hx : x.pts < 2 ^ 63) :
    ∃ w', step c w (.av k x) = some w' ∧ w'.b.frames = w.b.frames ++ [x] ∧
      (Refused c w.b x → w'.b.hist = w.b.hist ∧ w'.b.gone = w.b.gone) ∧
      (¬ Refused c w.b x → w'.b.hist = w.b.hist ++ [w.b.frames.length] ∧ w.b.gone ≤ w'.b.gone ∧ w.b.frames.length ∈ w'.b.window ∧
        ((w.b.frames ++ [x]).Pairwise (fun y z => y.pts ≤ z.pts) →
          w.b.window.length + 3 ≥ c.q ∨ ∀ (i g : Nat) (y : Frame), w.b.gone ≤ i → i < w'.b.gone → w'.b.hist[i]? = some g → w'.b.frames[g]? = some y → y.pts + c.keep ≤ x.pts)) := by
  have h := reached hq hc ht ho hw
  obtain ⟨w', e, hw', _, hs⟩ := av_ok hc ht h k x hx
  have hgood := h.hGood.frames x
  have hfr : w'.b.frames = w.b.frames ++ [x] := hs.hFrames
  have hg := h.hGood.core.hGone
  have hlen : w.b.window.length = w.b.hist.length - w.b.gone := List.length_drop
  have hkey : ∀ f ∈ w.b.window, isKey { w.b with frames := w.b.frames ++ [x] } f = isKey w.b f := by
    intro f hf
    unfold isKey
    dsimp only
    rw [List.getElem?_append_left (h.hGood.core.hLt f (List.mem_of_mem_drop hf))]
  -- what the cache does, again
  have hcase : (Refused c w.b x → w'.b.skip = w.b.skip + 1) := by
    intro hre
    unfold step at e
    dsimp only at e
    cases e1 : fan c k true { w.b with frames := w.b.frames ++ [x] } w.subs w.pl with
    | none => rw [e1] at e; cases e
    | some pl =>
      rw [e1, Option.bind_some] at e
      have hcf : cacheFrame c { w.b with frames := w.b.frames ++ [x] } w.b.frames.length x = some { w.b with frames := w.b.frames ++ [x], made := true, skip := w.b.skip + 1 } := by
        unfold cacheFrame
        rw [if_neg ht]
        dsimp only
        rw [Good.count h.hGood.core h.hGood.hPos]
        by_cases hf : w.b.hist.length - w.b.gone + 1 ≥ c.q
        · rw [if_pos hf]
        · rw [if_neg hf, if_pos]
          rcases hre with hre | ⟨h1, h2⟩
          · omega
          · refine ⟨nokeys h.hGood ?_, h1.1, h1.2⟩
            intro f hf
            unfold isKey
            cases hy : w.b.frames[f]? with
            | none => rfl
            | some y => exact h2 f hf y hy
      rw [hcf, Option.bind_some] at e
      cases e3 : fan c k false { w.b with frames := w.b.frames ++ [x], made := true, skip := w.b.skip + 1 } w.subs pl with
      | none => rw [e3] at e; cases e
      | some pl' =>
        rw [e3, Option.map_some] at e
        rw [← Option.some.inj e]
  refine ⟨w', e, hfr, ?_, ?_⟩
  · intro hre
    have := hcase hre
    rcases hs.hHist with h1 | ⟨_, _, h1⟩
    · exact ⟨h1.1, h1.2.1⟩
    · have h1 : w'.b.skip = w.b.skip := h1
      omega
  · intro hre
    have hin : w'.b.hist = w.b.hist ++ [w.b.frames.length] ∧ w.b.gone ≤ w'.b.gone := by
      rcases hs.hHist with ⟨_, _, h1⟩ | ⟨h1, h2, _⟩
      · refine absurd ?_ hre
        have h1 : w'.b.skip = w.b.skip + 1 := h1
        have h2 : w'.b.skip ≠ w.b.skip := by omega
        rcases hs.hSkip h2 with h3 | ⟨h3, h4⟩
        · left
          have h3 : w.b.hist.length + 1 ≥ w.b.gone + c.q := h3
          omega
        · refine Or.inr ⟨h3, ?_⟩
          intro f hf y hy
          have h4 : isKey { w.b with frames := w.b.frames ++ [x] } f = false := h4 f hf
          rw [hkey f hf] at h4
          unfold isKey at h4
          rw [hy] at h4
          exact h4
      · exact ⟨h1, h2⟩
    have hgl : w'.b.gone < w'.b.hist.length := (hs.hGood.hMade (by rw [hin.1]; simp)).2
    have hlast : w'.b.hist[w.b.hist.length]? = some w.b.frames.length := by rw [hin.1]; simp
    refine ⟨hin.1, hin.2, ?_, ?_⟩
    · refine List.mem_iff_getElem?.2 ⟨w.b.hist.length - w'.b.gone, ?_⟩
      show (w'.b.hist.drop w'.b.gone)[_]? = _
      rw [hin.1, List.length_append, List.length_singleton] at hgl
      rw [List.getElem?_drop, show w'.b.gone + (w.b.hist.length - w'.b.gone) = w.b.hist.length by omega]
      exact hlast
    · intro hord
      have hpt : ∀ (g : Nat) (y : Frame), w'.b.frames[g]? = some y → y.pts ≤ x.pts := by
        intro g y hy
        rw [hfr] at hy
        obtain ⟨hgl, hge⟩ := List.getElem?_eq_some_iff.1 hy
        rw [List.length_append, List.length_singleton] at hgl
        rcases Nat.lt_or_ge g w.b.frames.length with hlt | hge'
        · have := List.pairwise_iff_getElem.1 hord g w.b.frames.length (by simp; omega) (by simp) hlt
          rw [hge] at this
          simpa using this
        · have : g = w.b.frames.length := by omega
          subst this
          rw [List.getElem?_append_right (Nat.le_refl _), Nat.sub_self] at hy
          rw [← Option.some.inj hy]
          exact Nat.le_refl _
      have hd : ∀ (g : Nat) (y : Frame), w'.b.frames[g]? = some y → diff x.pts y.pts = x.pts - y.pts := by
        intro g y hy
        have := hpt g y hy
        unfold diff
        omega
      rcases hs.hDrop with h1 | h1 | ⟨h1, g, y, h2, h3, h4⟩ | ⟨_, g, y, h2, h3, _, h4⟩
      · right
        intro i g y hi1 hi2
        have h1 : w'.b.gone = w.b.gone := h1
        omega
      · left
        have h1 : w.b.hist.length + 3 ≥ w.b.gone + c.q := h1
        omega
      · right
        intro i g' y' hi1 hi2 hg' hy'
        have h1 : w'.b.gone = w.b.gone + 1 := h1
        have hi : i = w.b.gone := by omega
        subst hi
        have h2 : w'.b.hist[w.b.gone]? = some g := h2
        rw [hg'] at h2
        have := Option.some.inj h2
        subst this
        rw [hy'] at h3
        have := Option.some.inj h3
        subst this
        rw [hd _ _ hy'] at h4
        omega
      · right
        intro i g' y' hi1 hi2 hg' hy'
        rw [hd _ _ h3] at h4
        have hle := hpt _ _ h3
        -- what leaves is before what is first now
        have hil : i < w'.b.hist.length := by omega
        have hlt := List.pairwise_iff_getElem.1 hs.hGood.core.hSorted i w'.b.gone hil hgl hi2
        rw [List.getElem?_eq_getElem hil] at hg'
        rw [List.getElem?_eq_getElem hgl] at h2
        rw [Option.some.inj hg', Option.some.inj h2] at hlt
        rw [hfr] at hy' h3
        obtain ⟨l1, e1⟩ := List.getElem?_eq_some_iff.1 hy'
        obtain ⟨l2, e2⟩ := List.getElem?_eq_some_iff.1 h3
        have := List.pairwise_iff_getElem.1 hord g' g l1 l2 hlt
        rw [e1, e2] at this
        omega

/-- C76: what a session gets can be decoded, however slow it is: each frame of video that needs others comes after a key frame and all frames between. -/
theorem C76_decodable (c : Conf) (hq : 0 < c.q) (hc : Plain c.h) (ht : c.cacheTime ≠ 0) (ops : List Op) (ho : ∀ o ∈ ops, o.Ok) (w : World) (hw : run c {} ops = some w) (i : Nat) (hi : i ∈ w.subs) :
    Decodable w.b.frames w.b.hist (w.pl i).log := by
  have h := (reached hq hc ht ho hw).hPl i hi
  cases hh : (w.pl i).hls with
  | none =>
    rcases (h.hTs hh).hAt with h1 | h1 | ⟨_, _, j, h1, _⟩
    · rw [h1.2]
      exact decodable_nil _
    · rw [h1.1]
      exact decodable_nil _
    · exact h1.hReach.decodable h1.hi
  | some s =>
    rcases (h.hHls (by rw [hh]; simp)).hAt with h1 | h1 | ⟨_, _, j, h1, _⟩
    · rw [h1.2]
      exact decodable_nil _
    · rw [h1.1]
      exact decodable_nil _
    · exact h1.hReach.decodable h1.hi

/-- C76: if no frame was refused by the cache since the session came, each frame is followed by the next one, or, when that has left the cache, by one that was the first in it. Missing: frames that the cache refuses
(C76_jam_violation, C76_early_violation), HLS sessions whose queue was full (C76_restart_violation). -/
theorem C76_steady_partial (c : Conf) (hq : 0 < c.q) (hc : Plain c.h) (ht : c.cacheTime ≠ 0) (ops : List Op) (ho : ∀ o ∈ ops, o.Ok) (w : World) (hw : run c {} ops = some w) (i : Nat) (hi : i ∈ w.subs)
    (hf : (w.pl i).hls = none ∨ (w.pl i).full = 0) (hs : w.b.skip = (w.pl i).since) : Steady w.b.hist w.b.gone (w.pl i).log := by
  have h := (reached hq hc ht ho hw).hPl i hi
  cases hh : (w.pl i).hls with
  | none => exact (h.hTs hh).hSteady hs hf
  | some s => exact (h.hHls (by rw [hh]; simp)).hSteady hs hf

/-- Times do not go back. -/
def Timed (b : Pub) : Prop := b.frames.Pairwise fun x y => x.pts ≤ y.pts

/-- C76: what a session gets first. -/
theorem C76_first (c : Conf) (hq : 0 < c.q) (hc : Plain c.h) (ht : c.cacheTime ≠ 0) (ops : List Op) (ho : ∀ o ∈ ops, o.Ok) (w : World) (hw : run c {} ops = some w) (hb : Timed w.b) (r : Rule) (p : Player) (hp : p.state = 0) :
    ∃ p', link c r w.b p = some p' ∧ (p'.full = p.full → p'.log = p.log ++ sends (r.offset * 90) (r.dur.map (· * 90)) r.note (named w.b.frames w.b.window)) := by
  have h := reached hq hc ht ho hw
  obtain ⟨p', e, _⟩ := link_ok (r := r) h.hGood p
  refine ⟨p', e, fun hf => link_first h.hGood ?_ ?_ p p' hp e hf⟩
  · intro hne
    cases hl : w.b.hist.getLast? with
    | none => exact absurd (List.getLast?_eq_none_iff.1 hl) hne
    | some f =>
      have hlt := h.hGood.core.hLt f (List.mem_of_getLast? hl)
      rw [h.hGood.hCur f _ hl (List.getElem?_eq_getElem hlt)]
      exact h.hPts _ (List.getElem_mem hlt)
  · intro i j f g x y hij hf hg hx hy
    rcases Nat.eq_or_lt_of_le hij with e | hlt
    · subst e
      rw [hf] at hg
      have := Option.some.inj hg
      subst this
      rw [hx] at hy
      rw [Option.some.inj hy]
      exact Nat.le_refl _
    · obtain ⟨l1, e1⟩ := List.getElem?_eq_some_iff.1 hf
      obtain ⟨l2, e2⟩ := List.getElem?_eq_some_iff.1 hg
      have hfg := List.pairwise_iff_getElem.1 h.hGood.core.hSorted i j l1 l2 hlt
      rw [e1, e2] at hfg
      obtain ⟨l3, e3⟩ := List.getElem?_eq_some_iff.1 hx
      obtain ⟨l4, e4⟩ := List.getElem?_eq_some_iff.1 hy
      have := List.pairwise_iff_getElem.1 hb f g l3 l4 hfg
      rw [e3, e4] at this
      exact this

/-- C76: an HLS session makes fragments (C74) of the frames it gets from the cache: `old` are those of publishers before. Missing: `hls2_fragment_aligned`-like settings (`Plain`). -/
theorem C76_hls_partial (c : Conf) (hq : 0 < c.q) (hc : Plain c.h) (ht : c.cacheTime ≠ 0) (ops : List Op) (ho : ∀ o ∈ ops, o.Ok) (w : World) (hw : run c {} ops = some w) (i : Nat) (hi : i ∈ w.subs) (s : St)
    (hs : (w.pl i).hls = some s) (n : Names) (hn : n.Ok) :
    ∃ gs, Hls2.Holds c.h (w.pl i).got ⟨s, vals w.b (w.pl i).queue⟩ gs ∧ gs.flatMap Hls2.Spec.Group.frames ++ vals w.b (w.pl i).queue = (w.pl i).old ++ vals w.b (w.pl i).log ∧ Serves c.h n s gs := by
  have hw' := reached hq hc ht ho hw
  obtain ⟨items, h1, _, h3, h4⟩ := (hw'.hPl i hi).hBase.hHls s hs
  obtain ⟨s1, gs, _, _, e1, _, e3, _, _, e6, _⟩ := C74_serve_partial c.h hc n hn (w.pl i).got [] (fun x hx f hf => by
    rw [List.append_nil] at hx
    exact hw'.hPts f (h4 x hx f hf))
  rw [h1] at e1
  have := Option.some.inj e1
  subst this
  exact ⟨gs, e3, by rw [← h3, e3.hAll], e6⟩

end Verif.Hls2.Gop
