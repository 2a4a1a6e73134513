import Verif.Hls2.GopProps
/-
C76: where the cache does what nobody wants.
-/
namespace Verif.Hls2.Gop
open Verif Verif.Hls2 Verif.Hls2.Gop.Spec

/-! ### Without `mpegts_cache_time` (the default is 0) -/

structure Off (w : World) : Prop where
  hMade : w.b.made = false
  hPl : ∀ i, (w.pl i).log = [] ∧ (w.pl i).got = []

theorem fan_off {c : Conf} {k : Codec} {hls : Bool} {b : Pub} (hb : b.made = false) : ∀ (is : List Nat) (pl : Nat → Player), fan c k hls b is pl = some pl := by
  have hsee : ∀ p, see c k hls b p = some p := by
    intro p
    unfold see
    cases p.hls with
    | none =>
      dsimp only
      split
      · rfl
      · unfold tsSee
        rw [if_pos hb]
    | some s =>
      dsimp only
      split
      · unfold hlsSee
        rw [if_pos hb]
      · rfl
  intro is
  induction is with
  | nil => intro pl; rfl
  | cons i is ih =>
    intro pl
    rw [fan, hsee, Option.bind_some]
    have : set pl i (pl i) = pl := by
      funext j
      unfold set
      split
      · rename_i e
        rw [e]
      · rfl
    rw [this]
    exact ih pl

theorem off_step {c : Conf} (hc : c.cacheTime = 0) {w : World} (h : Off w) (o : Op) : ∃ w', step c w o = some w' ∧ Off w' := by
  have hclose : Gop.close c w.b = some w.b := by
    unfold Gop.close
    rw [if_neg (by rw [h.hMade]; simp)]
  cases o with
  | av k x =>
    refine ⟨{ w with b := { w.b with frames := w.b.frames ++ [x], skip := w.b.skip + 1 } }, ?_, ⟨h.hMade, h.hPl⟩⟩
    unfold step
    dsimp only
    rw [fan_off (by exact h.hMade), Option.bind_some]
    unfold cacheFrame
    rw [if_pos hc, Option.bind_some, fan_off (by exact h.hMade), Option.map_some]
  | join i hls =>
    refine ⟨_, rfl, ?_⟩
    split
    · exact h
    · refine ⟨h.hMade, fun j => ?_⟩
      dsimp only
      unfold set
      split
      · exact ⟨rfl, rfl⟩
      · exact h.hPl j
  | leave i =>
    refine ⟨_, rfl, ⟨h.hMade, fun j => ?_⟩⟩
    dsimp only
    unfold set
    split
    · exact ⟨rfl, rfl⟩
    · exact h.hPl j
  | drain i n =>
    refine ⟨_, rfl, ?_⟩
    split
    · refine ⟨h.hMade, fun j => ?_⟩
      dsimp only
      unfold set
      split
      · exact h.hPl i
      · exact h.hPl j
    · exact h
  | close =>
    refine ⟨w, ?_, h⟩
    unfold step
    dsimp only
    rw [hclose]
    rfl
  | publish =>
    refine ⟨{ w with b := { frames := w.b.frames }, pl := fun i => { w.pl i with log := [], full := 0, since := 0, old := (w.pl i).got.flatMap (·.2) } }, ?_, ⟨rfl, fun i => ⟨rfl, (h.hPl i).2⟩⟩⟩
    unfold step
    dsimp only
    rw [hclose]
    rfl

/-- C76: with `mpegts_cache_time` 0, which is the default, no session ever gets a frame: HLS sessions have no fragments, players over HTTP get nothing. -/
theorem C76_off (c : Conf) (hc : c.cacheTime = 0) (ops : List Op) : ∃ w, run c {} ops = some w ∧ ∀ i, (w.pl i).log = [] ∧ (w.pl i).got = [] := by
  have : ∀ (ops : List Op) (w : World), Off w → ∃ w', run c w ops = some w' ∧ Off w' := by
    intro ops
    induction ops with
    | nil => intro w h; exact ⟨w, rfl, h⟩
    | cons o ops ih =>
      intro w h
      obtain ⟨w1, e1, h1⟩ := off_step hc h o
      obtain ⟨w2, e2, h2⟩ := ih w1 h1
      exact ⟨w2, by rw [run, e1]; exact e2, h2⟩
  obtain ⟨w, e, h⟩ := this ops {} ⟨rfl, fun _ => ⟨rfl, rfl⟩⟩
  exact ⟨w, e, h.hPl⟩

/-! ### A ring that is full stays full -/

/-- What is not another publisher -/
def Op.stays : Op → Prop
  | .publish => False
  | .close => False
  | _ => True

/-- C76: once the ring is full, which one GOP can do, no frame of the publisher is ever cached again, be it a key frame or not. -/
theorem C76_jam (c : Conf) (hq : 0 < c.q) (hc : Plain c.h) (ht : c.cacheTime ≠ 0) (ops : List Op) (ho : ∀ o ∈ ops, o.Ok) (w : World) (hw : run c {} ops = some w) (hfull : w.b.window.length + 1 ≥ c.q)
    (more : List Op) (hm : ∀ o ∈ more, o.Ok ∧ o.stays) : ∃ w', run c w more = some w' ∧ w'.b.hist = w.b.hist ∧ w'.b.gone = w.b.gone := by
  have key : ∀ (more : List Op) (w : World), WInv c w → w.b.window.length + 1 ≥ c.q → (∀ o ∈ more, o.Ok ∧ o.stays) → ∃ w', run c w more = some w' ∧ w'.b.hist = w.b.hist ∧ w'.b.gone = w.b.gone := by
    intro more
    induction more with
    | nil => intro w _ _ _; exact ⟨w, rfl, rfl, rfl⟩
    | cons o more ih =>
      intro w h hf hm
      obtain ⟨h1, h2⟩ := hm o (by simp)
      have hstep : ∃ w', step c w o = some w' ∧ WInv c w' ∧ w'.b.hist = w.b.hist ∧ w'.b.gone = w.b.gone := by
        cases o with
        | av k x =>
          obtain ⟨w', e, hw', _, hs⟩ := av_ok hc ht h k x h1
          refine ⟨w', e, hw', ?_⟩
          have hlen : w.b.window.length = w.b.hist.length - w.b.gone := List.length_drop
          rcases hs.hHist with ⟨e1, e2, _⟩ | ⟨_, _, e3⟩
          · exact ⟨e1, e2⟩
          · have := hs.hRoom e3
            have this : w.b.hist.length + 1 < w.b.gone + c.q := this
            have hg := h.hGood.core.hGone
            omega
        | join i hls =>
          obtain ⟨w', e, hw'⟩ := step_ok hc ht h (.join i hls) h1
          refine ⟨w', e, hw', ?_⟩
          have e' := Option.some.inj e
          rw [← e']
          split <;> exact ⟨rfl, rfl⟩
        | leave i =>
          obtain ⟨w', e, hw'⟩ := step_ok hc ht h (.leave i) h1
          refine ⟨w', e, hw', ?_⟩
          have e' := Option.some.inj e
          rw [← e']
          exact ⟨rfl, rfl⟩
        | drain i n =>
          obtain ⟨w', e, hw'⟩ := step_ok hc ht h (.drain i n) h1
          refine ⟨w', e, hw', ?_⟩
          have e' := Option.some.inj e
          rw [← e']
          split <;> exact ⟨rfl, rfl⟩
        | close => exact h2.elim
        | publish => exact h2.elim
      obtain ⟨w1, e1, hw1, hh, hg⟩ := hstep
      have hwin : w1.b.window = w.b.window := by unfold Pub.window; rw [hh, hg]
      obtain ⟨w2, e2, h3, h4⟩ := ih w1 hw1 (by rw [hwin]; exact hf) (fun o ho => hm o (by simp [ho]))
      exact ⟨w2, by rw [run, e1]; exact e2, h3.trans hh, h4.trans hg⟩
  exact key more w (reached hq hc ht ho hw) hfull hm

/-! ### Runs -/

def someCodec : Codec := ⟨true, true, List.replicate 376 0⟩
def keyAt (t : Nat) : Op := .av someCodec ⟨true, true, t, [1]⟩
def interAt (t : Nat) : Op := .av someCodec ⟨true, false, t, [2]⟩
def audioAt (t : Nat) : Op := .av someCodec ⟨false, false, t, [3]⟩

theorem ok_of (ops : List Op) (h : ∀ o ∈ ops, (match o with | .av _ x => decide (x.pts < 2 ^ 63) | .close => false | _ => true) = true) : ∀ o ∈ ops, o.Ok := by
  intro o ho
  have := h o ho
  cases o with
  | av k x => exact (of_decide_eq_true this : x.pts < 2 ^ 63)
  | close => cases this
  | _ => trivial

theorem not_steady {cached log : List Nat} {gone t a b : Nat} (h1 : log[t]? = some a) (h2 : log[t + 1]? = some b) (h3 : b ≤ a) (h4 : cached.Pairwise (· < ·)) : ¬ Steady cached gone log := by
  intro h
  rcases h t a b h1 h2 with ⟨i, h5, h6⟩ | ⟨h5, _⟩
  · obtain ⟨l1, e1⟩ := List.getElem?_eq_some_iff.1 h5
    obtain ⟨l2, e2⟩ := List.getElem?_eq_some_iff.1 h6
    have := List.pairwise_iff_getElem.1 h4 i (i + 1) l1 l2 (Nat.lt_succ_self _)
    omega
  · omega

theorem map_some {α β : Type} {o : Option α} {f : α → β} {v : β} (h : o.map f = some v) : ∃ w, o = some w ∧ f w = v := Option.map_eq_some_iff.1 h

/-- One GOP that is longer than the ring: the key frame that comes later is refused as well, and a session of HLS that was never refused a frame gets the first frames again and again. -/
theorem C76_jam_violation : ∃ (c : Conf) (ops : List Op) (w : World), 0 < c.q ∧ Plain c.h ∧ c.cacheTime ≠ 0 ∧ (∀ o ∈ ops, o.Ok) ∧ run c {} ops = some w ∧ 1 ∈ w.subs ∧ (w.pl 1).full = 0 ∧
    w.b.hist = [0, 1, 2] ∧ (w.pl 1).log = [0, 1, 2, 0, 1, 2, 0, 1] ∧ ¬ Steady w.b.hist w.b.gone (w.pl 1).log := by
  obtain ⟨w, e, h⟩ := map_some (o := run { q := 4, cacheTime := 1000, h := {} } {} [.join 1 true, keyAt 0, interAt 10, interAt 20, interAt 30, interAt 40, interAt 50, interAt 60, keyAt 70, interAt 80])
    (f := fun w => (w.subs, (w.pl 1).full, w.b.hist, (w.pl 1).log)) (v := ([1], 0, [0, 1, 2], [0, 1, 2, 0, 1, 2, 0, 1])) (by decide +kernel)
  simp only [Prod.mk.injEq] at h
  obtain ⟨h1, h2, h3, h4⟩ := h
  refine ⟨_, _, w, by decide, ⟨rfl, by decide, by decide⟩, by decide, ok_of _ (by decide +kernel), e, by rw [h1]; decide, h2, h3, h4, ?_⟩
  rw [h3, h4]
  exact not_steady (t := 2) (a := 2) (b := 0) rfl rfl (by decide) (by decide)

/-- Sound that comes before the first key frame is sent again for each frame of video that is refused. -/
theorem C76_early_violation : ∃ (c : Conf) (ops : List Op) (w : World), 0 < c.q ∧ Plain c.h ∧ c.cacheTime ≠ 0 ∧ (∀ o ∈ ops, o.Ok) ∧ run c {} ops = some w ∧ 0 ∈ w.subs ∧ (w.pl 0).full = 0 ∧
    w.b.hist = [0, 4, 5] ∧ (w.pl 0).log = [0, 0, 0, 0, 4, 5] ∧ ¬ Steady w.b.hist w.b.gone (w.pl 0).log := by
  obtain ⟨w, e, h⟩ := map_some (o := run { q := 9, cacheTime := 1000, h := {} } {} [.join 0 false, audioAt 0, interAt 10, interAt 20, interAt 30, keyAt 40, audioAt 50])
    (f := fun w => (w.subs, (w.pl 0).full, w.b.hist, (w.pl 0).log)) (v := ([0], 0, [0, 4, 5], [0, 0, 0, 0, 4, 5])) (by decide +kernel)
  simp only [Prod.mk.injEq] at h
  obtain ⟨h1, h2, h3, h4⟩ := h
  refine ⟨_, _, w, by decide, ⟨rfl, by decide, by decide⟩, by decide, ok_of _ (by decide +kernel), e, by rw [h1]; decide, h2, h3, h4, ?_⟩
  rw [h3, h4]
  exact not_steady (t := 0) (a := 0) (b := 0) rfl rfl (by decide) (by decide)

/-- An HLS session whose queue is too small for what it gets first gets it again with each frame, nothing else, though the cache refused nothing. -/
theorem C76_restart_violation : ∃ (c : Conf) (ops : List Op) (w : World), 0 < c.q ∧ Plain c.h ∧ c.cacheTime ≠ 0 ∧ (∀ o ∈ ops, o.Ok) ∧ run c {} ops = some w ∧ 1 ∈ w.subs ∧ w.b.skip = (w.pl 1).since ∧
    w.b.hist = [0, 1, 2, 3, 4, 5, 6, 7, 8] ∧ (w.pl 1).log = [0, 1, 2, 0, 1, 2, 0, 1, 2] ∧ ¬ Steady w.b.hist w.b.gone (w.pl 1).log := by
  obtain ⟨w, e, h⟩ := map_some (o := run { q := 10, cacheTime := 1000, playlen := 1, h := { queue := 4, fraglen := 10 } } {} [keyAt 0, interAt 10, interAt 20, interAt 30, interAt 40, interAt 100, .join 1 true, interAt 200, interAt 210, interAt 220])
    (f := fun w => (w.subs, decide (w.b.skip = (w.pl 1).since), w.b.hist, (w.pl 1).log)) (v := ([1], true, [0, 1, 2, 3, 4, 5, 6, 7, 8], [0, 1, 2, 0, 1, 2, 0, 1, 2])) (by decide +kernel)
  simp only [Prod.mk.injEq] at h
  obtain ⟨h1, h2, h3, h4⟩ := h
  refine ⟨_, _, w, by decide, ⟨rfl, by decide, by decide⟩, by decide, ok_of _ (by decide +kernel), e, by rw [h1]; decide, of_decide_eq_true h2, h3, h4, ?_⟩
  rw [h3, h4]
  exact not_steady (t := 2) (a := 2) (b := 0) rfl rfl (by decide) (by decide)

/-- A session that closes its stream and publishes again: the list of key frames still has frames that were given back. -/
theorem C76_again_violation : ∃ (c : Conf) (ops : List Op), 0 < c.q ∧ Plain c.h ∧ c.cacheTime ≠ 0 ∧ run c {} ops = none :=
  ⟨{ q := 9, cacheTime := 1000, h := {} }, [keyAt 0, interAt 10, .close, keyAt 20], by decide, ⟨rfl, by decide, by decide⟩, by decide, by decide +kernel⟩

/-- A frame with a time before that of the key frame (frames out of order, as with B frames): the difference wraps and a GOP leaves the cache that is not a second old. -/
theorem C76_wrap_violation : ∃ (c : Conf) (ops : List Op) (w w' : World) (x : Frame), 0 < c.q ∧ Plain c.h ∧ c.cacheTime ≠ 0 ∧ (∀ o ∈ ops, o.Ok) ∧ run c {} ops = some w ∧ x.pts < 2 ^ 63 ∧ ¬ Refused c w.b x ∧
    step c w (.av someCodec x) = some w' ∧ w.b.window.length + 3 < c.q ∧ w'.b.gone = 1 ∧ w'.b.hist = [0, 1, 2] ∧ (w.b.frames[0]?).map (·.pts) = some 1000 ∧ x.pts = 1900 ∧ c.keep = 90000 := by
  obtain ⟨w, e, h⟩ := map_some (o := run { q := 9, cacheTime := 1000, h := {} } {} [keyAt 1000, keyAt 2000])
    (f := fun w => (w.b.window, (step { q := 9, cacheTime := 1000, h := {} } w (.av someCodec ⟨true, false, 1900, [2]⟩)).map fun w' => w'.b.gone :: w'.b.hist, (w.b.frames[0]?).map (·.key), (w.b.frames[0]?).map (·.pts)))
    (v := ([0, 1], some [1, 0, 1, 2], some true, some 1000)) (by decide +kernel)
  simp only [Prod.mk.injEq] at h
  obtain ⟨h1, h2, h5, h4⟩ := h
  obtain ⟨w', e', h2⟩ := map_some h2
  injection h2 with h2 h3
  refine ⟨_, _, w, w', ⟨true, false, 1900, [2]⟩, by decide, ⟨rfl, by decide, by decide⟩, by decide, ok_of _ (by decide +kernel), e, by decide, ?_, e', by rw [h1]; decide, h2, h3, h4, rfl, rfl⟩
  rintro (hr | ⟨_, hr⟩)
  · rw [h1] at hr
    exact absurd hr (by decide)
  · obtain ⟨y, hy, hk⟩ := map_some h5
    have := hr 0 (by rw [h1]; decide) y hy
    rw [hk] at this
    cases this

/-! ### Examples -/

/-- The hypotheses of the theorems: a cache of some GOPs with sessions that come late, two of them behind, and another publisher. -/
def someConf : Conf := { q := 12, cacheTime := 1, oneOff := 1, playlen := 1, tq := 4, h := { queue := 8, fraglen := 1 } }

def someOps : List Op := [.join 3 true, keyAt 0, audioAt 0, .publish, keyAt 100, interAt 110, audioAt 115, keyAt 120, interAt 130, .join 0 false, .join 1 true, interAt 230, audioAt 240, .drain 0 1, keyAt 250, interAt 260, interAt 270, .leave 1, .drain 0 2, interAt 300,
  audioAt 310]

example : 0 < someConf.q ∧ Plain someConf.h ∧ someConf.cacheTime ≠ 0 ∧ ∀ o ∈ someOps, o.Ok := ⟨by decide, ⟨rfl, by decide, by decide⟩, by decide, ok_of _ (by decide +kernel)⟩

/-- Of those that are there at the end, one is a slow player that was refused frames, one an HLS session from before the publisher. -/
example : (run someConf {} someOps).map (fun w => (w.subs, w.b.hist, w.b.gone, (w.pl 0).log, (w.pl 3).log)) = some ([0, 3], [2, 3, 4, 5, 6, 7, 8, 9, 10, 11, 12, 13], 3, [5, 6, 7, 8, 9, 10], [2, 3, 4, 5, 6, 7, 8, 9, 10, 11, 12]) := by decide +kernel

/-- C76_steady_partial -/
example : (run someConf {} someOps).map (fun w => ((w.pl 0).hls.isNone, (w.pl 3).full, w.b.skip, (w.pl 0).since, (w.pl 3).since)) = some (true, 0, 0, 0, 0) := by decide +kernel

/-- C76_hls_partial: one frame is of the publisher before. -/
example : (run someConf {} someOps).map (fun w => ((w.pl 3).old.length, (w.pl 3).hls.isSome)) = some (1, true) := by decide +kernel

/-- C76_take: times in order, room, and a GOP that leaves -/
example : (run someConf {} (someOps.take 11)).map (fun w => (decide (w.b.frames.Pairwise fun y z => y.pts ≤ z.pts), decide (w.b.window.length + 3 < someConf.q), (w.b.hist, w.b.gone))) = some (true, true, ([2, 3, 4, 5, 6], 0)) ∧
    (run someConf {} (someOps.take 12)).map (fun w => (w.b.hist, w.b.gone)) = some ([2, 3, 4, 5, 6, 7], 3) := by decide +kernel

/-- C76_first: what is in the cache, where one starts that goes back by 100 ticks, and where it ends -/
example : (run someConf {} (someOps.take 11)).map (fun w => sends 100 (some 20) true (named w.b.frames w.b.window)) = some [2, 3, 4, 5] ∧
    (run someConf {} (someOps.take 11)).map (fun w => sends 5 (some 20) true (named w.b.frames w.b.window)) = some [5, 6] := by decide +kernel

/-- C76_jam -/
example : (run { q := 4, cacheTime := 1000, h := {} } {} [keyAt 0, interAt 10, interAt 20]).map (fun w => w.b.window.length) = some 3 := by decide +kernel

end Verif.Hls2.Gop
