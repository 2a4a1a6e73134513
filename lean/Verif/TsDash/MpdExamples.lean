import Verif.TsDash.MpdProps
import Verif.TsDash.Examples
import Verif.TsDash.MpdEval
/- A program that meets the hypotheses of the theorems of C79; programs for which more does not hold -/
namespace Verif.TsDash
open Verif Verif.TsIn
open Verif.HlsRestore (Text dec)
open Verif.Xml (Plain)

/-- The packets have times. -/
def timed (x : In) : In := { x with e := { x.e with ptsf := true } }

theorem timed_ok {k : Spec.Kind} {x : In} (h : x.Ok k) : (timed x).Ok k := ⟨h.carries, h.fine, h.pts, h.dts⟩

def exKinds : Nat → Spec.Kind := fun pid => if pid = 256 then .avc else if pid = 257 then .aac 4 else .other

/-- A program with video, something else, and sound -/
def exEss : List (Nat × Nat) := [(256, 0x1b), (300, 6), (257, 0x0f)]

def exEvs (base : Nat) : List (Nat × In) := [(1, timed (exKey base)), (1, timed (exSound base)), (2, timed (exKey (base + 900000))), (3, timed (exSound (base + 900000)))]

/-- A text for a time -/
def exDate (n : Nat) : Text := dec n

theorem exDate_plain (n : Nat) : Plain (exDate n) := plain_dec n

theorem exProgram (base : Nat) (hb : base < 2 ^ 62) (evs : List (Nat × In)) (h : ∀ v ∈ evs, v ∈ exEvs base) (hl : evs.length ≤ 8) : Program {} exKinds exEss evs where
  analyze := by decide
  nsegs := by decide
  nodup := by decide
  types := by
    intro e he
    have : e = (256, 0x1b) ∨ e = (300, 6) ∨ e = (257, 0x0f) := by simpa [exEss] using he
    rcases this with rfl | rfl | rfl
    · rfl
    · exact ⟨by decide, by decide⟩
    · rfl
  units := by
    intro v hv e he _ hpid
    have h1 : e = (256, 0x1b) ∨ e = (300, 6) ∨ e = (257, 0x0f) := by simpa [exEss] using he
    have h2 : v = (1, timed (exKey base)) ∨ v = (1, timed (exSound base)) ∨ v = (2, timed (exKey (base + 900000))) ∨ v = (3, timed (exSound (base + 900000))) := by simpa [exEvs] using h v hv
    have key : ∀ t, t < 2 ^ 63 → ∀ e : Nat × Nat, (timed (exKey t)).e.pid = e.1 → (timed (exKey t)).Ok (exKinds e.1) := by
      intro t ht e hpid
      rw [← hpid]
      exact timed_ok (exKey_ok t ht)
    have sound : ∀ t, t < 2 ^ 63 → ∀ e : Nat × Nat, (timed (exSound t)).e.pid = e.1 → (timed (exSound t)).Ok (exKinds e.1) := by
      intro t ht e hpid
      rw [← hpid]
      exact timed_ok (exSound_ok t ht)
    rcases h2 with rfl | rfl | rfl | rfl
    · exact key _ (by omega) e hpid
    · exact sound _ (by omega) e hpid
    · exact key _ (by omega) e hpid
    · exact sound _ (by omega) e hpid
  fits := by
    intro video e _
    refine .inr ?_
    have hw : ∀ x : In, (∃ v ∈ exEvs base, v.2 = x) → Spec.weight video [x.item] ≤ 100 := by
      intro x ⟨v, hv, hx⟩
      have h2 : v = (1, timed (exKey base)) ∨ v = (1, timed (exSound base)) ∨ v = (2, timed (exKey (base + 900000))) ∨ v = (3, timed (exSound (base + 900000))) := by simpa [exEvs] using hv
      subst hx
      cases video <;> rcases h2 with rfl | rfl | rfl | rfl <;> simp [Spec.weight, timed, exKey, exSound, In.item]
    have hs : ∀ l : List In, (∀ x ∈ l, ∃ v ∈ exEvs base, v.2 = x) → Spec.weight video (l.map In.item) ≤ 100 * l.length := by
      intro l
      induction l with
      | nil => intro _; simp [Spec.weight]
      | cons x l ih =>
        intro hx
        have h1 := hw x (hx x (by simp))
        have h2 := ih fun y hy => hx y (by simp [hy])
        rw [List.map_cons, show x.item :: l.map In.item = [x.item] ++ l.map In.item from rfl, weight_append, List.length_cons]
        omega
    have hlen : (unitsOf e.1 (evs.map (·.2))).length ≤ 8 := by
      have := List.length_filter_le (fun x : In => x.e.ptsf && x.e.pid == e.1) (evs.map (·.2))
      rw [List.length_map] at this
      exact Nat.le_trans this hl
    have := hs (unitsOf e.1 (evs.map (·.2))) (by
      intro x hx
      obtain ⟨v, hv, rfl⟩ := List.mem_map.1 (List.mem_filter.1 hx).1
      exact ⟨v, h v hv, rfl⟩)
    have e31 : (2 : Nat) ^ 31 = 2147483648 := by decide
    rw [e31]
    omega

theorem exForward (base : Nat) : Forward exEss ((exEvs base).map (·.2)) := by
  intro e he
  have : e = (256, 0x1b) ∨ e = (300, 6) ∨ e = (257, 0x0f) := by simpa [exEss] using he
  rcases this with rfl | rfl | rfl <;> simp [exEvs, unitsOf, timed, exKey, exSound]

theorem exProgram1 : Program {} exKinds exEss (exEvs 1000) := exProgram 1000 (by omega) (exEvs 1000) (fun _ h => h) (by simp [exEvs])

theorem exProgram3 : Program {} exKinds exEss ((exEvs 1000).take 3) := exProgram 1000 (by omega) ((exEvs 1000).take 3) (fun _ h => List.mem_of_mem_take h) (by simp [exEvs])

def exRun (base : Nat) : Option (Dash × Bool) := runDash {} exDate (pmt {} {} exEss) ((exEvs base).map fun v => (v.1, v.2.e, v.2.bufs))

/-- What a player reads of a playlist: times, and for each representation number, codecs, bandwidth and segments -/
structure Look where
  id : Text
  codec : Option Mpd.Codec
  bandwidth : Nat
  times : List (Nat × Nat)
  deriving DecidableEq

structure Glance where
  start : Text
  publish : Text
  sets : List (List Look)
  deriving DecidableEq

def glance (t : Text) : Option Glance := (Mpd.readMpd t).map fun d => ⟨d.start, d.publish, d.sets.map fun a => a.reps.map fun r => ⟨r.id, Mpd.readCodec r.codecs, r.bandwidth, r.times⟩⟩

def look (ess : List (Nat × Nat)) (evs : List (Nat × In)) : Option Glance :=
  (runDash {} exDate (pmt {} {} ess) (evs.map fun v => (v.1, v.2.e, v.2.bufs))).bind fun x => x.1.mpd.bind glance

/-- What there is in the end -/
theorem exOut : (exRun 1000).map (fun x => (x.1.files.length, x.1.mpd.bind glance)) =
    some (5, some ⟨Mpd.s "2", Mpd.s "3", [[⟨Mpd.s "256", some (.avc 0x64 0 0x28), 49, [(1000, 900000)]⟩], [⟨Mpd.s "257", some (.aac 2), 30, [(1000, 900000)]⟩]]⟩) := by
  unfold exRun
  rw [evalRun_eq]
  decide +kernel

theorem exSome {d : Dash} (h : exRun 1000 = some (d, true)) : d.files.length = 5 ∧ ∃ text, d.mpd = some text ∧ (Mpd.readMpd text).map (·.start) = some (Mpd.s "2") := by
  have hs := exOut
  rw [h, Option.map_some, Option.some.injEq, Prod.mk.injEq] at hs
  obtain ⟨h1, h2⟩ := hs
  obtain ⟨text, ht, h3⟩ := Option.bind_eq_some_iff.1 h2
  refine ⟨h1, text, ht, ?_⟩
  unfold glance at h3
  obtain ⟨doc, h4, h5⟩ := Option.map_eq_some_iff.1 h3
  rw [Glance.mk.injEq] at h5
  rw [h4, Option.map_some, h5.1]

/-- There is a playlist; it can be played. -/
example : ∃ d text doc, exRun 1000 = some (d, true) ∧ d.mpd = some text ∧ Mpd.readMpd text = some doc ∧ doc.sets.map (fun a => (a.mime, a.reps.map (·.id))) = Spec.wanted exEss ∧
    ∀ a ∈ doc.sets, ∀ r ∈ a.reps, ∃ pid type video, (pid, type) ∈ Spec.streams video exEss ∧ Playable {} exKinds ((exEvs 1000).map (·.2)) d.files pid type video r := by
  obtain ⟨d, h1, h2⟩ := C79_player {} exDate exKinds exEss (exEvs 1000) exProgram1 exDate_plain (exForward 1000)
  obtain ⟨-, text, ht, -⟩ := exSome h1
  obtain ⟨doc, h3, h4, h5, h6⟩ := h2 text ht
  refine ⟨d, text, doc, h1, ht, h3, h5, fun a ha r hr => ?_⟩
  obtain ⟨pid, type, video, k1, -, k2⟩ := h6 a ha r hr
  exact ⟨pid, type, video, k1, k2⟩

/-- One more unit -/
def exMore : List (Nat × In) := [(7, timed (exSound (1000 + 900000)))]

theorem exProgram5 : Program {} exKinds exEss (exEvs 1000 ++ exMore) := by
  have h := exProgram 1000 (by omega) (exEvs 1000 ++ [(3, timed (exSound (1000 + 900000)))]) (fun v hv => by
    rcases List.mem_append.1 hv with h | h
    · exact h
    · rw [List.mem_singleton.1 h]; simp [exEvs]) (by simp [exEvs])
  have he : (exEvs 1000 ++ exMore).map (fun x : Nat × In => x.2) = (exEvs 1000 ++ [(3, timed (exSound (1000 + 900000)))]).map fun x : Nat × In => x.2 := by simp [exMore]
  refine ⟨h.analyze, h.nsegs, h.nodup, h.types, ?_, fun video e hm => by rw [he]; exact h.fits video e hm⟩
  intro v hv
  rcases List.mem_append.1 hv with h1 | h1
  · exact h.units v (List.mem_append_left _ h1)
  · rw [List.mem_singleton.1 h1]
    exact h.units (3, timed (exSound (1000 + 900000))) (List.mem_append_right _ (by simp))

/-- There still is a playlist. -/
example : ∃ d' text', runDash {} exDate (pmt {} {} exEss) ((exEvs 1000 ++ exMore).map fun v => (v.1, v.2.e, v.2.bufs)) = some (d', true) ∧ d'.mpd = some text' ∧ (Mpd.readMpd text').map (·.start) = some (Mpd.s "2") := by
  obtain ⟨d, h1, -⟩ := program_run (date := exDate) exProgram1
  obtain ⟨d', h2, -⟩ := program_run (date := exDate) exProgram5
  obtain ⟨-, text, ht, hs⟩ := exSome h1
  obtain ⟨text', doc, doc', k1, k2, k3, k4⟩ := C79_stays {} exDate exKinds exEss (exEvs 1000) exMore exProgram5 exDate_plain d d' text h1 h2 ht
  rw [k2] at hs
  exact ⟨d', text', h2, k1, by rw [k3, Option.map_some, k4]; exact hs⟩

theorem exThree : (runDash {} exDate (pmt {} {} exEss) (((exEvs 1000).take 3).map fun v => (v.1, v.2.e, v.2.bufs))).map (fun x => (x.1.mpd.isNone, x.1.files.length)) = some (true, 2) := by rw [evalRun_eq]; decide +kernel

theorem exRates : AllRates {} exEss ((exEvs 1000).map (·.2)) := by
  intro video e he
  have hin : e = (256, 0x1b) ∨ e = (257, 0x0f) := by
    cases video <;> simp [Spec.streams, exEss, Spec.videoTypes, Spec.soundTypes] at he <;> simp [he]
  rcases hin with rfl | rfl
  · exact ⟨49, by decide, [], [(1000, 31), (901000, 31)], [], by decide +kernel, by simp, (1000, 31), (901000, 31), rfl, by decide, rfl, by decide, by decide⟩
  · exact ⟨30, by decide, [], [(1000, 19), (901000, 19)], [], by decide +kernel, by simp, (1000, 19), (901000, 19), rfl, by decide, rfl, by decide, by decide⟩

/-- The last unit makes the playlist appear. -/
example : ∃ d d', runDash {} exDate (pmt {} {} exEss) (((exEvs 1000).take 3).map fun v => (v.1, v.2.e, v.2.bufs)) = some (d, true) ∧ d.mpd = none ∧ exRun 1000 = some (d', true) ∧ d'.mpd.isSome = true := by
  have hp := exProgram1
  obtain ⟨d, h1, -⟩ := program_run (date := exDate) exProgram3
  obtain ⟨d', h2, -⟩ := program_run (date := exDate) hp
  have hn := exThree
  have hl := (exSome h2).1
  rw [h1] at hn
  simp only [Option.map_some, Option.some.injEq, Prod.mk.injEq] at hn
  refine ⟨d, d', h1, Option.isNone_iff_eq_none.1 hn.1, h2, ?_⟩
  refine C79_appears {} exDate exKinds exEss ((exEvs 1000).take 3) (3, timed (exSound (1000 + 900000))) hp d d' h1 h2 exRates fun h => ?_
  rw [h] at hl
  omega

/-- Segments follow one another. -/
example : (1000, 900000).1 + (1000, 900000).2 = (901000, 450000).1 :=
  C79_gapless 3 [[(exKey 1000).item, (exOther 4600).item], [(exKey 901000).item], [(exKey 1351000).item]] (by simp [exKey, exOther, In.item, toU]) 0 (1000, 900000) (901000, 450000) (by decide +kernel) (by decide +kernel)

/-- Silent sound: no playlist for video either -/
example : ∃ d, runDash {} exDate (pmt {} {} exEss) ([(1, timed (exKey 1000)), (2, timed (exKey (1000 + 900000)))].map fun v => (v.1, v.2.e, v.2.bufs)) = some (d, true) ∧ d.mpd = none :=
  C79_silent_violation {} exDate exKinds exEss [(1, timed (exKey 1000)), (2, timed (exKey (1000 + 900000)))]
    (exProgram 1000 (by omega) _ (fun v hv => by
      have : v = (1, timed (exKey 1000)) ∨ v = (2, timed (exKey (1000 + 900000))) := by simpa using hv
      rcases this with rfl | rfl <;> simp [exEvs]) (by simp)) false (257, 0x0f) (by decide) (by
      intro v hv
      have : v = (1, timed (exKey 1000)) ∨ v = (2, timed (exKey (1000 + 900000))) := by simpa using hv
      rcases this with rfl | rfl <;> decide)

/-! ### What is not so -/

/-- When a segment may be asked for: seconds from the start of the presentation on (23009-1, 5.3.9.5.3: with `PT0S` as start of the period and no `presentationTimeOffset`, the time when it ends) -/
def Spec.availableAfter (timescale : Nat) (x : Nat × Nat) : Nat := (x.1 + x.2) / timescale

/-- **C79 (violation).** Times of the stream are times of the presentation, and these count from when the first segment ends. A transport stream whose clock has run for 10 hours has segments that a player may ask for
in 10 hours: the playlist, published as the presentation starts, lists one, which is on disk. -/
theorem C79_offset_violation : look [(256, 0x1b)] [(1, timed (exKey 3240000000)), (2, timed (exKey (3240000000 + 900000)))] =
      some ⟨exDate 2, exDate 2, [[⟨Mpd.s "256", some (.avc 0x64 0 0x28), 49, [(3240000000, 900000)]⟩]]⟩ ∧
    Spec.availableAfter 90000 (3240000000, 900000) = 36010 := by unfold look; rw [evalRun_eq]; decide +kernel

/-- **C79 (violation).** A video stream whose parameter sets have not come is listed as something else: `mp4v.21`. -/
theorem C79_unknown_violation : look [(256, 0x1b)] [(1, timed (exOther 1000)), (2, timed (exOther 901000))] = some ⟨exDate 2, exDate 2, [[⟨Mpd.s "256", some (.mp4 true 0x21), 8, [(1000, 900000)]⟩]]⟩ := by unfold look; rw [evalRun_eq]; decide +kernel

/-- Another stream of video -/
def onOther (x : In) : In := { x with e := { x.e with pid := 258 } }

/-- What is said of the segments of a set (5.3.3.2: `segmentAlignment` is that segments of its representations do not overlap) -/
def aligned (t : Text) : Option (List (Option Text)) := (Xml.read t).map fun n => n.kids.flatMap fun p => p.kids.map fun a => a.attr (Mpd.s "segmentAlignment")

def exTwo : List (Nat × In) := [(1, timed (exKey 1000)), (1, onOther (timed (exKey 1000))), (2, timed (exKey 451000)), (3, timed (exKey 901000)), (3, onOther (timed (exKey 901000)))]

def textOf (ess : List (Nat × Nat)) (evs : List (Nat × In)) : Option Text := (runDash {} exDate (pmt {} {} ess) (evs.map fun v => (v.1, v.2.e, v.2.bufs))).bind fun x => x.1.mpd

theorem exTwo_says : (textOf [(256, 0x1b), (258, 0x1b)] exTwo).bind aligned = some [some (Mpd.s "true")] := by unfold textOf; rw [evalRun_eq]; decide +kernel

theorem exTwo_lists : ((textOf [(256, 0x1b), (258, 0x1b)] exTwo).bind glance).map (fun x => x.sets.map fun a => a.map (·.times)) = some [[[(1000, 450000), (451000, 450000)], [(1000, 900000)]]] := by unfold textOf; rw [evalRun_eq]; decide +kernel

/-- **C79 (violation).** Each stream is cut for itself, but the playlist says that segments are aligned: here one lasts for 5 seconds, when the other stream has one of 10. -/
theorem C79_aligned_violation : (textOf [(256, 0x1b), (258, 0x1b)] exTwo).bind aligned = some [some (Mpd.s "true")] ∧
    ((textOf [(256, 0x1b), (258, 0x1b)] exTwo).bind glance).map (fun x => x.sets.map fun a => a.map (·.times)) = some [[[(1000, 450000), (451000, 450000)], [(1000, 900000)]]] := ⟨exTwo_says, exTwo_lists⟩

end Verif.TsDash
