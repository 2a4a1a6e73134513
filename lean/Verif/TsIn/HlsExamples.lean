import Verif.TsIn.HlsMore
import Verif.TsIn.WriteExamples
/-
C71: examples that meet the hypotheses of `HlsProps` and `HlsMore`, and where HLS output is not what RFC 8216 or the README wants.
-/
namespace Verif.TsHls
open Verif Verif.TsIn
open Verif.HlsRestore (Text dec)

def tvProg : Prog := { exProg with video := true }
/-- A picture, a key frame or not; sound. -/
def pic (key : Bool) (t : Nat) : U := (tvProg, { exKey with pts := t, dts := t, rand := key, ptsf := true }, [List.replicate 200 9])
def sound (t : Nat) : U := (tvProg, { exSound with pts := t, dts := t, ptsf := true }, [[1, 2, 3]])

/-- Segments of 0.1 s to 0.2 s, three of them in the list. -/
def tvConf : Conf := { minSeg := 100, maxSeg := 200, analyze := 100, maxSize := 4000, nsegs := 3 }
/-- Key frames at 0, 0.12 s; none until 0.36 s; at 0.48 s and 0.6 s. -/
def tvUnits : List U := [pic true 0, sound 3600, pic false 7200, pic true 10800, sound 10801, pic false 18000, sound 30000, pic false 32400, pic true 43200, pic true 54000]

/-- What can be compared of a result: the number of the segment, sizes of files, how many playlists, the last, and the bandwidth. -/
def view : R Var → Option (Nat × List Nat × Nat × Option Spec.Media × Nat)
  | .ok v => some (v.seg, (List.range (v.seg + 1)).map fun j => (v.disk j).length, v.playlists.length, v.playlists.getLast?.bind Spec.parse, v.bandwidth)
  | _ => none

theorem tv_view : view (feed 9 tvConf (newVar tvConf false 1) tvUnits) =
    some (4, [7, 7, 5, 4, 4], 4, some { seq := 1, target := some 1, segs := [(213, "1.ts".toList), (147, "2.ts".toList), (120, "3.ts".toList)] }, 40200) := by decide +kernel

/-- Hypotheses of `C71_output`, `C71_total`, `C71_target`, `C71_sequence`, `C71_room` and `C71_bandwidth`. -/
example : (∀ u ∈ tvUnits, Fits u ∧ Tellable u.1) ∧ Rising tvUnits ∧ tvConf.minSeg ≤ tvConf.maxSeg := by
  refine ⟨by decide +kernel, ?_, by decide⟩
  unfold Rising
  decide +kernel

theorem view_ok {r : R Var} {x} (h : view r = some x) : ∃ v, r = .ok v ∧ v.seg = x.1 := by
  cases r with
  | ok v => refine ⟨v, rfl, ?_⟩; injection h with h; rw [← h]
  | error => cases h
  | crash => cases h
  | more => cases h

example : ∃ v S, feed 9 tvConf (newVar tvConf false 1) tvUnits = .ok v ∧ Output tvConf tvProg tvUnits v S ∧ S.length = 5 := by
  obtain ⟨v, h, h2⟩ := view_ok tv_view
  obtain ⟨S, O⟩ := C71_output 9 tvConf false 1 (pic true 0) _ v (by decide) (by decide +kernel) h
  exact ⟨v, S, h, O, by rw [O.parts.2.2, h2]⟩

theorem near_split (us : List U) (h : (us.zip us.tail).all (fun x => decide (x.2.2.1.dts ≤ x.1.2.1.dts + 44955)) = true) :
    ∀ a u w b, us = a ++ u :: w :: b → w.2.1.dts ≤ u.2.1.dts + 44955 := by
  intro a u w b e
  subst e
  induction a with
  | nil => simp at h; exact h.1
  | cons x a ih =>
    apply ih
    cases a with
    | nil => simp at h ⊢; exact h.2
    | cons y a => simp at h ⊢; exact h.2

/-- What `C71_target` and `C71_sequence` say of it. -/
example : ∃ v S, feed 9 tvConf (newVar tvConf false 1) tvUnits = .ok v ∧ Output tvConf tvProg tvUnits v S ∧
    (∃ t m x, v.playlists.getLast? = some t ∧ Spec.parse t = some m ∧ m.target = some x ∧ ∀ e ∈ m.segs, (e.1 + 500) / 1000 ≤ x) ∧
    (∃ t m, v.playlists.getLast? = some t ∧ Spec.parse t = some m ∧ m.segs.length = 3 ∧ m.seq = 1) := by
  obtain ⟨v, h, h2⟩ := view_ok tv_view
  obtain ⟨S, O⟩ := C71_output 9 tvConf false 1 (pic true 0) _ v (by decide) (by decide +kernel) h
  have h1 : S.length ≠ 1 := by rw [O.parts.2.2, h2]; decide
  have hr : Rising tvUnits := by unfold Rising; decide +kernel
  refine ⟨v, S, h, O, ?_, ?_⟩
  · exact C71_target tvConf _ _ v S O (by decide +kernel) (by decide) (by decide) (.inr (List.Pairwise.imp (fun h => Nat.le_of_lt h) hr))
      (near_split _ (by decide +kernel)) h1
  · obtain ⟨t, m, a, b, d, e, -⟩ := C71_sequence tvConf _ _ v S O (by decide +kernel) (.inr hr) h1
    exact ⟨t, m, a, b, by rw [d, h2]; rfl, by rw [e, h2]; rfl⟩

/-- At the end the segment that was open is listed, with the time to its last unit. -/
example : (match feed 9 tvConf (newVar tvConf false 1) (tvUnits ++ [sound 54900]) with
    | .ok v => view (finish tvConf v [54000, 54900])
    | _ => none).map (fun (x : Nat × List Nat × Nat × Option Spec.Media × Nat) => x.2.2.2.1) =
    some (some { seq := 2, target := some 1, segs := [(147, "2.ts".toList), (120, "3.ts".toList), (10, "4.ts".toList)], ended := true }) := by decide +kernel

/-- Two programs; the master playlist is there when both have a bandwidth. -/
def twoEvs : List Ev := [.pat [1, 7]] ++ (tvUnits.take 5).flatMap (fun u => [.pes 0 u.1 u.2.1 u.2.2, .pes 1 { u.1 with number := 7, pid := 0x1001 } u.2.1 u.2.2]) ++
  (tvUnits.drop 5).map fun u => .pes 0 u.1 u.2.1 u.2.2

def viewAll : R Hls → Option (List Nat × Option (List (Nat × Text)))
  | .ok h => some ((h.vars.getD []).map (·.seg), h.masters.getLast?.bind Spec.parseMaster)
  | _ => none

/-- Hypotheses of `C71_programs`, `C71_master` and `C71_masters`. -/
example : viewAll (run 9 tvConf {} twoEvs) = some ([4, 1], some [(40200, "1.m3u8".toList), (40200, "7.m3u8".toList)]) := by decide +kernel

/-- Hypotheses of `C71_keep` and `C71_keep_list`: six segments of 10 s each, files in seconds. -/
example : ∃ done : Nat → Nat, (∀ j, done (j + 1) ≤ done j + 10000) ∧ done 3 ≤ 39960 + 40 ∧ 99999 < done (3 + 6) ∧ 6 * 10000 + 40 + 2000 ≤ 2 * (10000 * 6) :=
  ⟨fun j => (j + 1) * 10000, by intro j; dsimp only; omega, by decide, by decide, by decide⟩

/-! ### Where it is wrong -/

/-- The counter of time in a transport stream starts again from 0 after 26.5 hours. A segment that is open then is not closed until the times of units are
past those from before, if there is no limit of its size: all units go to one file and no playlist is written. -/
theorem C71_wrap_violation (n : Nat) (c : Conf) (multi : Bool) (number : Nat) (u0 : U) (us : List U) (v : Var) (hP : Tellable u0.1) (hf : ∀ u ∈ u0 :: us, Fits u) (hc : c.maxSize = 0)
    (hw : ∀ u ∈ us, u.2.1.dts < u0.2.1.dts + c.minSeg * 90) (h : feed n c (newVar c multi number) (u0 :: us) = .ok v) : v.seg = 0 ∧ v.playlists = [] := by
  obtain ⟨S, O⟩ := C71_output n c multi number u0 us v hP hf h
  have hS : S.length = 1 := by
    rcases S with - | ⟨s, - | ⟨t, S⟩⟩
    · have := O.parts.2.2; simp at this
    · rfl
    · exfalso
      have hs : s ≠ [] := O.parts.2.1 s (by simp)
      have ht : t ≠ [] := O.parts.2.1 t (by simp)
      obtain ⟨x, s', rfl⟩ := List.exists_cons_of_ne_nil hs
      obtain ⟨y, t', rfl⟩ := List.exists_cons_of_ne_nil ht
      have hfl := O.parts.1
      simp only [List.flatten_cons, List.cons_append, List.cons.injEq] at hfl
      have hy : y ∈ us := by rw [← hfl.2]; simp
      have := cut_after O (fun _ _ => .inl hc) (j := 0) (s := x :: s') (u := y) (r := t') rfl rfl
      have hy' := hw y hy
      unfold since firstDts at this
      dsimp only at this
      rw [hfl.1] at this
      omega
  refine ⟨by have := O.parts.2.2; omega, ?_⟩
  rcases O.list with ⟨-, a⟩ | ⟨a, -⟩
  · exact a
  · exact absurd hS a

/-- Hypotheses of `C71_wrap_violation`: the time starts again after the first picture, then there are key frames each 10 s. -/
def wrapUnits : List U := [pic true (2 ^ 33 - 3600), sound 0] ++ (List.range 40).map fun i => pic true (i * 900000)

example : ∃ v, feed 9 { maxSize := 0 } (newVar {} false 1) wrapUnits = .ok v ∧ v.seg = 0 ∧ v.playlists = [] ∧ (v.disk 0).length = 2 + 3 + 2 * 40 := by
  have h : (match feed 9 { maxSize := 0 } (newVar {} false 1) wrapUnits with
      | .ok v => some (v.disk 0).length
      | _ => none) = some 85 := by decide +kernel
  revert h
  cases hr : feed 9 { maxSize := 0 } (newVar {} false 1) wrapUnits with
  | ok v =>
    intro h
    injection h with h
    have := C71_wrap_violation 9 { maxSize := 0 } false 1 (pic true (2 ^ 33 - 3600)) _ v (by decide) (by decide +kernel) rfl (by decide +kernel) hr
    exact ⟨v, rfl, this.1, this.2, h⟩
  | error => intro h; cases h
  | crash => intro h; cases h
  | more => intro h; cases h

/-- With a limit of the size, the segment in which time starts again is listed with more than six million years, past the target duration. -/
theorem C71_wrap_size_violation : (∀ u ∈ wrapUnits, Fits u ∧ Tellable u.1) ∧
    (view (feed 9 { maxSize := 3000 } (newVar {} false 1) (wrapUnits.take 9))).map (fun x => x.2.2.2.1) =
      some (some { seq := 0, target := some 10, segs := [(204963822945833562, "0.ts".toList)] }) := by
  refine ⟨by decide +kernel, by decide +kernel⟩

/-- A segment that has its size before the time of units changes lasts no time: it is on disk but in no list, and the numbers in the list are not what
`EXT-X-MEDIA-SEQUENCE` says. -/
theorem C71_zero_violation : (∀ u ∈ [pic true 0, sound 0, pic true 9000, pic true 18000], Fits u ∧ Tellable u.1) ∧
    view (feed 9 { tvConf with maxSize := 700 } (newVar tvConf false 1) [pic true 0, sound 0, pic true 9000, pic true 18000]) =
      some (3, [4, 3, 4, 4], 3, some { seq := 0, target := some 1, segs := [(100, "1.ts".toList), (100, "2.ts".toList)] }, 32240) := by
  refine ⟨by decide +kernel, by decide +kernel⟩

/-- A unit that comes late makes a segment longer than the target duration: here 4 s with a target of 1 s. -/
theorem C71_target_violation : (∀ u ∈ [pic true 0, pic true 360000], Fits u ∧ Tellable u.1) ∧
    (view (feed 9 tvConf (newVar tvConf false 1) [pic true 0, pic true 360000])).map (fun x => x.2.2.2.1) =
      some (some { seq := 0, target := some 1, segs := [(4000, "0.ts".toList)] }) := by
  refine ⟨by decide +kernel, by decide +kernel⟩

/-- If the last segment has one unit, or only units of one time, it is not listed at the end, though its file is there. -/
theorem C71_tail_violation : (match feed 9 tvConf (newVar tvConf false 1) tvUnits with
    | .ok v => view (finish tvConf v [54000, 30000])
    | _ => none).map (fun (x : Nat × List Nat × Nat × Option Spec.Media × Nat) => (x.2.1, x.2.2.2.1)) =
    some ([7, 7, 5, 4, 4, 0], some { seq := 2, target := some 1, segs := [(147, "2.ts".toList), (120, "3.ts".toList)], ended := true }) := by decide +kernel

/-- The first segment starts with whatever comes first, which need not be a picture that can be played. -/
theorem C71_first_violation : ∃ u : U, Fits u ∧ Tellable u.1 ∧ u.2.1.video = true ∧ u.2.1.rand = false ∧ ∃ N v, ∀ n, N ≤ n → feed n tvConf (newVar tvConf false 1) [u] = .ok v :=
  ⟨pic false 0, by decide, by decide, rfl, rfl, C71_total tvConf (by decide) (by decide) false 1 [pic false 0] (by decide)⟩

/-- `segment=0` without `analyze`: the first unit divides by zero. -/
theorem C71_analyze_violation (n : Nat) (c : Conf) (ha : c.analyze = 0) (multi : Bool) (number : Nat) (u : U) (us : List U) :
    feed n c (newVar c multi number) (u :: us) = .crash := by
  have : updateBandwidth c (newVar c multi number) u.2.2 u.2.1.pts = .crash := by
    unfold updateBandwidth
    rw [if_neg (by simp [newVar])]
    dsimp only
    rw [if_pos (show (newVar c multi number).bwBytes = 0 from rfl), Int.sub_self, if_pos (by omega), if_pos rfl]
  simp only [feed]
  unfold unit
  rw [this]
  rfl

/-- `segments=0`: the end of a stream divides by zero, if not the end of the first segment. -/
theorem C71_segments_violation (c : Conf) (v : Var) (dts : List Nat) (h : v.segs = []) : finish c v dts = .crash := by
  unfold finish
  rw [h]
  rfl

/-- If the first PAT has no program, no unit of any later program is taken. -/
theorem C71_pat_violation (n : Nat) (c : Conf) (numbers : List Nat) (i : Nat) (u : U) (h : u.2.1.ptsf = true) (evs : List Ev) :
    run n c {} (.pat [] :: .pat numbers :: .pes i u.1 u.2.1 u.2.2 :: evs) = .error := by
  simp [run, handle, R.bind, h]

theorem feed_none {n c v} {v' : Var} (h : feed n c v [] = .ok v') : v' = v := by
  simp only [feed] at h
  injection h with h
  exact h.symm

/-- As long as one program of several has no unit, there is no master playlist, so none of the others can be found. -/
theorem C71_silent_violation (n : Nat) (c : Conf) (numbers : List Nat) (evs : List Ev) (h : Hls) (i : Nat) (hi : i < numbers.length) (hu : unitsOf i evs = [])
    (hr : run n c {} (.pat numbers :: evs) = .ok h) : h.masters = [] := by
  have key : ∀ evs (h h' : Hls) vs v, h.vars = some vs → vs[i]? = some v → v.bandwidth = 0 → unitsOf i evs = [] → run n c h evs = .ok h' → h'.masters = h.masters := by
    intro evs
    induction evs with
    | nil =>
      intro h h' vs v _ _ _ _ hr
      simp only [run] at hr
      injection hr with hr
      rw [hr]
    | cons ev evs ih =>
      intro h h' vs v hv hvi hb hu hr
      simp only [run] at hr
      obtain ⟨h1, g1, g2⟩ := bind_ok hr
      cases ev with
      | pat numbers =>
        simp only [handle, hv] at g1
        injection g1 with g1
        subst g1
        exact ih h h' vs v hv hvi hb (by simpa [unitsOf] using hu) g2
      | pes j P e b =>
        simp only [handle] at g1
        split at g1
        · rename_i hp
          injection g1 with g1
          subst g1
          exact ih h h' vs v hv hvi hb (by simpa [unitsOf, hp] using hu) g2
        · rename_i hp
          rw [hv, Option.getD_some] at g1
          split at g1
          · cases g1
          obtain ⟨x, g3, g4⟩ := bind_ok g1
          injection g4 with g4
          have hij : j ≠ i := by
            rintro rfl
            simp [unitsOf, hp] at hu
          have hvi' : (vs.set j x.1)[i]? = some v := by rw [List.getElem?_set_ne hij]; exact hvi
          have hm : master (vs.set j x.1) = none := by
            unfold master
            split
            · rfl
            · rw [if_pos (List.any_eq_true.2 ⟨v, List.mem_of_getElem? hvi', by simp [hb]⟩)]
          subst g4
          have := ih _ h' (vs.set j x.1) v rfl hvi' hb (by simpa [unitsOf, hij] using hu) g2
          rw [this]
          simp [hm]
  simp only [run] at hr
  obtain ⟨h1, g1, g2⟩ := bind_ok hr
  simp only [handle] at g1
  injection g1 with g1
  subst g1
  exact key evs _ h _ (newVar c (decide (1 < numbers.length)) numbers[i]) rfl (by rw [List.getElem?_map, List.getElem?_eq_getElem hi]; rfl) rfl hu g2

/-- Units without times are in no file. -/
theorem C71_timeless_violation (n : Nat) (c : Conf) (h : Hls) (i : Nat) (P : Prog) (e : Es) (b : List Bytes) (hp : e.ptsf = false) : handle n c h (.pes i P e b) = .ok h := by
  simp [handle, hp]

/-- Every other file below the path is deleted as soon as it is seen, such as MPD and MP4 files of DASH output. -/
theorem C71_foreign_violation (c : Conf) : deleted c "/var/media/hls/tv/index.mpd".toList 0 = true ∧ deleted c "/var/media/hls/tv/1.mp4".toList 0 = true ∧
    deleted c "/var/media/hls/crossdomain.xml".toList 0 = true := by
  refine ⟨?_, ?_, ?_⟩ <;>
  · unfold deleted maxAge
    simp

end Verif.TsHls
