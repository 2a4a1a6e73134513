import Verif.Dash.Mp4Track
/-
C67: a DASH media segment gives back the frames of its fragment.
-/
namespace Verif.Mp4
open Verif

/-- What a player should get for the frames of a fragment: video samples have flags (sample_is_non_sync_sample) and composition offsets. -/
def wanted (video : Bool) : List Frame → List Got
  | [] => []
  | f :: l => ⟨f.bytes, some (match l with | [] => 0 | g :: _ => gap f.timestamp g.timestamp),
      if video then some (if f.key then 0 else 2 ^ 16) else none, if video then some f.delay else none⟩ :: wanted video l

/-- What a sample says, for a video or audio track. -/
theorem entry_sizes (video : Bool) (ks : List Frame) (hs : ∀ f ∈ ks, f.bytes.length ≤ 1048576) :
    ((samplesOf ks).map (entryOf (if video then 15 else 3))).filterMap (·.size) = (ks.map (·.bytes)).map List.length := by
  have hm : hasSize (if video then 15 else 3) = true := by cases video <;> decide
  induction ks with
  | nil => rfl
  | cons f l ih =>
    have h1 := hs f List.mem_cons_self
    simp only [samplesOf, List.map_cons, List.filterMap_cons, entryOf, hm, if_true]
    rw [Nat.mod_eq_of_lt (by omega)]
    rw [← ih fun g hg => hs g (List.mem_cons_of_mem _ hg)]

theorem entry_wanted (video : Bool) (ks : List Frame) (ht : Timed ks) :
    (((samplesOf ks).map (entryOf (if video then 15 else 3))).zip (ks.map (·.bytes))).map (fun p => (⟨p.2, p.1.duration, p.1.flags, p.1.offset⟩ : Got)) =
      wanted video ks := by
  induction ks with
  | nil => rfl
  | cons f l ih =>
    have h1 := ht f List.mem_cons_self
    have := ih fun g hg => ht g (List.mem_cons_of_mem _ hg)
    simp only [samplesOf, List.map_cons, List.zip_cons_cons, wanted]
    rw [this]
    simp only [List.cons.injEq, and_true, entryOf]
    have hd : hasDuration (if video then 15 else 3) = true := by cases video <;> decide
    have hk : hasKey (if video then 15 else 3) = video := by cases video <;> decide
    have hl : hasDelay (if video then 15 else 3) = video := by cases video <;> decide
    rw [hd, hk, hl, Nat.mod_eq_of_lt h1.2]
    simp only [if_true]
    cases l with
    | nil => simp
    | cons g l => simp [gap]

theorem tags : str "styp" ≠ str "moof" ∧ str "styp" ≠ str "mdat" ∧ str "styp" ≠ str "sidx" ∧ str "sidx" ≠ str "moof" ∧ str "sidx" ≠ str "mdat" ∧
    str "moof" ≠ str "mdat" ∧ str "moof" ≠ str "sidx" ∧ str "mdat" ≠ str "moof" ∧ str "mdat" ≠ str "sidx" ∧ str "mfhd" ≠ str "traf" ∧ str "traf" ≠ str "mfhd" ∧
    str "tfhd" ≠ str "tfdt" ∧ str "tfhd" ≠ str "trun" ∧ str "tfdt" ≠ str "tfhd" ∧ str "tfdt" ≠ str "trun" ∧ str "trun" ≠ str "tfhd" ∧ str "trun" ≠ str "tfdt" ∧
    (∀ s, tag s = str s) := by
  refine ⟨?_, ?_, ?_, ?_, ?_, ?_, ?_, ?_, ?_, ?_, ?_, ?_, ?_, ?_, ?_, ?_, ?_, fun s => rfl⟩ <;> decide +kernel

/-- The file of a fragment read back. -/
theorem readSegment_file {id : Nat} {video : Bool} {t : Track} {ks : List Frame} (h : Holds id video t ks) (hk : ks.length ≤ 1024) (hid : id < 2 ^ 32)
    (hs : ∀ f ∈ ks, f.bytes.length ≤ 1048576) (ht : Timed ks) :
    readSegment (headText t ++ t.raw) = some ⟨id, firstTime ks, wanted video ks⟩ := by
  obtain ⟨n1, n2, n3, n4, n5, n6, n7, n8, n9, n10, n11, n12, n13, n14, n15, n16, n17, hts⟩ := tags
  have hl := holds_len h hk
  have hraw : t.raw.length ≤ 2 ^ 30 := by
    rw [h.raw]
    have := total_le ks hs
    omega
  unfold readSegment
  rw [boxes_file t hl h.mdat hraw]
  simp only [Option.bind_some]
  have a1 : ∀ a b c d : Box, a.type = tag "styp" → b.type = tag "sidx" → c.type = tag "moof" → d.type = tag "mdat" →
      the (str "moof") [a, b, c, d] = some c ∧ the (str "mdat") [a, b, c, d] = some d := by
    intro a b c d ha hb hc hd
    simp [the, ha, hb, hc, hd, n1, n2, n4, n5, n6, n8, hts]
  have a2 : ∀ a b : Box, a.type = tag "mfhd" → b.type = tag "traf" → the (str "mfhd") [a, b] = some a ∧ the (str "traf") [a, b] = some b := by
    intro a b ha hb
    simp [the, ha, hb, n10, n11, hts]
  have a3 : ∀ a b c : Box, a.type = tag "tfhd" → b.type = tag "tfdt" → c.type = tag "trun" →
      the (str "tfhd") [a, b, c] = some a ∧ the (str "tfdt") [a, b, c] = some b ∧ the (str "trun") [a, b, c] = some c := by
    intro a b c ha hb hc
    simp [the, ha, hb, hc, n12, n13, n14, n15, n16, n17, hts]
  rw [(a1 _ _ _ _ rfl rfl rfl rfl).1]
  simp only [Option.bind_some]
  rw [(a1 _ _ _ _ rfl rfl rfl rfl).2]
  simp only [Option.bind_some]
  rw [boxes_moof _ _ _ _ hl]
  simp only [Option.bind_some]
  rw [(a2 _ _ rfl rfl).1]
  simp only [Option.bind_some]
  rw [(a2 _ _ rfl rfl).2]
  simp only [Option.bind_some]
  rw [boxes_traf _ _ _ hl]
  simp only [Option.bind_some]
  rw [(a3 _ _ _ rfl rfl rfl).1]
  simp only [Option.bind_some]
  rw [(a3 _ _ _ rfl rfl rfl).2.1]
  simp only [Option.bind_some]
  rw [(a3 _ _ _ rfl rfl rfl).2.2]
  simp only [Option.bind_some]
  rw [readRun_body _ hl, readTime_body]
  simp only [Option.bind_some]
  have hseq : num 4 ((mfhdBody t.id).drop 4) = some (id, []) := by
    unfold mfhdBody
    rw [List.drop_left' (beEnc_length ..), num_last, h.id, Nat.mod_eq_of_lt (by omega)]
  rw [hseq]
  simp only [Option.bind_some]
  rw [if_pos baseIsMoof_body]
  have htime : t.earliest % 2 ^ 32 = firstTime ks := by
    rw [h.earliest]
    cases ks with
    | nil => rfl
    | cons f l => exact Nat.mod_eq_of_lt (ht f List.mem_cons_self).1
  have hes : (t.samples.map (entryOf t.mask)).filterMap (·.size) = (ks.map (·.bytes)).map List.length := by
    rw [h.samples, h.mask]
    exact entry_sizes video ks hs
  have hsum : ((ks.map (·.bytes)).map List.length).sum = t.raw.length := by
    rw [h.raw, List.length_flatten]
  have hd : (headText t ++ t.raw).drop (72 + dataOff t.mask t.samples) = t.raw := by
    apply List.drop_left'
    have l3 := moof_len t.earliest t.samples t.mask t.id
    have ho : 8 ≤ dataOff t.mask t.samples := by unfold dataOff; omega
    have ht4 : (tag "mdat").length = 4 := by decide +kernel
    unfold headText
    simp only [List.length_append, styp_len, sidx_len, l3, beEnc_length, ht4]
    omega
  rw [hes, hsum, htime, hd]
  rw [if_pos ⟨by rw [h.samples]; simp [samplesOf_length], by omega, by omega⟩]
  have hp : pieces ((ks.map (·.bytes)).map List.length) t.raw = some (ks.map (·.bytes)) := by
    have := pieces_sizes (ks.map (·.bytes)) []
    rwa [List.append_nil, ← h.raw] at this
  rw [hp]
  simp only [Option.map_some]
  rw [h.samples, h.mask, entry_wanted video ks ht]

/-! ### C67 -/

theorem kept_timed {fs : List Frame} (h : Timed fs) : Timed (kept fs) := by
  intro f hf
  unfold kept at hf
  obtain ⟨g, hg, e⟩ := List.mem_map.1 hf
  subst e
  exact h g (List.mem_of_mem_take hg)

theorem kept_all {fs : List Frame} (hn : fs.length ≤ 1024) (hs : ∀ f ∈ fs, f.bytes.length ≤ 1048576) : kept fs = fs := by
  unfold kept
  rw [List.take_of_length_le hn]
  conv => rhs; rw [← List.map_id fs]
  apply List.map_congr_left
  intro f hf
  have := hs f hf
  rw [List.take_of_length_le this]
  rfl

/-- Whatever the frames of a fragment are, the file that is written for it is a row of the four boxes, and a reader of it gets the first 1024 frames, each cut
after 1 MiB, with their times, flags and offsets. -/
theorem C67_segment (id : Nat) (video : Bool) (fs : List Frame) (junk : Bytes) (hj : junk.length = 44) (hid : id < 2 ^ 32) (ht : Timed fs) :
    ∃ file, segment (record id video fs) junk = some file ∧ readSegment file = some ⟨id, firstTime (kept fs), wanted video (kept fs)⟩ ∧
      (boxes file).map (fun bs => bs.map (·.type)) = some [str "styp", str "sidx", str "moof", str "mdat"] := by
  have h := record_holds id video fs
  have hk := kept_length_le fs
  have hs := kept_small fs
  refine ⟨_, segment_eq h hk hj, readSegment_file h hk hid hs (kept_timed ht), ?_⟩
  have hraw : (record id video fs).raw.length ≤ 2 ^ 30 := by
    rw [h.raw]
    have := total_le _ hs
    omega
  rw [boxes_file _ (holds_len h hk) h.mdat hraw]
  rfl

/-- So every frame of a fragment is in its file, as it came, if there are at most 1024 and none has more than 1 MiB. -/
theorem C67_frames_partial (id : Nat) (video : Bool) (fs : List Frame) (junk : Bytes) (hj : junk.length = 44) (hid : id < 2 ^ 32) (ht : Timed fs)
    (hn : fs.length ≤ 1024) (hs : ∀ f ∈ fs, f.bytes.length ≤ 1048576) :
    (segment (record id video fs) junk).bind readSegment = some ⟨id, firstTime fs, wanted video fs⟩ := by
  obtain ⟨file, h1, h2, -⟩ := C67_segment id video fs junk hj hid ht
  rw [kept_all hn hs] at h2
  rw [h1]
  exact h2

/-- Three frames of a stream. -/
def threeFrames : List Frame := [⟨[1, 2, 3], true, 1000, 80⟩, ⟨[4], false, 1040, 0⟩, ⟨[5, 6], false, 1080, 40⟩]

example : (segment (record 7 true threeFrames) (List.replicate 44 0)).bind readSegment =
    some ⟨7, 1000, [⟨[1, 2, 3], some 40, some 0, some 80⟩, ⟨[4], some 40, some 65536, some 0⟩, ⟨[5, 6], some 0, some 65536, some 40⟩]⟩ :=
  C67_frames_partial 7 true threeFrames _ (by simp) (by decide) (by decide) (by decide) (by decide)

/-- Sum of 32-bit times. -/
def plus (a b : Nat) : Nat := (a + b) % 2 ^ 32

/-- When the samples of a segment are decoded: the time of the first, then each after the length of the one before; and when the segment ends. -/
def decodeTimes : Nat → List Got → List Nat × Nat
  | t, [] => ([], t)
  | t, g :: l => (t :: (decodeTimes (plus t (g.duration.getD 0)) l).1, (decodeTimes (plus t (g.duration.getD 0)) l).2)

theorem plus_gap {a b : Nat} (ha : a < 2 ^ 32) (hb : b < 2 ^ 32) : plus a (gap a b) = b := by
  unfold plus gap
  omega

theorem plus_zero {a : Nat} (ha : a < 2 ^ 32) : plus a 0 = a := by
  unfold plus
  omega

theorem decodeTimes_cons (t d : Nat) (b : Bytes) (fl o : Option Nat) (l : List Got) :
    decodeTimes t (⟨b, some d, fl, o⟩ :: l) = (t :: (decodeTimes (plus t d) l).1, (decodeTimes (plus t d) l).2) := by
  rw [decodeTimes]
  rfl

theorem wanted_one (video : Bool) (f : Frame) : ∃ fl o, wanted video [f] = [⟨f.bytes, some 0, fl, o⟩] := ⟨_, _, rfl⟩

theorem wanted_two (video : Bool) (f g : Frame) (l : List Frame) :
    ∃ fl o, wanted video (f :: g :: l) = ⟨f.bytes, some (gap f.timestamp g.timestamp), fl, o⟩ :: wanted video (g :: l) := ⟨_, _, rfl⟩

theorem decodeTimes_wanted (video : Bool) (fs : List Frame) (ht : Timed fs) (hne : fs ≠ []) :
    decodeTimes (firstTime fs) (wanted video fs) = (fs.map (·.timestamp), (fs.getLast hne).timestamp) := by
  induction fs with
  | nil => exact absurd rfl hne
  | cons f l ih =>
    have h1 := ht f List.mem_cons_self
    cases l with
    | nil =>
      obtain ⟨fl, o, e⟩ := wanted_one video f
      rw [e, decodeTimes_cons, firstTime, plus_zero h1.1]
      rfl
    | cons g l =>
      have hg := ht g (List.mem_cons_of_mem _ List.mem_cons_self)
      have := ih (fun x hx => ht x (List.mem_cons_of_mem _ hx)) (List.cons_ne_nil g l)
      obtain ⟨fl, o, e⟩ := wanted_two video f g l
      rw [e, decodeTimes_cons, firstTime, plus_gap h1.1 hg.1]
      rw [firstTime] at this
      rw [this, List.map_cons (a := f), List.getLast_cons (a := f) (List.cons_ne_nil g l)]

/-- Every sample is decoded at the time of its frame. -/
theorem C67_times (id : Nat) (video : Bool) (fs : List Frame) (junk : Bytes) (hj : junk.length = 44) (hid : id < 2 ^ 32) (ht : Timed fs) (hne : kept fs ≠ []) :
    ∃ seg, (segment (record id video fs) junk).bind readSegment = some seg ∧
      decodeTimes seg.time seg.samples = ((kept fs).map (·.timestamp), ((kept fs).getLast hne).timestamp) := by
  obtain ⟨file, h1, h2, -⟩ := C67_segment id video fs junk hj hid ht
  rw [h1]
  exact ⟨_, h2, decodeTimes_wanted video _ (kept_timed ht) hne⟩

example : ∃ seg, (segment (record 7 true threeFrames) (List.replicate 44 0)).bind readSegment = some seg ∧
    decodeTimes seg.time seg.samples = ([1000, 1040, 1080], 1080) :=
  C67_times 7 true threeFrames _ (by simp) (by decide) (by decide) (by decide)

/-- The segment does not last to the next one: it ends with the time of its last frame, which has no length. -/
theorem C67_last_violation (id : Nat) (video : Bool) (fs : List Frame) (f next : Frame) (junk : Bytes) (hj : junk.length = 44) (hid : id < 2 ^ 32)
    (ht : Timed (fs ++ [f])) (hn : fs.length < 1024) (hlt : f.timestamp < next.timestamp) :
    ∃ seg, (segment (record id video (fs ++ [f])) junk).bind readSegment = some seg ∧ (decodeTimes seg.time seg.samples).2 < next.timestamp := by
  have hk : kept (fs ++ [f]) ≠ [] := by rw [kept_concat f hn]; simp
  obtain ⟨seg, h1, h2⟩ := C67_times id video (fs ++ [f]) junk hj hid ht hk
  refine ⟨seg, h1, ?_⟩
  rw [h2]
  simp only [kept_concat f hn, List.getLast_append, List.getLast_singleton]
  exact hlt

example : ∃ seg, (segment (record 7 true threeFrames) (List.replicate 44 0)).bind readSegment = some seg ∧ (decodeTimes seg.time seg.samples).2 < 1120 :=
  C67_last_violation 7 true [⟨[1, 2, 3], true, 1000, 80⟩, ⟨[4], false, 1040, 0⟩] ⟨[5, 6], false, 1080, 40⟩ ⟨[], true, 1120, 0⟩ _ (by simp) (by decide) (by decide)
    (by decide) (by decide)

/-- A frame after 1024 is not in the segment. -/
theorem C67_dropped_violation (id : Nat) (video : Bool) (fs : List Frame) (f : Frame) (junk : Bytes) (hj : junk.length = 44) (hid : id < 2 ^ 32)
    (ht : Timed (fs ++ [f])) (hn : 1024 ≤ fs.length) :
    ∃ seg, (segment (record id video (fs ++ [f])) junk).bind readSegment = some seg ∧ (segment (record id video fs) junk).bind readSegment = some seg := by
  obtain ⟨f1, h1, h2, -⟩ := C67_segment id video (fs ++ [f]) junk hj hid ht
  obtain ⟨f2, h3, h4, -⟩ := C67_segment id video fs junk hj hid fun g hg => ht g (List.mem_append_left _ hg)
  rw [kept_full f (by omega)] at h2
  rw [h1, h3]
  exact ⟨_, h2, h4⟩

example : (List.replicate 1024 (⟨[1], true, 0, 0⟩ : Frame)).length = 1024 ∧ Timed (List.replicate 1024 ⟨[1], true, 0, 0⟩ ++ [⟨[2], false, 1, 0⟩]) := by
  refine ⟨List.length_replicate, ?_⟩
  intro f hf
  rcases List.mem_append.1 hf with h | h
  · rw [List.eq_of_mem_replicate h]; decide
  · rw [List.mem_singleton.1 h]; decide

/-- The index says how long the rest of the file is, but not where it begins. -/
theorem readIndex_file {id : Nat} {video : Bool} {t : Track} {ks : List Frame} (h : Holds id video t ks) (hk : ks.length ≤ 1024)
    (hs : ∀ f ∈ ks, f.bytes.length ≤ 1048576) (ht : Timed ks) :
    readIndex (headText t ++ t.raw) = some ⟨1000, firstTime ks, 72 + span (firstTime ks) t.latest, t.raw.length + dataOff t.mask t.samples,
      span (firstTime ks) t.latest⟩ ∧ (headText t ++ t.raw).length = 72 + (t.raw.length + dataOff t.mask t.samples) := by
  obtain ⟨n1, n2, n3, n4, n5, n6, n7, n8, n9, n10, n11, n12, n13, n14, n15, n16, n17, hts⟩ := tags
  have hl := holds_len h hk
  have hraw : t.raw.length ≤ 2 ^ 30 := by
    rw [h.raw]
    have := total_le ks hs
    omega
  have hd := dataOff_le t.mask hl
  constructor
  · unfold readIndex
    rw [boxes_file t hl h.mdat hraw]
    simp only [Option.bind_some]
    have a1 : ∀ a b c d : Box, a.type = tag "styp" → b.type = tag "sidx" → c.type = tag "moof" → d.type = tag "mdat" →
        the (str "sidx") [a, b, c, d] = some b := by
      intro a b c d ha hb hc hd
      simp [the, ha, hb, hc, hd, n3, n7, n9, hts]
    rw [a1 _ _ _ _ rfl rfl rfl rfl]
    simp only [Option.bind_some]
    have hlen : (sidxBody (t.mdatSize + dataOff t.mask t.samples) t.earliest t.latest).length = 36 := by simp [sidxBody, beEnc_length]
    rw [hlen]
    have hsp : span t.earliest t.latest < 2 ^ 32 := by unfold span; omega
    have he : t.earliest < 2 ^ 32 := by
      rw [h.earliest]
      cases ks with
      | nil => decide
      | cons f l => exact (ht f List.mem_cons_self).1
    unfold sidxBody
    simp only [List.append_assoc]
    unfold verFlags
    rw [num_cons]
    simp only [Option.map_some, Option.bind_some]
    rw [if_neg (by decide), num_cons]
    simp only [Option.bind_some]
    rw [num_cons]
    simp only [Option.bind_some]
    rw [num_cons]
    simp only [Option.bind_some]
    rw [num_cons]
    simp only [Option.bind_some]
    rw [num_cons]
    simp only [Option.bind_some]
    rw [num_cons]
    simp only [Option.bind_some]
    rw [if_neg (by decide), num_cons]
    simp only [Option.bind_some]
    rw [num_cons]
    simp only [Option.map_some]
    rw [← h.earliest, h.mdat]
    generalize span t.earliest t.latest = d at hsp
    have x1 : d % 256 ^ 4 = d := by omega
    have x2 : t.earliest % 256 ^ 4 = t.earliest := by omega
    have x3 : (t.raw.length + dataOff t.mask t.samples) % 256 ^ 4 % 2 ^ 31 = t.raw.length + dataOff t.mask t.samples := by omega
    rw [x1, x2, x3]
  · have l3 := moof_len t.earliest t.samples t.mask t.id
    have ho : 8 ≤ dataOff t.mask t.samples := by unfold dataOff; omega
    have ht4 : (tag "mdat").length = 4 := by decide +kernel
    unfold headText
    simp only [List.length_append, styp_len, sidx_len, l3, beEnc_length, ht4]
    omega

theorem latest_record (id : Nat) (video : Bool) (fs : List Frame) (f : Frame) : (record id video (fs ++ [f])).latest = f.timestamp := by
  rw [record_concat]
  unfold append
  dsimp only
  split <;> rfl

/-- The index has the size of all that comes after it, if it is read from its end: its length is the time from the first to the last frame, also of frames that
are not kept. -/
theorem C67_index_partial (id : Nat) (video : Bool) (fs : List Frame) (f : Frame) (junk : Bytes) (hj : junk.length = 44) (ht : Timed (fs ++ [f])) :
    ∃ file ix, segment (record id video (fs ++ [f])) junk = some file ∧ readIndex file = some ix ∧ 72 + ix.size = file.length ∧ ix.timescale = 1000 ∧
      ix.earliest = firstTime (kept (fs ++ [f])) ∧ ix.duration = gap (firstTime (kept (fs ++ [f]))) f.timestamp ∧ ix.from_ = 72 + ix.duration := by
  have h := record_holds id video (fs ++ [f])
  have hk := kept_length_le (fs ++ [f])
  obtain ⟨h1, h2⟩ := readIndex_file h hk (kept_small _) (kept_timed ht)
  rw [latest_record] at h1
  exact ⟨_, _, segment_eq h hk hj, h1, h2.symm, rfl, rfl, rfl, rfl⟩

/-- What the index points to begins too late and ends after the end of the file: its offset is the length in milliseconds. -/
theorem C67_index_violation (id : Nat) (video : Bool) (fs : List Frame) (f : Frame) (junk : Bytes) (hj : junk.length = 44) (ht : Timed (fs ++ [f]))
    (hlt : firstTime (kept (fs ++ [f])) < f.timestamp) :
    ∃ file ix, segment (record id video (fs ++ [f])) junk = some file ∧ readIndex file = some ix ∧ file.length < ix.from_ + ix.size := by
  obtain ⟨file, ix, h1, h2, h3, -, -, h6, h7⟩ := C67_index_partial id video fs f junk hj ht
  refine ⟨file, ix, h1, h2, ?_⟩
  have hb := (ht f (List.mem_append_right _ List.mem_cons_self)).1
  have : 0 < gap (firstTime (kept (fs ++ [f]))) f.timestamp := by unfold gap; omega
  omega

example : ∃ file ix, segment (record 7 true threeFrames) (List.replicate 44 0) = some file ∧ readIndex file = some ix ∧ file.length < ix.from_ + ix.size :=
  C67_index_violation 7 true [⟨[1, 2, 3], true, 1000, 80⟩, ⟨[4], false, 1040, 0⟩] ⟨[5, 6], false, 1080, 40⟩ _ (by simp) (by decide) (by decide)

/-! ### A disk that is full -/

theorem append_short {t : Track} (h : t.raw.length < t.mdatSize) (f : Frame) (w : Option Nat) : (append t f w).raw.length < (append t f w).mdatSize := by
  unfold append
  dsimp only
  split
  · cases w with
    | none => exact h
    | some n =>
      dsimp only
      rw [List.length_append, List.length_take]
      omega
  · exact h

/-- After one write that was cut short, the server never comes back from closing the fragment. -/
theorem C67_short_write_violation (t : Track) (f : Frame) (n : Nat) (more : List (Frame × Option Nat)) (junk : Bytes) (hm : t.raw.length ≤ t.mdatSize)
    (hc : t.samples.length < 1024) (hn : n < f.bytes.length) (h1 : f.bytes.length ≤ 1048576) :
    segment (more.foldl (fun t p => append t p.1 p.2) (append t f (some n))) junk = none := by
  have h0 : (append t f (some n)).raw.length < (append t f (some n)).mdatSize := by
    unfold append
    dsimp only
    rw [if_pos (show t.samples.length < maxSamples from hc)]
    have hcap : cap = 1048576 := rfl
    dsimp only
    rw [List.length_append, List.length_take, List.length_take]
    omega
  have : ∀ (l : List (Frame × Option Nat)) (t : Track), t.raw.length < t.mdatSize →
      (l.foldl (fun t p => append t p.1 p.2) t).raw.length < (l.foldl (fun t p => append t p.1 p.2) t).mdatSize := by
    intro l
    induction l with
    | nil => exact fun t h => h
    | cons p l ih => exact fun t h => ih _ (append_short h p.1 p.2)
  have hh := this more _ h0
  unfold segment
  rw [copyLoop_none _ _ hh]
  cases headers (more.foldl (fun t p => append t p.1 p.2) (append t f (some n))) junk <;> rfl

example : segment (append (openTrack 1 true) ⟨[1, 2], true, 0, 0⟩ (some 1)) (List.replicate 44 0) = none :=
  C67_short_write_violation (openTrack 1 true) ⟨[1, 2], true, 0, 0⟩ 1 [] _ (by decide) (by decide) (by decide) (by decide)

/-! ### The messages -/

/-- A frame of H.264 in a message (FLV, E.4.3): type and codec, 1 for a NALU, the composition time in 24 bits with a sign, and the data. -/
def flvVideo (key : Bool) (cts : Int) (payload : Bytes) : Bytes := (if key then 0x17 else 0x27) :: 1 :: (beEnc 3 (cts % 2 ^ 24).toNat ++ payload)

theorem beEnc3 (n : Nat) : beEnc 3 n = [UInt8.ofNat (n / 65536), UInt8.ofNat (n / 256), UInt8.ofNat n] := by
  simp [beEnc]

/-- The frame of a message has its data, is a key frame if it says so, and has its composition time if that is not negative. -/
theorem C67_message_partial (key : Bool) (cts : Int) (payload : Bytes) (ts : Nat) (h0 : 0 ≤ cts) (h1 : cts < 2 ^ 23) :
    videoFrame (flvVideo key cts payload) ts = some ⟨payload, key, ts, cts.toNat⟩ := by
  obtain ⟨n, rfl⟩ := Int.eq_ofNat_of_zero_le h0
  have hn : n < 2 ^ 23 := by omega
  have e : ((n : Int) % 2 ^ 24).toNat = n := by omega
  unfold flvVideo
  rw [e, beEnc3]
  unfold videoFrame
  simp only [List.cons_append, List.nil_append]
  rw [if_neg (by decide)]
  simp only [UInt8.toNat_ofNat', Option.some.injEq, Frame.mk.injEq, true_and]
  refine ⟨by cases key <;> decide, ?_⟩
  simp only [Int.toNat_natCast]
  omega

example : videoFrame (flvVideo true 80 [0, 0, 0, 1, 9]) 1000 = some ⟨[0, 0, 0, 1, 9], true, 1000, 80⟩ := by decide +kernel

/-- A frame of AAC in a message (FLV, E.4.2): format, 1 for a frame, and the data. -/
def flvAudio (format : UInt8) (payload : Bytes) : Bytes := format :: 1 :: payload

/-- The frame of an audio message has its data and its time; it is shown at once. -/
theorem C67_audio_message (format : UInt8) (payload : Bytes) (ts : Nat) :
    audioFrame (flvAudio format payload) ts = some ⟨payload, false, ts, 0⟩ := by
  simp [flvAudio, audioFrame]

example : audioFrame (flvAudio 0xaf [0x21, 0x10, 4]) 23 = some ⟨[0x21, 0x10, 4], false, 23, 0⟩ := C67_audio_message 0xaf [0x21, 0x10, 4] 23

/-- Configurations (0), and the end of a sequence (2), are not frames, whatever comes after them. -/
theorem C67_configuration (first second : UInt8) (payload : Bytes) (ts : Nat) (h : second = 0 ∨ second = 2) :
    videoFrame (first :: second :: payload) ts = none ∧ audioFrame (first :: second :: payload) ts = none := by
  have h1 : second ≠ 1 := by rcases h with rfl | rfl <;> decide
  refine ⟨?_, by simp [audioFrame, h1]⟩
  unfold videoFrame
  split
  · rename_i e
    cases e
    rw [if_pos h1]
  · rfl

example : videoFrame [0x17, 0, 0, 0, 0, 1, 0x64] 0 = none := (C67_configuration 0x17 0 [0, 0, 0, 1, 0x64] 0 (.inl rfl)).1

/-- A frame that is to be shown before its time is shown hours after it. -/
theorem C67_negative_violation (key : Bool) (cts : Int) (payload : Bytes) (ts : Nat) (h0 : cts < 0) (h1 : -2 ^ 23 ≤ cts) :
    ∃ f, videoFrame (flvVideo key cts payload) ts = some f ∧ (f.delay : Int) = cts + 2 ^ 24 := by
  obtain ⟨n, hn⟩ : ∃ n : Nat, (cts % 2 ^ 24).toNat = n ∧ (n : Int) = cts + 2 ^ 24 := ⟨_, rfl, by omega⟩
  have hlt : n < 2 ^ 24 := by omega
  unfold flvVideo
  rw [hn.1, beEnc3]
  unfold videoFrame
  simp only [List.cons_append, List.nil_append]
  rw [if_neg (by decide)]
  refine ⟨_, rfl, ?_⟩
  simp only [UInt8.toNat_ofNat']
  omega

example : (videoFrame (flvVideo false (-40) [1]) 1000).map (·.delay) = some 16777176 := by decide +kernel

/-- The handlers that come after this one (the record modules, MPEG-TS) do not get the message that came: its head is gone. -/
theorem C67_consumed_violation (key : Bool) (cts : Int) (payload : Bytes) : leftOver true (flvVideo key cts payload) = payload ∧
    ∀ b0 : UInt8, leftOver false (b0 :: 1 :: payload) = payload := by
  constructor
  · unfold leftOver flvVideo
    rw [beEnc3]
    simp [videoFrame]
  · intro b0
    simp [leftOver, audioFrame]

end Verif.Mp4
