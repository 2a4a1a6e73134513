import Verif.Dash.Mp4Lemmas
/-
The track of a fragment and its file, for C67 (`Mp4Props`).
-/
namespace Verif.Mp4
open Verif

/-- Difference of 32-bit times. -/
def gap (a b : Nat) : Nat := (b + 2 ^ 32 - a) % 2 ^ 32

/-- The frames that a fragment keeps. -/
def kept (fs : List Frame) : List Frame := (fs.take 1024).map fun f => { f with bytes := f.bytes.take 1048576 }

/-- The time of the first frame. -/
def firstTime : List Frame → Nat
  | [] => 0
  | f :: _ => f.timestamp

/-- Frames with times of 32 bits. -/
def Timed (fs : List Frame) : Prop := ∀ f ∈ fs, f.timestamp < 2 ^ 32 ∧ f.delay < 2 ^ 32

instance (fs : List Frame) : Decidable (Timed fs) := inferInstanceAs (Decidable (∀ f ∈ fs, f.timestamp < 2 ^ 32 ∧ f.delay < 2 ^ 32))

/-- The track after the frames, on a disk that takes every write. -/
def record (id : Nat) (video : Bool) (fs : List Frame) : Track := fs.foldl (fun t f => append t f (some f.bytes.length)) (openTrack id video)

/-! ### The track -/

/-- The samples of a list of frames. -/
def samplesOf : List Frame → List Sample
  | [] => []
  | f :: l => ⟨f.bytes.length, match l with | [] => 0 | g :: _ => gap f.timestamp g.timestamp, f.delay, f.timestamp, f.key⟩ :: samplesOf l

theorem samplesOf_length (fs : List Frame) : (samplesOf fs).length = fs.length := by
  induction fs with
  | nil => rfl
  | cons f l ih => simp [samplesOf, ih]

theorem setLast_cons (s : Sample) {l : List Sample} (h : l ≠ []) (ts : Nat) : setLast (s :: l) ts = s :: setLast l ts := by
  unfold setLast
  cases l with
  | nil => exact absurd rfl h
  | cons a l =>
    rw [List.getLast?_cons_cons]
    cases e : (a :: l).getLast? with
    | none => simp at e
    | some x => simp [List.dropLast]

theorem samplesOf_ne {g : Frame} {l : List Frame} : samplesOf (g :: l) ≠ [] := by simp [samplesOf]

theorem samplesOf_concat (fs : List Frame) (f : Frame) :
    samplesOf (fs ++ [f]) = setLast (samplesOf fs) f.timestamp ++ [⟨f.bytes.length, 0, f.delay, f.timestamp, f.key⟩] := by
  induction fs with
  | nil => rfl
  | cons g l ih =>
    cases l with
    | nil => rfl
    | cons g' l =>
      show _ :: samplesOf (g' :: l ++ [f]) = setLast (_ :: samplesOf (g' :: l)) f.timestamp ++ _
      rw [ih, setLast_cons _ samplesOf_ne]
      rfl

/-- The track after a list of kept frames. -/
structure Holds (id : Nat) (video : Bool) (t : Track) (ks : List Frame) : Prop where
  id : t.id = id
  mask : t.mask = if video then 15 else 3
  samples : t.samples = samplesOf ks
  raw : t.raw = (ks.map (·.bytes)).flatten
  mdat : t.mdatSize = t.raw.length
  earliest : t.earliest = firstTime ks

theorem kept_length_le (fs : List Frame) : (kept fs).length ≤ 1024 := by simp [kept]; omega

theorem kept_concat {fs : List Frame} (f : Frame) (h : fs.length < 1024) : kept (fs ++ [f]) = kept fs ++ [{ f with bytes := f.bytes.take 1048576 }] := by
  unfold kept
  rw [List.take_of_length_le (by simp; omega), List.take_of_length_le (by omega), List.map_append]
  rfl

theorem kept_full {fs : List Frame} (f : Frame) (h : ¬ fs.length < 1024) : kept (fs ++ [f]) = kept fs := by
  unfold kept
  rw [List.take_append_of_le_length (by omega)]

theorem kept_length (fs : List Frame) : (kept fs).length = min 1024 fs.length := by simp [kept]

theorem record_concat (id : Nat) (video : Bool) (fs : List Frame) (f : Frame) :
    record id video (fs ++ [f]) = append (record id video fs) f (some f.bytes.length) := by
  unfold record
  rw [List.foldl_append]
  rfl

theorem record_holds (id : Nat) (video : Bool) (fs : List Frame) : Holds id video (record id video fs) (kept fs) := by
  suffices H : ∀ n, ∀ fs : List Frame, fs.length = n → Holds id video (record id video fs) (kept fs) from H _ fs rfl
  intro n
  induction n with
  | zero =>
    intro fs h
    rw [List.length_eq_zero_iff] at h
    subst h
    exact ⟨rfl, rfl, rfl, rfl, rfl, rfl⟩
  | succ n ih =>
    intro fs hl
    rcases List.eq_nil_or_concat fs with e | ⟨l, f, e⟩
    · rw [e] at hl; exact absurd hl (by simp)
    · rw [List.concat_eq_append] at e
      subst e
      have hln : l.length = n := by simpa using hl
      have h := ih l hln
      rw [record_concat]
      generalize record id video l = t at h
      have hlen : t.samples.length = min 1024 l.length := by rw [h.samples, samplesOf_length, kept_length]
      have hm : maxSamples = 1024 := rfl
      unfold append
      dsimp only
      by_cases hc : l.length < 1024
      · rw [if_pos (by omega), kept_concat f hc]
        have hw : (f.bytes.take cap).take f.bytes.length = f.bytes.take cap := by
          apply List.take_of_length_le
          rw [List.length_take]; omega
        refine ⟨h.id, h.mask, ?_, ?_, ?_, ?_⟩
        · dsimp only
          rw [samplesOf_concat, h.samples]
          rfl
        · dsimp only
          rw [hw, List.map_append, List.flatten_append, h.raw]
          simp [cap]
        · dsimp only
          rw [hw, List.length_append, h.mdat]
        · dsimp only
          have hk := kept_length l
          have he := h.earliest
          cases hkl : kept l with
          | nil =>
            rw [hkl] at hk
            rw [if_pos (by rw [hlen, ← hk]; rfl)]
            rfl
          | cons a b =>
            rw [hkl] at hk he
            rw [if_neg (by rw [hlen, ← hk]; simp), he]
            rfl
      · rw [if_neg (by omega), kept_full f hc]
        refine ⟨h.id, h.mask, h.samples, h.raw, h.mdat, ?_⟩
        dsimp only
        rw [if_neg (by omega)]
        exact h.earliest

theorem holds_len {id : Nat} {video : Bool} {t : Track} {ks : List Frame} (h : Holds id video t ks) (hk : ks.length ≤ 1024) : t.samples.length ≤ 1024 := by
  rw [h.samples, samplesOf_length]; exact hk

/-- The file of a track. -/
theorem segment_eq {id : Nat} {video : Bool} {t : Track} {ks : List Frame} (h : Holds id video t ks) (hk : ks.length ≤ 1024) {junk : Bytes}
    (hj : junk.length = 44) : segment t junk = some (headText t ++ t.raw) := by
  unfold segment
  rw [headers_eq t junk hj (holds_len h hk), copyLoop_eq _ _ (by rw [h.mdat]; omega), h.mdat, List.take_length]
  rfl

theorem kept_small (fs : List Frame) : ∀ f ∈ kept fs, f.bytes.length ≤ 1048576 := by
  intro f hf
  unfold kept at hf
  obtain ⟨g, -, e⟩ := List.mem_map.1 hf
  subst e
  simp
  omega

theorem total_le (ks : List Frame) (hs : ∀ f ∈ ks, f.bytes.length ≤ 1048576) : (ks.map (·.bytes)).flatten.length ≤ ks.length * 1048576 := by
  induction ks with
  | nil => simp
  | cons f l ih =>
    have := ih fun g hg => hs g (List.mem_cons_of_mem _ hg)
    have h1 := hs f List.mem_cons_self
    rw [List.map_cons, List.flatten_cons, List.length_append, List.length_cons, Nat.succ_mul]
    omega

/-- The boxes of the file, with their places. -/
theorem boxes_file (t : Track) (h : t.samples.length ≤ 1024) (hm : t.mdatSize = t.raw.length) (hr : t.raw.length ≤ 2 ^ 30) :
    boxes (headText t ++ t.raw) = some [⟨0, tag "styp", stypBody⟩, ⟨28, tag "sidx", sidxBody (t.mdatSize + dataOff t.mask t.samples) t.earliest t.latest⟩,
      ⟨72, tag "moof", moofBody t.earliest t.samples t.mask t.id⟩, ⟨64 + dataOff t.mask t.samples, tag "mdat", t.raw⟩] := by
  have hd := dataOff_le t.mask h
  have ho : 8 ≤ dataOff t.mask t.samples := by unfold dataOff; omega
  have l1 := styp_len
  have l2 := sidx_len (t.mdatSize + dataOff t.mask t.samples) t.earliest t.latest
  have l3 := moof_len t.earliest t.samples t.mask t.id
  rw [boxText_length (by decide +kernel)] at l1 l2 l3
  have e : headText t ++ t.raw = boxText (tag "styp") stypBody ++ (boxText (tag "sidx") (sidxBody (t.mdatSize + dataOff t.mask t.samples) t.earliest t.latest) ++
      (boxText (tag "moof") (moofBody t.earliest t.samples t.mask t.id) ++ (boxText (tag "mdat") t.raw ++ []))) := by
    unfold headText
    have : beEnc 4 (t.mdatSize + 8) ++ tag "mdat" ++ t.raw = boxText (tag "mdat") t.raw := by
      unfold boxText
      rw [hm, Nat.add_comm]
    rw [List.append_nil, ← this]
    simp only [List.append_assoc]
  unfold boxes
  have hlen : ∃ k, (headText t ++ t.raw).length = k + 4 := by
    refine ⟨(headText t ++ t.raw).length - 4, ?_⟩
    rw [e, List.length_append, boxText_length (by decide +kernel)]
    omega
  obtain ⟨k, hk⟩ := hlen
  rw [hk, e]
  rw [boxesFrom_cons (k + 3) 0 (by decide +kernel) (by omega), boxesFrom_cons (k + 2) _ (by decide +kernel) (by omega),
    boxesFrom_cons (k + 1) _ (by decide +kernel) (by omega), boxesFrom_cons k _ (by decide +kernel) (by omega), boxesFrom_nil]
  simp only [Option.map_some, Option.some.injEq, List.cons.injEq, Box.mk.injEq, and_true, true_and]
  omega

theorem boxes_moof (time : Nat) (l : List Sample) (m id : Nat) (h : l.length ≤ 1024) :
    boxes (moofBody time l m id) = some [⟨0, tag "mfhd", mfhdBody id⟩, ⟨16, tag "traf", trafBody time l m⟩] := by
  have hd := dataOff_le m h
  have l3 := moof_len time l m id
  have l1 := mfhd_len id
  rw [boxText_length (by decide +kernel)] at l1 l3
  have l2 : (moofBody time l m id).length = 8 + (mfhdBody id).length + (8 + (trafBody time l m).length) := by
    unfold moofBody
    rw [List.length_append, boxText_length (by decide +kernel), boxText_length (by decide +kernel)]
  unfold boxes
  have hk : (moofBody time l m id).length = ((moofBody time l m id).length - 2) + 2 := by omega
  have e : moofBody time l m id = boxText (tag "mfhd") (mfhdBody id) ++ (boxText (tag "traf") (trafBody time l m) ++ []) := by
    rw [List.append_nil]; rfl
  rw [hk]
  conv => lhs; arg 3; rw [e]
  rw [boxesFrom_cons _ 0 (by decide +kernel) (by omega), boxesFrom_cons _ _ (by decide +kernel) (by omega), boxesFrom_nil]
  simp only [Option.map_some, Option.some.injEq, List.cons.injEq, Box.mk.injEq, and_true, true_and]
  omega

theorem boxes_traf (time : Nat) (l : List Sample) (m : Nat) (h : l.length ≤ 1024) :
    boxes (trafBody time l m) = some [⟨0, tag "tfhd", tfhdBody⟩, ⟨16, tag "tfdt", tfdtBody time⟩, ⟨32, tag "trun", runBody m l⟩] := by
  have hd := dataOff_le m h
  have l3 := moof_len time l m 0
  have l1 := tfhd_len
  have l4 := tfdt_len time
  rw [boxText_length (by decide +kernel)] at l1 l3 l4
  have l2 : (trafBody time l m).length = 8 + tfhdBody.length + (8 + (tfdtBody time).length) + (8 + (runBody m l).length) := by
    unfold trafBody
    rw [List.length_append, List.length_append, boxText_length (by decide +kernel), boxText_length (by decide +kernel), boxText_length (by decide +kernel)]
  have l5 : (moofBody time l m 0).length = 16 + (8 + (trafBody time l m).length) := by
    unfold moofBody
    rw [List.length_append, mfhd_len, boxText_length (by decide +kernel)]
  unfold boxes
  have hk : (trafBody time l m).length = ((trafBody time l m).length - 3) + 3 := by omega
  have e : trafBody time l m = boxText (tag "tfhd") tfhdBody ++ (boxText (tag "tfdt") (tfdtBody time) ++ (boxText (tag "trun") (runBody m l) ++ [])) := by
    rw [List.append_nil, ← List.append_assoc]; rfl
  rw [hk]
  conv => lhs; arg 3; rw [e]
  rw [boxesFrom_cons _ 0 (by decide +kernel) (by omega), boxesFrom_cons _ _ (by decide +kernel) (by omega), boxesFrom_cons _ _ (by decide +kernel) (by omega),
    boxesFrom_nil]
  simp only [Option.map_some, Option.some.injEq, List.cons.injEq, Box.mk.injEq, and_true, true_and]
  omega

end Verif.Mp4
