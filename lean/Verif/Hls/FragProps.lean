import Verif.Hls.FragCuts
import Verif.Hls.FragKeys
/-
C56: the playlist is the window of the last fragments, under names of their own.
C57: fragments join up in time and hold every frame once.
C58: every fragment can be decrypted with the key file its playlist names.
-/
namespace Verif.HlsFrag

/-- A configuration with 2 s fragments, three of them in the playlist, one key for two fragments. -/
def exCfg : Cfg := { fraglen := 2000, maxFraglen := 20000, win := 3, keys := true, fragsPerKey := 2 }

def key (t n : Nat) : Op := .video ⟨t * 90, true, n⟩ { rnd := some (n + 100) }
def inter (t n : Nat) : Op := .video ⟨t * 90, false, n⟩ { rnd := some (n + 100) }

/-- Six fragments, the third one longer, then a gap. -/
def exOps : List Op := [inter 0 0, key 40 1, inter 1000 2, key 2040 3, .audio (2100 * 90) false { rnd := some 7 }, key 4100 4, inter 7000 5, key 8100 6, key 10100 7, inter 40000 8, .close]

def exOld : List Frag := [{ id := 7, keyId := 7, dur := 180000 }, { id := 8, keyId := 7, dur := 180000 }]

/- C56 -/

/-- Whatever happens to the disk, with any naming: the playlist lists the last `win` finished fragments in order, its number is that of the first of them, and no entry is longer than the target duration. -/
theorem C56_window_partial (cfg : Cfg) (seq : Nat) (kf : Nat → Option Nat) (old : List Frag) (ops : List Op) (st : St)
    (h : run cfg (resume cfg seq kf old) ops = some st) (hd : st.done ≠ []) :
    ∃ p, st.list = some p ∧ Shows cfg.win seq (old ++ st.done.map (·.frag)) p ∧ TargetOk p ∧ cfg.fraglen / 1000 ≤ p.target := by
  have hi := (invW_keeps cfg seq old).run (ops := ops) (fun op _ => by cases op <;> trivial) (invW_resume cfg seq kf old) h
  rcases hi.hL with ⟨h1, _⟩ | h1
  · exact absurd h1 hd
  · exact h1

/-- With sequential names: every file gets the next number, so no file is written twice, and entry `i` of the playlist is file `seq + i`. -/
theorem C56_names_partial (cfg : Cfg) (seq : Nat) (kf : Nat → Option Nat) (old : List Frag) (ops : List Op) (st : St)
    (hn : cfg.naming = .sequential) (hg : cfg.gran = 0) (hold : ∀ i f, old[i]? = some f → f.id = seq + i)
    (h : run cfg (resume cfg seq kf old) ops = some st) :
    (∃ n, st.opens = (List.range n).map (fun i => seq + old.length + i)) ∧
    ∀ p, st.list = some p → ∀ i f, p.entries[i]? = some f → f.id = p.seq + i := by
  have hi := (invI_keeps cfg seq old hn hg).run (ops := ops) (fun op _ => by cases op <;> trivial) (invI_resume cfg seq kf old) h
  refine ⟨⟨_, hi.hO⟩, ?_⟩
  intro p hp i f hf
  rcases hi.hW.hL with ⟨_, h2⟩ | ⟨p', h1, h2, _⟩
  · rw [h2] at hp; cases hp
  · rw [hp] at h1
    have e : p = p' := by simpa using h1
    rw [← e] at h2
    rw [h2.hEntries, lastN, List.getElem?_drop] at hf
    have hs := h2.hSeq
    obtain ⟨j, hj⟩ : ∃ j, j = (all old st).length - cfg.win + i := ⟨_, rfl⟩
    rw [← hj] at hf
    have hid : f.id = seq + j := by
      unfold all at hf
      by_cases c : j < old.length
      · rw [List.getElem?_append_left c] at hf
        exact hold j f hf
      · rw [List.getElem?_append_right (by omega)] at hf
        have h3 : (st.done.map (·.frag.id))[j - old.length]? = some f.id := by
          rw [List.getElem?_map] at hf ⊢
          cases hx : st.done[j - old.length]? with
          | none => rw [hx] at hf; simp at hf
          | some d => rw [hx] at hf; simp at hf ⊢; rw [hf]
        rw [hi.hD, List.getElem?_map] at h3
        by_cases c2 : j - old.length < st.done.length
        · rw [List.getElem?_range c2] at h3
          simp at h3; omega
        · rw [List.getElem?_eq_none (by simp; omega)] at h3; simp at h3
    omega

/-- A new stream, and one continued after two fragments of an earlier one. -/
example : ∃ st, run exCfg (resume exCfg 0 (fun _ => none) []) exOps = some st ∧ st.done ≠ [] ∧
    (st.list.map fun p => (p.seq, p.target, p.entries.map (·.id))) = some (3, 2, [3, 4, 5]) := by
  refine ⟨_, rfl, ?_, ?_⟩ <;> decide +kernel

example : (∀ i f, exOld[i]? = some f → f.id = 7 + i) ∧
    ((run exCfg (resume exCfg 7 (fun _ => none) exOld) exOps).bind (·.list)).map (fun p => (p.seq, p.entries.map (·.id))) = some (12, [12, 13, 14]) := by
  refine ⟨?_, by decide +kernel⟩
  intro i f h
  match i, h with
  | 0, h => simp [exOld] at h; rw [← h]
  | 1, h => simp [exOld] at h; rw [← h]
  | i + 2, h => simp [exOld] at h

/-- The playlists agree on the target duration: RFC 8216, 6.2.1. -/
def KeepsTarget (p q : Playlist) : Prop := p.target = q.target

/-- `#EXT-X-TARGETDURATION` changes while the stream runs. -/
theorem C56_target_violation : ∃ ops ops' st st' p q, run exCfg (resume exCfg 0 (fun _ => none) []) ops = some st ∧ run exCfg st ops' = some st' ∧
    st.list = some p ∧ st'.list = some q ∧ ¬ KeepsTarget p q :=
  ⟨exOps.take 4, (exOps.drop 4).take 4, _, _, _, _, rfl, rfl, rfl, rfl, by unfold KeepsTarget; decide +kernel⟩

/-- With `hls_fragment_naming_granularity` two fragments in the playlist have one name: the file of the first is truncated while it is listed. -/
theorem C56_granularity_violation : ∃ ops st p a b, run { exCfg with gran := 2 } (resume { exCfg with gran := 2 } 0 (fun _ => none) []) ops = some st ∧
    st.list = some p ∧ p.entries = [a, b] ∧ a.id = b.id ∧ st.opens.count a.id = 2 :=
  ⟨[key 0 1, key 2000 2, key 4000 3], _, _, _, _, rfl, rfl, rfl, by decide +kernel, by decide +kernel⟩

/-- With names made of timestamps a stream that is published again with `hls_continuous` truncates a file the playlist lists. -/
theorem C56_timestamp_violation : ∃ ops st st' p q, run { exCfg with naming := .timestamp } (resume { exCfg with naming := .timestamp } 0 (fun _ => none) []) ops = some st ∧
    st.list = some p ∧
    run { exCfg with naming := .timestamp } (resume { exCfg with naming := .timestamp } p.seq st.keyFiles p.entries) ops = some st' ∧
    st'.list = some q ∧ ∃ f ∈ p.entries, f ∈ q.entries ∧ f.id ∈ st'.opens :=
  ⟨[key 0 1, key 2000 2, .close], _, _, _, _, rfl, rfl, rfl, rfl, ⟨0, 0, 180000, true⟩, by decide +kernel, by decide +kernel, by decide +kernel⟩

/- C57 -/

/-- Two fragments with no discontinuity between them join up: the second starts where the duration of the first ends (mod 2^64), and the cut is where the slicing allows it. -/
theorem C57_joined_partial (cfg : Cfg) (seq : Nat) (kf : Nat → Option Nat) (old : List Frag) (ops : List Op) (st : St)
    (hts : ∀ op ∈ ops, ∀ t, opTs op = some t → t < 2 ^ 63) (h : run cfg (resume cfg seq kf old) ops = some st) :
    Adjacent (fun a b => b.frag.discont = false → (a.start + a.frag.dur) % 2 ^ 64 = b.start ∧
      (cfg.aligned = false → cfg.fraglen * 90 ≤ a.frag.dur) ∧
      (cfg.aligned = true → a.start / (cfg.fraglen * 90 % 2 ^ 64) ≠ b.start / (cfg.fraglen * 90 % 2 ^ 64))) st.done := by
  have hi := run_induct (cfg := cfg) (P := InvG cfg) (good := fun op => ∀ t, opTs op = some t → t < 2 ^ 63)
    (fun op s s' hg hp he => invG_step hg hp he) hts (invG_resume cfg seq kf old) h
  intro pre a b post e hd
  obtain ⟨h1, h2⟩ := hi.hAdj pre a b post e hd
  unfold CutOk at h2
  refine ⟨h1, fun hal => ?_, fun hal => ?_⟩
  · rw [if_pos hal] at h2; exact h2
  · rw [if_neg (by simp [hal])] at h2; exact h2

/-- If the times do not go back: fragments without discontinuity between them join up exactly, no fragment is longer than the limit, and its frames lie between its start and its end. -/
theorem C57_bounds_partial (cfg : Cfg) (seq : Nat) (kf : Nat → Option Nat) (old : List Frag) (ops : List Op) (st : St)
    (hf : Forward 0 ops) (h : run cfg (resume cfg seq kf old) ops = some st) :
    Adjacent (fun a b => b.frag.discont = false → a.start + a.frag.dur = b.start) st.done ∧
    ∀ d ∈ st.done, d.frag.dur ≤ cfg.maxFraglen * 90 ∧ ∀ f ∈ d.frames, d.start ≤ f.ts ∧ f.ts ≤ d.start + d.frag.dur := by
  obtain ⟨l, hl, hi⟩ := invM_run ops 0 _ st (by omega) hf (invM_resume cfg seq kf old) h
  refine ⟨?_, hi.hDone⟩
  intro pre a b post e hd
  have h1 := (C57_joined_partial cfg seq kf old ops st (forward_small ops 0 hf) h pre a b post e hd).1
  have h2 := hi.hStart a (by rw [e]; simp)
  rw [Nat.mod_eq_of_lt (by omega)] at h1
  exact h1

/-- Whatever the times: a fragment is not longer than the limit, unless a message less than a second before its start ended it. -/
theorem C57_durations_partial (cfg : Cfg) (seq : Nat) (kf : Nat → Option Nat) (old : List Frag) (ops : List Op) (st : St)
    (hm : cfg.maxFraglen * 90 < 2 ^ 63) (hts : ∀ op ∈ ops, ∀ t, opTs op = some t → t < 2 ^ 63)
    (h : run cfg (resume cfg seq kf old) ops = some st) :
    ∀ d ∈ st.done, d.frag.dur ≤ cfg.maxFraglen * 90 ∨ 2 ^ 64 - 90000 ≤ d.frag.dur := by
  have hi := run_induct (cfg := cfg) (P := InvB cfg) (good := fun op => ∀ t, opTs op = some t → t < 2 ^ 63)
    (fun op s s' hg hp he => invB_step hm hg hp he) hts (invB_resume cfg seq kf old) h
  exact fun d hd => (hi.hDone d hd).2

/-- With a disk that works, a discontinuity is marked only where time went on by more than the limit since the start of the fragment before, or back by more than a second. -/
theorem C57_discontinuity (cfg : Cfg) (seq : Nat) (kf : Nat → Option Nat) (old : List Frag) (ops : List Op) (st : St)
    (hm : cfg.maxFraglen * 90 < 2 ^ 63) (hts : ∀ op ∈ ops, ∀ t, opTs op = some t → t < 2 ^ 63) (hw : ∀ op ∈ ops, Works op)
    (h : run cfg (resume cfg seq kf old) ops = some st) :
    Adjacent (fun a b => b.frag.discont = true → a.start + cfg.maxFraglen * 90 < b.start ∨ b.start + 90000 < a.start) st.done := by
  have hb := run_induct (cfg := cfg) (P := InvB cfg) (good := fun op => ∀ t, opTs op = some t → t < 2 ^ 63)
    (fun op s s' hg hp he => invB_step hm hg hp he) hts (invB_resume cfg seq kf old) h
  have hi := run_induct (cfg := cfg) (P := InvX cfg) (good := Works)
    (fun op s s' hg hp he => invX_step hg hp he) hw (invX_resume cfg seq kf old) h
  intro pre a b post e hd
  have hf := hi.hAdj pre a b post e hd
  unfold Forced at hf
  rw [diff_eq b.start a.start (hb.hDone b (by rw [e]; simp)).1 (hb.hDone a (by rw [e]; simp)).1] at hf
  omega

/-- A fragment goes on no longer than it has to: a frame inside it that could have started one comes too early for that. -/
theorem C57_cuts (cfg : Cfg) (seq : Nat) (kf : Nat → Option Nat) (old : List Frag) (ops : List Op) (st : St)
    (hf : Forward 0 ops) (h : run cfg (resume cfg seq kf old) ops = some st) :
    ∀ d ∈ st.done, ∀ f ∈ d.frames, f.boundary = true → f.ts = d.start ∨
      (cfg.aligned = false ∧ f.ts < d.start + cfg.fraglen * 90) ∨
      (cfg.aligned = true ∧ d.start / (cfg.fraglen * 90 % 2 ^ 64) = f.ts / (cfg.fraglen * 90 % 2 ^ 64)) := by
  obtain ⟨l, hl, hm⟩ := invM_run ops 0 _ st (by omega) hf (invM_resume cfg seq kf old) h
  have hi := run_induct (cfg := cfg) (P := InvC cfg) (good := fun _ => True)
    (fun op s s' _ hp he => invC_step hp he) (fun _ _ => trivial) (invC_resume cfg seq kf old) h
  intro d hd f hfr hb
  have hr := (hm.hDone d hd).2 f hfr
  have hl' := hm.hStart d hd
  rcases hi.hDone d hd f hfr hb with h1 | h1
  · exact Or.inl h1
  · refine Or.inr ?_
    unfold CutOk at h1
    rw [sub64_le f.ts d.start hr.1 (by omega)] at h1
    cases ha : cfg.aligned with
    | false => rw [if_pos ha] at h1; exact Or.inl ⟨rfl, by omega⟩
    | true =>
      rw [if_neg (by simp [ha])] at h1
      exact Or.inr ⟨rfl, Decidable.not_not.1 h1⟩

/-- Whatever the disk does: the frames on disk are frames of the stream, in order, each once. -/
theorem C57_once (cfg : Cfg) (seq : Nat) (kf : Nat → Option Nat) (old : List Frag) (ops : List Op) (st : St)
    (h : run cfg (resume cfg seq kf old) ops = some st) : (written st).Sublist (videos ops) := by
  have hr := resume_rest cfg seq kf old
  have := written_sublist ops _ st (fun _ => hr.2.2.2.1) h
  simpa [written, hr.2.1, hr.2.2.2.1] using this

/-- With plain slicing and a disk that works every frame is written from the first on that may start a fragment. -/
theorem C57_every_frame (cfg : Cfg) (seq : Nat) (kf : Nat → Option Nat) (old : List Frag) (ops : List Op) (st : St)
    (hp : cfg.aligned = false) (hw : ∀ op ∈ ops, Works op) (h : run cfg (resume cfg seq kf old) ops = some st) :
    written st = videos (ops.dropWhile (fun op => !mayStart op)) := by
  have hr := resume_rest cfg seq kf old
  have := written_plain hp ops _ st hw hr.1 hr.2.2.2.1 h
  rw [this]
  simp [written, hr.2.1, hr.2.2.2.1]

/-- If only video starts fragments, one without discontinuity begins with a frame that may start it, at its start time. -/
theorem C57_starts (cfg : Cfg) (seq : Nat) (kf : Nat → Option Nat) (old : List Frag) (ops : List Op) (st : St)
    (hv : ∀ op ∈ ops, VideoStarts op) (h : run cfg (resume cfg seq kf old) ops = some st) :
    ∀ d ∈ st.done, d.frag.discont = false → ∃ f fs, d.frames = f :: fs ∧ f.boundary = true ∧ f.ts = d.start := by
  have hi := run_induct (cfg := cfg) (P := InvH cfg) (good := VideoStarts)
    (fun op s s' hg hp he => invH_step hg hp he) hv (invH_resume cfg seq kf old) h
  exact hi.hDone

/-- The hypotheses hold for the example; fragments in the middle join up. -/
example : (∀ op ∈ exOps, ∀ t, opTs op = some t → t < 2 ^ 63) ∧ Forward 0 exOps ∧ (∀ op ∈ exOps, VideoStarts op) ∧ (∀ op ∈ exOps.dropLast, Works op) ∧
    (run exCfg (resume exCfg 0 (fun _ => none) []) exOps).map (fun st => st.done.map fun d => (d.start / 90, d.frag.dur / 90, d.frag.discont)) =
      some [(40, 2000, true), (2040, 2060, false), (4100, 4000, false), (8100, 2000, false), (10100, 0, false), (40000, 0, true)] := by
  refine ⟨?_, ?_, ?_, ?_, by decide +kernel⟩
  · intro op h t e
    simp only [exOps, key, inter, List.mem_cons, List.not_mem_nil, or_false] at h
    rcases h with rfl | rfl | rfl | rfl | rfl | rfl | rfl | rfl | rfl | rfl | rfl <;> simp [opTs] at e <;> omega
  · simp [exOps, key, inter, Forward, opTs]
  · intro op h
    simp only [exOps, key, inter, List.mem_cons, List.not_mem_nil, or_false] at h
    rcases h with rfl | rfl | rfl | rfl | rfl | rfl | rfl | rfl | rfl | rfl | rfl <;> simp [VideoStarts]
  · intro op h
    simp only [exOps, key, inter, List.dropLast, List.mem_cons, List.not_mem_nil, or_false] at h
    rcases h with rfl | rfl | rfl | rfl | rfl | rfl | rfl | rfl | rfl | rfl <;> simp [Works]

/-- A message that is up to a second before the start of its fragment gives the fragment a duration of about 2^64 ticks, more than six million years; the playlist says so. -/
theorem C57_back_violation : ∃ ops f, (run exCfg (resume exCfg 0 (fun _ => none) []) ops).bind (·.list) = some ⟨0, 204963823041217, [f]⟩ ∧
    f.dur = 2 ^ 64 - 900 :=
  ⟨[key 5000 1, .audio (4990 * 90) false {}, .close], ⟨0, 0, 2 ^ 64 - 900, true⟩, by decide +kernel, rfl⟩

/-- `hls_fragment 0` with aligned slicing divides by zero. -/
theorem C57_zero_violation : run { exCfg with fraglen := 0, aligned := true } (resume { exCfg with fraglen := 0, aligned := true } 0 (fun _ => none) []) [key 0 1] = none := by
  decide +kernel

/- C58 -/

/-- With sequential names, if key files can be written: each fragment's key file holds the key it was encrypted with, which is a fresh random one; a key is used for no more than `frags_per_key` fragments; key files of earlier fragments are left alone. -/
theorem C58_keys_partial (cfg : Cfg) (seq : Nat) (kf : Nat → Option Nat) (fresh : Nat → Prop) (old : List Frag) (ops : List Op) (st : St)
    (hn : cfg.naming = .sequential) (hg : cfg.gran = 0) (hk : cfg.keys = true) (hf : cfg.fragsPerKey < 2 ^ 64)
    (hw : ∀ op ∈ ops, KeysWork fresh op) (h : run cfg (resume cfg seq kf old) ops = some st) :
    (∀ d ∈ st.done, st.keyFiles d.frag.keyId = some d.key ∧ fresh d.key) ∧
    (∀ k, cfg.fragsPerKey ≠ 0 → uses k st.done ≤ cfg.fragsPerKey) ∧
    (∀ id, id < seq + old.length → st.keyFiles id = kf id) := by
  have hi := (invK_keeps cfg seq kf fresh old hn hg hk hf).run (ops := ops) (fun op ho => by
    have := hw op ho
    cases op with
    | video f env => exact this
    | audio ts b env => exact this
    | close => trivial) (invK_resume cfg seq kf fresh old) h
  refine ⟨fun d hd => ⟨(hi.hDone d hd).1, (hi.hDone d hd).2.2⟩, fun k hz => ?_, hi.hOld⟩
  have := hi.hUse k hz
  omega

example : (∀ op ∈ exOps, KeysWork (fun k => 7 ≤ k) op) ∧
    (run exCfg (resume exCfg 7 (fun _ => none) exOld) exOps).map (fun st => st.done.map fun d => (d.frag.id, d.frag.keyId, d.key)) =
      some [(9, 9, 101), (10, 9, 101), (11, 11, 104), (12, 11, 104), (13, 13, 107), (14, 13, 107)] := by
  refine ⟨?_, by decide +kernel⟩
  intro op h
  simp only [exOps, key, inter, List.mem_cons, List.not_mem_nil, or_false] at h
  rcases h with rfl | rfl | rfl | rfl | rfl | rfl | rfl | rfl | rfl | rfl | rfl <;> simp [KeysWork]

/-- If a key file cannot be written, the next fragment is encrypted with that key all the same: nobody can play it. -/
theorem C58_lost_key_violation : ∃ ops st d, run exCfg (resume exCfg 0 (fun _ => none) []) ops = some st ∧ st.done = [d] ∧
    st.keyFiles d.frag.keyId = none :=
  ⟨[.video ⟨0, true, 1⟩ { disk := .noKey }, key 40 2, .close], _, _, rfl, rfl, rfl⟩

/-- If RAND_bytes fails with 0, the stream is encrypted with the key it had: zeros at the start. -/
theorem C58_random_violation : ∃ ops st d, run exCfg (resume exCfg 0 (fun _ => none) []) ops = some st ∧ st.done = [d] ∧ d.key = 0 ∧
    st.keyFiles d.frag.keyId = some 0 :=
  ⟨[.video ⟨0, true, 1⟩ { rnd := none }, .close], _, _, rfl, rfl, rfl, rfl⟩

/-- With granularity a key file is replaced while a listed fragment needs the old key. -/
theorem C58_granularity_violation : ∃ ops st p d, run { exCfg with gran := 4, fragsPerKey := 1 } (resume { exCfg with gran := 4, fragsPerKey := 1 } 0 (fun _ => none) []) ops = some st ∧
    st.list = some p ∧ d ∈ st.done ∧ d.frag ∈ p.entries ∧ st.keyFiles d.frag.keyId ≠ some d.key :=
  ⟨[key 0 1, key 2000 2, .close], _, _, ⟨⟨0, 0, 180000, true⟩, 0, 101, [⟨0, true, 1⟩]⟩, rfl, rfl, by decide +kernel, by decide +kernel, by decide +kernel⟩

end Verif.HlsFrag
