import Verif.Rtmp.RecSegments
/- Properties C50-C53: FLV recording. Disks fail only where said (`W i = none`: the i-th write succeeds). -/
namespace Verif.Rec
open Verif Verif.Flv

/-- A recorder without limits and intervals, whatever the rest of the configuration, opened by publishing (automatic mode) or by the control interface; after the
messages `es` and the end of the stream its file holds `es` as `FileFor` says: header with right flags, codec headers, all messages asked for from the first key frame on,
in order and unchanged, times counted from the first message. No other file changes. -/
theorem C50_recording {W : Disk} (hW : ∀ i, W i = none) (c : Conf) (hl : c.maxSize = 0 ∧ c.maxFrames = 0) (hoff : c.off = false) (hint : c.interval = none)
    (happ : c.append = false) (o : Op) (env : Env) (henv : env.ok = true) (ho : o = .open env ∨ (o = .start env ∧ c.manual = false))
    (es : List Av) (hes : ∀ e ∈ es, e.Ok) (hnear : Near 0 es) (s : S) (hs : s.node.fd = .invalid) :
    ∃ s', run W c s (o :: es.map .av ++ [.stop]) = some s' ∧ s'.node.fd = .invalid ∧ (∀ q, q ≠ env.path → s'.fs q = s.fs q) ∧
      FileFor c es 0 [] [] (s'.fs env.path) := by
  obtain ⟨h0, hla, hoth⟩ := open_open0 happ hs henv
  have hstep : step W c s o = some (nodeOpen c env s) := by
    rcases ho with h | ⟨h, hm⟩
    · rw [h]; rfl
    · rw [h]; simp [step, hoff, hm]
  obtain ⟨s1, s2, e1, _, _, e2, fd2, oth, hfor⟩ := session_file hW c hl hoff es hes (p := env.path) (s := nodeOpen c env s)
    (fun x _ s' hfd _ => breakFile_plain hint x hfd) h0.fd h0.fl h0.audio h0.video (.inl (by rw [h0.off, h0.file]; rfl)) []
    (fun h => absurd h0.off h) (fun _ => rfl) (by rw [h0.shift]; omega) (by rw [h0.shift]; exact hnear)
  rw [h0.shift, h0.file] at hfor
  refine ⟨s2, ?_, fd2, fun q hq => by rw [oth q hq, hoth q hq], hfor⟩
  simp only [List.cons_append, run, hstep, Option.bind_some]
  rw [run_append, e1, Option.bind_some]
  simp [run, step, e2]

def exCodec : Codec := { aacHeader := some [[0xaf, 0, 0x12]], avcHeader := some [[0x17, 0, 1]], h264 := true, aac := true }
def exVideo (b : UInt8) (ts : Nat) : Av := { type := 9, ts := ts, mlen := 3, bufs := [[b, 1, 7]], codec := some exCodec, env := ⟨0, true, (0, 0)⟩ }
def exAudio (ts : Nat) : Av := { type := 8, ts := ts, mlen := 2, bufs := [[0xaf, 1]], codec := some exCodec, env := ⟨0, true, (0, 0)⟩ }

theorem exVideo_ok (b : UInt8) {ts : Nat} (h : ts < 2 ^ 32) : (exVideo b ts).Ok :=
  ⟨.inr rfl, h, rfl, by show 3 < 2 ^ 24; omega, fun _ => ⟨_, _, rfl, by simp, by simp⟩,
    fun x hx => by cases Option.some.inj hx; show 3 < 2 ^ 24; omega, fun x hx => by cases Option.some.inj hx; show 3 < 2 ^ 24; omega⟩

theorem exAudio_ok {ts : Nat} (h : ts < 2 ^ 32) : (exAudio ts).Ok :=
  ⟨.inl rfl, h, rfl, by show 2 < 2 ^ 24; omega, fun h => by simp [exAudio] at h,
    fun x hx => by cases Option.some.inj hx; show 3 < 2 ^ 24; omega, fun x hx => by cases Option.some.inj hx; show 3 < 2 ^ 24; omega⟩

def exConf : Conf := { audio := true, video := true }

/-- Audio, an inter frame (dropped), a key frame, audio: hypotheses hold, and the file has five tags: two headers, audio, key frame, audio. -/
example : (∀ e ∈ [exAudio 100, exVideo 0x27 110, exVideo 0x17 120, exAudio 130], e.Ok) ∧ Near 0 [exAudio 100, exVideo 0x27 110, exVideo 0x17 120, exAudio 130] ∧
    (run (fun _ => none) exConf {} (.start ⟨0, true, (0, 0)⟩ :: [exAudio 100, exVideo 0x27 110, exVideo 0x17 120, exAudio 130].map .av ++ [.stop])).map (fun s => s.fs 0) =
      some (fileHeader 5 9 ++ [⟨8, 0, 0, [0xaf, 0, 0x12]⟩, ⟨9, 0, 0, [0x17, 0, 1]⟩, ⟨8, 0, 0, [0xaf, 1]⟩, ⟨9, 20, 0, [0x17, 1, 7]⟩,
        (⟨8, 30, 0, [0xaf, 1]⟩ : Tag)].flatMap Tag.bytes) := by
  refine ⟨?_, ?_, by decide +kernel⟩
  · intro e he
    simp only [List.mem_cons, List.not_mem_nil, or_false] at he
    rcases he with rfl | rfl | rfl | rfl
    · exact exAudio_ok (by omega)
    · exact exVideo_ok _ (by omega)
    · exact exVideo_ok _ (by omega)
    · exact exAudio_ok (by omega)
  · intro x hx y hy
    have h : ∀ z ∈ [exAudio 100, exVideo 0x27 110, exVideo 0x17 120, exAudio 130], 100 ≤ z.ts ∧ z.ts ≤ 130 := by decide
    have := h x hx; have := h y hy; omega

/-- Without `Near` the claim fails: 2^31 ms after the first message time starts again at 0. -/
theorem C50_time_wraps : (run (fun _ => none) exConf {} (.start ⟨0, true, (0, 0)⟩ :: [exAudio 0, exAudio (2 ^ 31)].map .av ++ [.stop])).map (fun s => s.fs 0) =
    some (fileHeader 5 9 ++ [⟨8, 0, 0, [0xaf, 0, 0x12]⟩, ⟨9, 0, 0, [0x17, 0, 1]⟩, ⟨8, 0, 0, [0xaf, 1]⟩, (⟨8, 0, 0, [0xaf, 1]⟩ : Tag)].flatMap Tag.bytes) := by
  decide +kernel

/-- `record_append`: after a file with the tags `old` the new ones follow, times counted from the last old tag. The flags become those of the new tags; see
`C51_violation_flags`. A file that is empty or a bare header is as good as none. -/
theorem C51_append_partial {W : Disk} (hW : ∀ i, W i = none) (c : Conf) (hl : c.maxSize = 0 ∧ c.maxFrames = 0) (hoff : c.off = false) (hint : c.interval = none)
    (happ : c.append = true) (o : Op) (env : Env) (henv : env.ok = true) (ho : o = .open env ∨ (o = .start env ∧ c.manual = false))
    (es : List Av) (hes : ∀ e ∈ es, e.Ok) (s : S) (hs : s.node.fd = .invalid)
    (fl : UInt8) (old : List Tag) (hold : ∀ t ∈ old, t.Ok) (hfile : s.fs env.path = fileHeader fl 9 ++ old.flatMap Tag.bytes ∨ (s.fs env.path = [] ∧ old = []))
    (shift : Nat) (hshift : shift = (old.getLast?.map Tag.ts).getD 0) (hnear : Near shift es) :
    ∃ s', run W c s (o :: es.map .av ++ [.stop]) = some s' ∧ s'.node.fd = .invalid ∧ (∀ q, q ≠ env.path → s'.fs q = s.fs q) ∧
      FileFor c es shift old (s.fs env.path) (s'.fs env.path) := by
  have hstep : step W c s o = some (nodeOpen c env s) := by
    rcases ho with h | ⟨h, hm⟩
    · rw [h]; rfl
    · rw [h]; simp [step, hoff, hm]
  have hopen : nodeOpen c env s = { s with node := { last := env.now, fd := .opened env.path, offset := (appendAt (s.fs env.path)).1, timeShift := (appendAt (s.fs env.path)).2 } } := by
    simp [nodeOpen, hs, henv, happ]
  -- where to append
  have hat : (old = [] ∧ appendAt (s.fs env.path) = (0, 0) ∧ (s.fs env.path).length ≤ 13) ∨
      (old ≠ [] ∧ appendAt (s.fs env.path) = ((s.fs env.path).length, shift) ∧ s.fs env.path = fileHeader fl 9 ++ old.flatMap Tag.bytes) := by
    rcases hfile with h | ⟨h, h'⟩
    · rcases List.eq_nil_or_concat old with h' | ⟨l, t, h'⟩
      · left
        subst h'
        rw [List.flatMap_nil, List.append_nil] at h
        rw [h, appendAt_header]
        exact ⟨rfl, rfl, Nat.le_refl _⟩
      · right
        rw [List.concat_eq_append] at h'
        subst h'
        refine ⟨by simp, ?_, h⟩
        rw [h, List.flatMap_append, List.flatMap_singleton, ← List.append_assoc, appendAt_tag _ (hold t (by simp)), hshift]
        simp
    · left; rw [h, h']; exact ⟨rfl, rfl, Nat.zero_le _⟩
  have hsh : (appendAt (s.fs env.path)).2 = shift := by
    rcases hat with ⟨h1, h2, _⟩ | ⟨_, h2, _⟩
    · rw [h2, hshift, h1]; rfl
    · rw [h2]
  have hslt : shift < 2 ^ 32 := by
    rcases List.eq_nil_or_concat old with h' | ⟨l, t, h'⟩
    · rw [hshift, h']; show 0 < 2 ^ 32; omega
    · rw [hshift, h']; simpa using (hold t (by rw [h']; simp)).hTs
  obtain ⟨s1, s2, e1, _, _, e2, fd2, oth, hfor⟩ := session_file hW c hl hoff es hes (p := env.path) (s := nodeOpen c env s)
    (fun x _ s' hfd _ => breakFile_plain hint x hfd) (by rw [hopen]) (by rw [hopen]; rfl) (by rw [hopen]) (by rw [hopen])
    (by
      rw [hopen]
      rcases hat with ⟨_, h2, h3⟩ | ⟨_, h2, _⟩
      · exact .inr ⟨by rw [h2], h3⟩
      · exact .inl (by rw [h2])) old
    (by
      rw [hopen]
      intro h
      rcases hat with ⟨_, h2, _⟩ | ⟨_, _, h3⟩
      · exact absurd (by rw [h2]) h
      · exact ⟨fl, h3⟩)
    (by
      rw [hopen]
      intro h
      rcases hat with ⟨h1, _⟩ | ⟨_, h2, h3⟩
      · exact h1
      · have h : (appendAt (s.fs env.path)).1 = 0 := h
        rw [h2, h3, List.length_append, fileHeader_length] at h
        omega)
    (by rw [hopen]; show (appendAt _).2 < _; rw [hsh]; exact hslt)
    (by rw [hopen]; show ∀ x ∈ es, ∀ y ∈ es, x.ts + (appendAt _).2 < _ ∧ _ ≤ x.ts + (appendAt _).2 + _; rw [hsh]; exact hnear)
  have h1 : (nodeOpen c env s).node.timeShift = shift := by rw [hopen]; exact hsh
  have h2 : (nodeOpen c env s).fs = s.fs := by rw [hopen]
  rw [h1, h2] at hfor
  rw [h2] at oth
  refine ⟨s2, ?_, fd2, oth, hfor⟩
  simp only [List.cons_append, run, hstep, Option.bind_some]
  rw [run_append, e1, Option.bind_some]
  simp [run, step, e2]

def exOld : List Tag := [⟨8, 0, 0, [0xaf, 1]⟩, ⟨9, 40, 0, [0x27, 1]⟩]

def exApp : Conf := { audio := true, video := true, append := true }

/-- A file with audio and video; an audio message is appended at the time of the last tag (AAC is unknown to the session: no headers). -/
example : (∀ t ∈ exOld, t.Ok) ∧ (exOld.getLast?.map Tag.ts).getD 0 = 40 ∧ Near 40 [{ exAudio 7 with codec := none }] ∧
    (run (fun _ => none) exApp { fs := fun _ => fileHeader 5 9 ++ exOld.flatMap Tag.bytes }
      (.start ⟨0, true, (0, 0)⟩ :: [{ exAudio 7 with codec := none }].map .av ++ [.stop])).map (fun s => s.fs 0) =
      some (fileHeader 4 9 ++ (exOld ++ [(⟨8, 40, 0, [0xaf, 1]⟩ : Tag)]).flatMap Tag.bytes) := by
  refine ⟨?_, rfl, ?_, by decide +kernel⟩
  · intro t ht
    simp only [exOld, List.mem_cons, List.not_mem_nil, or_false] at ht
    rcases ht with rfl | rfl
    · exact ⟨.inl rfl, by show 0 < 2 ^ 32; omega, by show 0 < 2 ^ 24; omega, by show 2 < 2 ^ 24; omega⟩
    · exact ⟨.inr (.inl rfl), by show 40 < 2 ^ 32; omega, by show 0 < 2 ^ 24; omega, by show 2 < 2 ^ 24; omega⟩
  · intro x hx y hy
    simp only [List.mem_singleton] at hx hy
    rw [hx, hy]
    show 7 + 40 < 7 + 2 ^ 31 ∧ 7 ≤ 7 + 40 + 2 ^ 31
    omega

/-- The flags of the file are overwritten with those of the last session: a file with video no longer announces it. -/
theorem C51_violation_flags : maskOf (exOld ++ [(⟨8, 40, 0, [0xaf, 1]⟩ : Tag)]) = 5 ∧
    (run (fun _ => none) exApp { fs := fun _ => fileHeader 5 9 ++ exOld.flatMap Tag.bytes }
      (.start ⟨0, true, (0, 0)⟩ :: [{ exAudio 7 with codec := none }].map .av ++ [.stop])).map (fun s => s.fs 0) =
      some (fileHeader 4 9 ++ (exOld ++ [(⟨8, 40, 0, [0xaf, 1]⟩ : Tag)]).flatMap Tag.bytes) ∧ announcesVideo 4 = false := by
  decide +kernel

/-- Whatever the configuration and the history of publishing, messages, control requests, failed opens: while no write fails, no closed descriptor is used, every file not
being written is whole (flags and limits as `Whole` says), and the one being written is a complete FLV file at any moment between messages, but for its flags. -/
theorem C52_whole_partial {W : Disk} (hW : ∀ i, W i = none) (c : Conf) (os : List Op) (hos : ∀ e, Op.av e ∈ os → e.Ok) (s : S) (hs : s.node.fd = .invalid)
    (hfs : ∀ q, Whole c (s.fs q)) :
    ∃ s', run W c s os = some s' ∧ (∀ q, s'.node.fd ≠ .opened q → Whole c (s'.fs q)) ∧ ∀ q, Whole { c with append := true } (s'.fs q) := by
  obtain ⟨s', e, h⟩ := run_inv hW c os hos (.idle hs hfs)
  have hweak : ∀ b, Whole c b → Whole { c with append := true } b := by
    rintro b (h | ⟨fl, ts, h1, h2, _⟩)
    · exact .inl h
    · exact .inr ⟨fl, ts, h1, h2, fun h => by cases h⟩
  refine ⟨s', e, ?_⟩
  cases h with
  | idle hf hw => exact ⟨fun q _ => hw q, fun q => hweak _ (hw q)⟩
  | new p hn hr =>
    refine ⟨fun q hq => hr q (fun h => hq (by rw [h, hn.fd])), fun q => ?_⟩
    by_cases h : q = p
    · rw [h]; exact hweak _ hn.whole
    · exact hweak _ (hr q h)
  | live p ts hl _ hr =>
    refine ⟨fun q hq => hr q (fun h => hq (by rw [h, hl.fd])), fun q => ?_⟩
    by_cases h : q = p
    · obtain ⟨fl, hf⟩ := hl.file
      rw [h]; exact .inr ⟨fl, ts, hf, hl.hOk, fun h => by cases h⟩
    · exact hweak _ (hr q h)

def exOps : List Op := [.start ⟨0, true, (0, 0)⟩, .av (exVideo 0x17 0), .av { exVideo 0x17 5 with env := ⟨1, true, (0, 0)⟩ }, .stop]

/-- One frame per file: the hypotheses hold, and two files result. -/
example : (∀ e, Op.av e ∈ exOps → e.Ok) ∧
    (run (fun _ => none) { exConf with maxFrames := 1 } {} exOps).map
      (fun s => ((s.fs 0).length, (s.fs 1).length, s.node.fd)) = some (13 + 18 + 18 + 18, 13 + 18 + 18 + 18, .invalid) := by
  refine ⟨?_, by decide +kernel⟩
  intro e he
  simp [exOps] at he
  rcases he with rfl | rfl
  · exact exVideo_ok _ (by omega)
  · have h := exVideo_ok 0x17 (ts := 5) (by omega)
    exact ⟨h.1, h.2, h.3, h.4, h.5, h.6, h.7⟩

/-- When a tag header cannot be written, the descriptor is closed but kept: the next message writes through it (`none`). -/
theorem C52_violation_closed : run (fun i => if i = 1 then some 0 else none) exConf {} [.start ⟨0, true, (0, 0)⟩, .av (exAudio 0), .av (exAudio 10)] = none := by
  have h : (run (fun i => if i = 1 then some 0 else none) exConf {} [.start ⟨0, true, (0, 0)⟩, .av (exAudio 0), .av (exAudio 10)]).isNone = true := by decide +kernel
  exact Option.isNone_iff_eq_none.1 h

/-- When a payload cannot be written, its tag header stays and recording goes on behind it: the file is not an FLV file any more. -/
theorem C52_violation_torn : ∃ s', run (fun i => if i = 2 then some 0 else none) exConf {}
    [.start ⟨0, true, (0, 0)⟩, .av { exAudio 0 with codec := none }, .av { exAudio 10 with codec := none }, .stop] = some s' ∧ ¬ Whole { exConf with append := true } (s'.fs 0) := by
  have h : (run (fun i => if i = 2 then some 0 else none) exConf {}
      [.start ⟨0, true, (0, 0)⟩, .av { exAudio 0 with codec := none }, .av { exAudio 10 with codec := none }, .stop]).map (fun s => s.fs 0) =
      some (fileHeader 4 9 ++ [8, 0, 0, 2, 0, 0, 0, 0, 0, 0, 0] ++ (⟨8, 10, 0, [0xaf, 1]⟩ : Tag).bytes) := by decide +kernel
  obtain ⟨s', e, hf⟩ := Option.map_eq_some_iff.1 h
  refine ⟨s', e, ?_⟩
  rw [hf]
  rintro (h0 | ⟨fl, ts, h1, h2, _⟩)
  · simp [fileHeader] at h0
  · have hd := congrArg (List.drop 13) h1
    rw [List.append_assoc, drop_len (fileHeader 4 9) _ 13 rfl, drop_len (fileHeader fl 9) _ 13 rfl] at hd
    have hb : (⟨8, 10, 0, [0xaf, 1]⟩ : Tag).bytes = [8, 0, 0, 2, 0, 0, 10, 0, 0, 0, 0, 0xaf, 1, 0, 0, 0, 13] := by decide
    rw [hb] at hd
    cases ts with
    | nil => simp at hd
    | cons t ts =>
      have hok := h2 t (by simp)
      have hlen : beEnc 3 t.data.length = [0, 0, 2] := by
        have := congrArg (fun l => (List.drop 1 l).take 3) hd
        rw [List.flatMap_cons] at this
        simp only [Tag.bytes, Tag.head, List.append_assoc] at this
        rw [drop_len (beEnc 1 t.type) _ 1 rfl, List.take_left' (beEnc_length _ _)] at this
        exact this.symm
      have hl : t.data.length = 2 := by
        have h3 := beDec_beEnc_of_lt (k := 3) (n := t.data.length) hok.hLen
        rw [hlen] at h3
        have : beDec [0, 0, 2] = 2 := by decide
        omega
      have hback : beEnc 4 13 = [0, 2, 0, 0] := by
        have := congrArg (fun l => (List.drop 13 l).take 4) hd
        rw [List.flatMap_cons] at this
        have hsplit : t.bytes ++ ts.flatMap Tag.bytes = (t.head ++ t.data) ++ (beEnc 4 (11 + t.data.length) ++ ts.flatMap Tag.bytes) := by simp [Tag.bytes, Tag.back]
        rw [hsplit, drop_len (t.head ++ t.data) _ 13 (by simp only [Tag.head, List.length_append, beEnc_length]; omega), List.take_left' (beEnc_length _ _), hl] at this
        exact this.symm
      revert hback; decide

/-- Where no error occurs nothing recorded should be lost, but when a limit is reached the file is opened again at the next key frame and, unless `record_unique` makes another
path, truncated: of three key frames the first two are gone. -/
theorem C52_violation_truncated : (run (fun _ => none) { exConf with maxFrames := 2 } {} (.start ⟨0, true, (0, 0)⟩ :: [exVideo 0x17 0, exVideo 0x17 10, exVideo 0x17 20].map .av ++ [.stop])).map
    (fun s => s.fs 0) = some (fileHeader 5 9 ++ [⟨8, 0, 0, [0xaf, 0, 0x12]⟩, ⟨9, 0, 0, [0x17, 0, 1]⟩, (⟨9, 0, 0, [0x17, 1, 7]⟩ : Tag)].flatMap Tag.bytes) := by
  decide +kernel

/-- A recorder that failed stays idle. -/
theorem dead {W : Disk} {c : Conf} (hoff : c.off = false) (hint : c.interval = none) (es : List Av) {s : S} (hf : s.node.fd = .invalid) (hfail : s.node.failed = true) :
    run W c s (es.map .av) = some s := by
  induction es with
  | nil => rfl
  | cons e es ih =>
    have hav : nodeAv W c e s = some s := by
      unfold nodeAv breakFile
      simp [hoff, hint, hfail, hf]
    simp only [List.map_cons, run, step, hav, Option.bind_some, ih]

/-- When the size limit is reached by the AAC header, the AVC header is written to no file, which counts as a failure: recording is over for this publisher, whatever follows. -/
theorem C52_violation_dead (es : List Av) : (run (fun _ => none) { exConf with maxSize := 20 } {} (.start ⟨0, true, (0, 0)⟩ :: (exVideo 0x17 0 :: es).map .av)).map
    (fun s => (s.fs 0, s.node.fd)) = some (fileHeader 4 9 ++ (⟨8, 0, 0, [0xaf, 0, 0x12]⟩ : Tag).bytes, .invalid) := by
  have h : (run (fun _ => none) { exConf with maxSize := 20 } {} [.start ⟨0, true, (0, 0)⟩, .av (exVideo 0x17 0)]).map
      (fun s => ((s.fs 0, s.node.fd), s.node.failed)) = some ((fileHeader 4 9 ++ (⟨8, 0, 0, [0xaf, 0, 0x12]⟩ : Tag).bytes, .invalid), true) := by decide +kernel
  obtain ⟨s, e, hs⟩ := Option.map_eq_some_iff.1 h
  have : ∀ os, run (fun _ => none) { exConf with maxSize := 20 } {} ([.start ⟨0, true, (0, 0)⟩, .av (exVideo 0x17 0)] ++ os) = run (fun _ => none) { exConf with maxSize := 20 } s os := by
    intro os; rw [run_append, e]; rfl
  simp only [Prod.mk.injEq] at hs
  have h2 := this (es.map .av)
  rw [dead rfl rfl es hs.1.2 hs.2] at h2
  have h3 : (Op.start ⟨0, true, (0, 0)⟩ :: (exVideo 0x17 0 :: es).map Op.av) = [.start ⟨0, true, (0, 0)⟩, .av (exVideo 0x17 0)] ++ es.map .av := rfl
  rw [h3, h2, Option.map_some, hs.1.1, hs.1.2]

/-- `record_interval`: the messages are cut into consecutive pieces, at the first message where that is allowed and the interval is over, and nowhere else (`CutRight`);
each file, if the paths differ (`record_unique`), holds its piece as `FileFor` says. -/
theorem C53_interval {W : Disk} (hW : ∀ i, W i = none) (c : Conf) (hl : c.maxSize = 0 ∧ c.maxFrames = 0) (hoff : c.off = false) (hm : c.manual = false)
    (happ : c.append = false) (i : Nat) (hint : c.interval = some i) (env : Env) (henv : env.ok = true) (hnow : env.now.2 < 1000)
    (es : List Av) (hes : ∀ e ∈ es, e.Ok ∧ e.env.ok = true ∧ e.env.now.2 < 1000) (hnear : Near 0 es) (s : S) (hs : s.node.fd = .invalid) :
    ∃ (a : List Av) (rest : List (Nat × List Av)) (s' : S), run W c s (.start env :: es.map .av ++ [.stop]) = some s' ∧ s'.node.fd = .invalid ∧
      es = a ++ rest.flatMap Prod.snd ∧ CutRight c i env.now a rest ∧
      (∀ q, q ∉ env.path :: rest.map Prod.fst → s'.fs q = s.fs q) ∧
      ((env.path :: rest.map Prod.fst).Nodup → ∀ x ∈ (env.path, a) :: rest, FileFor c x.2 0 [] [] (s'.fs x.1)) := by
  obtain ⟨h0, hla, hoth⟩ := open_open0 happ hs henv
  obtain ⟨a, rest, s', r1, r2, _, r3, r4, r5, r6⟩ := segments hW hl hoff hm happ hint es _ env.path hes (fun x hx y hy => by simpa using hnear x hx y hy) h0 (by rw [hla]; exact hnow)
  rw [hla] at r4
  refine ⟨a, rest, s', ?_, r2, r3, r4, ?_, r6⟩
  · simp only [List.cons_append, run, step, hoff, hm, Bool.or_false, Bool.false_eq_true, if_false, Option.bind_some]
    exact r1
  · intro q hq
    rw [r5 q hq, hoth q (fun h => hq (by simp [h]))]

def exCut : List Av :=
  [{ exVideo 0x17 0 with env := ⟨1, true, (0, 5)⟩ }, { exVideo 0x17 1000 with env := ⟨2, true, (1, 5)⟩ }, { exVideo 0x17 2000 with env := ⟨3, true, (2, 5)⟩ }]

/-- Three key frames, a second apart, interval 1500 ms: two files. -/
example : (∀ e ∈ exCut, e.Ok ∧ e.env.ok = true ∧ e.env.now.2 < 1000) ∧ Near 0 exCut ∧
    (run (fun _ => none) { exConf with interval := some 1500 } {} (.start ⟨0, true, (0, 0)⟩ :: exCut.map .av ++ [.stop])).map
      (fun s => ((s.fs 0).length, (s.fs 3).length)) = some (13 + 4 * 18, 13 + 3 * 18) := by
  refine ⟨?_, ?_, by decide +kernel⟩
  · intro e he
    simp only [exCut, List.mem_cons, List.not_mem_nil, or_false] at he
    have h : ∀ (ts : Nat) (v : Env), ts < 2 ^ 32 → ({ exVideo 0x17 ts with env := v } : Av).Ok := by
      intro ts v hts
      have := exVideo_ok 0x17 hts
      exact ⟨this.hType, this.hTs, this.hLen, this.hMax, this.hFirst, this.hAac, this.hAvc⟩
    rcases he with rfl | rfl | rfl
    · exact ⟨h 0 _ (by omega), rfl, by show 5 < 1000; omega⟩
    · exact ⟨h 1000 _ (by omega), rfl, by show 5 < 1000; omega⟩
    · exact ⟨h 2000 _ (by omega), rfl, by show 5 < 1000; omega⟩
  · intro x hx y hy
    have h : ∀ z ∈ exCut, z.ts ≤ 2000 := by decide
    have := h x hx; have := h y hy; omega

end Verif.Rec
