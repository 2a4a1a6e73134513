import Verif.Hls.AdtsRun
/- Property C55: AAC messages in HLS, MPEG-TS and recorded output. -/
namespace Verif.Adts
open Verif Annex

/-- The first two bytes of a message are in one buffer (chunks are not smaller). -/
def Whole : Cur → Prop
  | (_ :: _ :: _) :: _ => True
  | c => c.flatten.length < 2

theorem whole_header {c : Cur} (h : Whole c) : isHeader c = (c.flatten[1]? == some 0) := by
  match c with
  | [] => rfl
  | (x :: y :: b) :: bs =>
    by_cases hy : y = 0
    · subst hy; rfl
    · have : isHeader ((x :: y :: b) :: bs) = false := by
        rw [isHeader]; intro a b c h; cases h; exact hy rfl
      rw [this]; simp [hy]
  | [] :: bs =>
    have h' : ([] :: bs : Cur).flatten.length < 2 := h
    have : isHeader ([] :: bs) = false := rfl
    rw [this, List.getElem?_eq_none (by omega)]; rfl
  | [x] :: bs =>
    have h' : ([x] :: bs : Cur).flatten.length < 2 := h
    have : isHeader ([x] :: bs) = false := rfl
    rw [this, List.getElem?_eq_none (by omega)]; rfl

/-- MPEG-TS and HLS output, any events (video, audio, fragments opened and closed): every AAC frame is in exactly one PES packet or waits in the buffer, in order, unchanged, with
the right ADTS header; the time of a packet is that of its first frame up to `sync`. Missing: frames of 8 KB and more, messages cut after the first byte, object type 31, explicit
sample rates, more than 7 channels, and a buffer that gets full while no fragment is open (see the violations). -/
theorem C55_audio_partial {a : Asc} (ha : a.Ok) (cfg : Cfg) {x y : UInt8} {ext : Bytes} (hh : cfg.hdr.flatten = x :: y :: (a.bytes ++ ext)) (opened : Bool) (evs : List Ev)
    (hev : ∀ ts msg junk, Ev.audio ts msg junk ∈ evs → msg.flatten.length + 5 < 8192 ∧ Whole msg)
    (hroom : ∀ pre ts msg junk post, evs = pre ++ Ev.audio ts msg junk :: post → (run cfg { opened := opened } pre).opened = false →
      (run cfg { opened := opened } pre).buf.length + msg.flatten.length + 5 ≤ cfg.cap) :
    ∃ (gs : List ((Nat × Bytes) × List Msg)) (g : List Msg), (run cfg { opened := opened } evs).out = gs.map Prod.fst ∧ (∀ p ∈ gs, Pes a cfg.sync p.1 p.2) ∧
      decoded (run cfg { opened := opened } evs).buf = some (g.map fun m => a.frame (m.bytes.drop 2)) ∧
      (gs.map Prod.snd).flatten ++ g = (msgs evs).filter (Msg.sound cfg.cap) := by
  obtain ⟨gs, g, h1, h2, h3, h4⟩ := run_inv ha hh { opened := opened } evs [] (fun m h => by cases h) (fun ts msg junk h => ⟨(hev ts msg junk h).1, whole_header (hev ts msg junk h).2⟩)
    hroom ⟨[], [], rfl, fun x h => absurd h (by simp), ⟨rfl, fun m h => absurd h (by simp)⟩, rfl⟩
  rw [List.nil_append] at h4
  refine ⟨gs, g, h1, h2, ?_, h4⟩
  have := decoded_all ha (g.map Msg.bytes) (by
    intro b hb
    obtain ⟨m, hm, rfl⟩ := List.mem_map.1 hb
    have hm' : m ∈ (msgs evs).filter (Msg.sound cfg.cap) := by rw [← h4]; simp [hm]
    obtain ⟨q1, q2⟩ := List.mem_filter.1 hm'
    obtain ⟨e, e1, e2⟩ := List.mem_flatMap.1 q1
    simp only [Msg.sound, Bool.and_eq_true, decide_eq_true_eq] at q2
    cases e with
    | audio ts msg junk =>
      have := List.mem_singleton.1 e2
      subst this
      exact ⟨q2.1.1, (hev _ _ _ e1).1⟩
    | opens => cases e2
    | closes => cases e2
    | eof => cases e2
    | video ts => cases e2)
  rw [h3.hBuf, ← List.flatMap_map Msg.bytes (enc a), this, List.map_map]
  rfl

theorem run_opened (cfg : Cfg) (st : St) (evs : List Ev) (h : Ev.closes ∉ evs) (ho : st.opened = true) : (run cfg st evs).opened = true := by
  induction evs generalizing st with
  | nil => exact ho
  | cons e evs ih =>
    refine ih (step cfg st e) (fun hc => h (by simp [hc])) ?_
    cases e with
    | opens => rw [step, if_pos ho]; exact ho
    | closes => exact absurd (by simp) h
    | eof => rw [step, flush_opened]; exact ho
    | video ts => rw [step, due_opened]; exact ho
    | audio ts msg junk =>
      have ha : ∀ now (f : Bool) (s : St), (align cfg now f s).opened = s.opened := by
        intro now f s
        rw [align]; split
        · rfl
        · split
          · rfl
          · dsimp only; split <;> rfl
      rw [step, audio]; split
      · exact ho
      · dsimp only; split
        · exact ho
        · have hap : ∀ now s, (append cfg now msg junk s).opened = s.opened := by
            intro now s
            rw [append]; split
            · rfl
            · dsimp only
              rcases aacHeader cfg.hdr with _ | ⟨o, s', c⟩
              · rfl
              · exact ha _ _ _
          rw [hap]; split
          · rw [flush_opened, due_opened]; exact ho
          · rw [due_opened]; exact ho

/-- MPEG-TS output (no fragments): no condition on the buffer. -/
theorem C55_mpegts_partial {a : Asc} (ha : a.Ok) (cfg : Cfg) {x y : UInt8} {ext : Bytes} (hh : cfg.hdr.flatten = x :: y :: (a.bytes ++ ext)) (evs : List Ev)
    (hev : ∀ ts msg junk, Ev.audio ts msg junk ∈ evs → msg.flatten.length + 5 < 8192 ∧ Whole msg) (hc : Ev.closes ∉ evs) :
    ∃ (gs : List ((Nat × Bytes) × List Msg)) (g : List Msg), (run cfg { opened := true } evs).out = gs.map Prod.fst ∧ (∀ p ∈ gs, Pes a cfg.sync p.1 p.2) ∧
      decoded (run cfg { opened := true } evs).buf = some (g.map fun m => a.frame (m.bytes.drop 2)) ∧
      (gs.map Prod.snd).flatten ++ g = (msgs evs).filter (Msg.sound cfg.cap) := by
  refine C55_audio_partial ha cfg hh true evs hev ?_
  intro pre ts msg junk post he ho
  rw [run_opened cfg _ pre (fun h => hc (by rw [he]; simp [h])) rfl] at ho
  cases ho

/-- AAC-LC, 44.1 kHz, stereo; a buffer of 20 bytes. -/
def exAsc : Asc := ⟨2, 4, 2, 0⟩
def exCfg : Cfg := ⟨20, 300, 2, 44100, [[0xaf, 0, 0x12], [0x10]]⟩
/-- Two frames wait for the first key frame, are written when the fragment is opened, a third one by the end of the stream. -/
def exEvs : List Ev := [.audio 0 [[0xaf, 1, 7], [8]] [1, 2, 3, 4, 5], .audio 23 [[0xaf, 1, 9]] [], .opens, .video 30, .audio 47 [[0xaf, 1, 10]] [], .eof, .closes]

example : exAsc.Ok ∧ exCfg.hdr.flatten = 0xaf :: 0 :: (exAsc.bytes ++ []) ∧
    (run exCfg {} exEvs).out = [(0, [0xff, 0xf1, 0x50, 0x80, 1, 0x3f, 0xfc, 7, 8, 0xff, 0xf1, 0x50, 0x80, 1, 0x1f, 0xfc, 9]), (4179, [0xff, 0xf1, 0x50, 0x80, 1, 0x1f, 0xfc, 10])] := by
  decide +kernel

example : (∀ ts msg junk, Ev.audio ts msg junk ∈ exEvs → msg.flatten.length + 5 < 8192 ∧ Whole msg) := by
  intro ts msg junk h
  simp only [exEvs, List.mem_cons, List.not_mem_nil, or_false, reduceCtorEq, false_or, Ev.audio.injEq] at h
  rcases h with ⟨-, rfl, -⟩ | ⟨-, rfl, -⟩ | ⟨-, rfl, -⟩ <;> exact ⟨by decide, trivial⟩

/-- The condition on the buffer, to be computed. -/
def roomy (cfg : Cfg) : St → List Ev → Bool
  | _, [] => true
  | st, e :: evs =>
    (match e with
      | .audio _ msg _ => st.opened || decide (st.buf.length + msg.flatten.length + 5 ≤ cfg.cap)
      | _ => true) && roomy cfg (step cfg st e) evs

theorem roomy_ok {cfg : Cfg} {st : St} {evs : List Ev} (h : roomy cfg st evs = true) : ∀ pre ts msg junk post, evs = pre ++ Ev.audio ts msg junk :: post →
    (run cfg st pre).opened = false → (run cfg st pre).buf.length + msg.flatten.length + 5 ≤ cfg.cap := by
  induction evs generalizing st with
  | nil => intro pre ts msg junk post he; cases pre <;> cases he
  | cons e evs ih =>
    intro pre ts msg junk post he ho
    cases pre with
    | nil =>
      cases he
      have h' : ((st.opened || decide (st.buf.length + msg.flatten.length + 5 ≤ cfg.cap)) && roomy cfg (step cfg st (.audio ts msg junk)) evs) = true := h
      have ho' : st.opened = false := ho
      rw [ho', Bool.and_eq_true, Bool.false_or, decide_eq_true_eq] at h'
      exact h'.1
    | cons e' pre =>
      cases he
      refine ih ?_ pre ts msg junk post rfl ho
      cases e <;> (rw [roomy, Bool.and_eq_true] at h; first | exact h.2 | skip)
      all_goals first | exact h.2 | (intro _ _ _ hc; cases hc)

example : roomy exCfg {} exEvs = true := by decide +kernel

/-- Frames of 8185 bytes and more: the length field has 13 bits; a player is led astray. -/
theorem C55_violation_long (obj sr ch size : Nat) : adts obj sr ch (size + 8192) = adts obj sr ch size := by
  have e1 : ((size + 8192) >>> 11) &&& 3 = (size >>> 11) &&& 3 := by
    rw [Nat.shiftRight_eq_div_pow, Nat.shiftRight_eq_div_pow]
    have h := Nat.and_two_pow_sub_one_eq_mod ((size + 8192) / 2 ^ 11) 2
    have h' := Nat.and_two_pow_sub_one_eq_mod (size / 2 ^ 11) 2
    simp only [Nat.reducePow, Nat.reduceSub] at h h' ⊢
    rw [h, h']; omega
  have e2 : UInt8.ofNat ((size + 8192) >>> 3) = UInt8.ofNat (size >>> 3) := by
    apply UInt8.toNat.inj
    rw [UInt8.toNat_ofNat', UInt8.toNat_ofNat', Nat.shiftRight_eq_div_pow, Nat.shiftRight_eq_div_pow]; omega
  have e3 : UInt8.ofNat (((size + 8192) <<< 5) ||| 0x1f) = UInt8.ofNat ((size <<< 5) ||| 0x1f) := by
    apply UInt8.toNat.inj
    rw [UInt8.toNat_ofNat', UInt8.toNat_ofNat', ← Nat.shiftLeft_add_eq_or_of_lt (by decide : 0x1f < 2 ^ 5), ← Nat.shiftLeft_add_eq_or_of_lt (by decide : 0x1f < 2 ^ 5),
      Nat.shiftLeft_eq, Nat.shiftLeft_eq]; omega
  rw [adts, adts, e1, e2, e3]

/-- 7.1 channels with configuration 12: the header says 4. -/
theorem C55_violation_channels : (decoded (adts 2 3 12 8 ++ [1])).map (List.map Frame.ch) = some [4] := by decide +kernel

/-- Object type 31 (escape): the frame stays in the buffer behind five bytes nobody has written, and both are put out. -/
theorem C55_violation_junk : (run { exCfg with hdr := [[0xaf, 0, 0xf9, 0x10]] } { opened := true } [.audio 0 [[0xaf, 1, 7, 8]] [1, 2, 3, 4, 5], .eof]).out =
    [(0, [1, 2, 3, 4, 5, 0xaf, 1, 7, 8])] := by decide +kernel

/-- No fragment open, buffer full: the last frame is cut off but its header has the full length; the next ones are dropped. -/
theorem C55_violation_full : (run exCfg {} [.audio 0 [[0xaf, 1, 7, 8, 9, 10]] [], .audio 23 [[0xaf, 1, 7, 8, 9, 10]] [], .audio 46 [[0xaf, 1, 7]] [], .opens]).out =
    [(0, [0xff, 0xf1, 0x50, 0x80, 1, 0x7f, 0xfc, 7, 8, 9, 10] ++ [0xff, 0xf1, 0x50, 0x80, 1, 0x7f, 0xfc, 7, 8])] := by decide +kernel

/-- A codec header cut after its first byte is put out as a frame. -/
theorem C55_violation_header : (run exCfg { opened := true } [.audio 0 [[0xaf], [0, 0x12, 0x10]] [], .eof]).out = [(0, [0xff, 0xf1, 0x50, 0x80, 1, 0x3f, 0xfc, 0x12, 0x10])] := by
  decide +kernel

/-- Recording: one frame, one PES packet, when the frame fits. -/
theorem C55_record_partial {a : Asc} (ha : a.Ok) {hdr msg : Cur} {x y : UInt8} {ext : Bytes} (hh : hdr.flatten = x :: y :: (a.bytes ++ ext)) (cap : Nat)
    (h2 : 2 ≤ msg.flatten.length) (hs : msg.flatten.length + 5 < 8192) (hc : msg.flatten.length + 5 ≤ cap) :
    ∃ out, recordAac cap hdr msg = some (some out) ∧ decoded out = some [a.frame (msg.flatten.drop 2)] := by
  obtain ⟨c, e1, e2, -⟩ := copy_ok (n := 2) (ne_of_length (by omega)) h2
  rw [recordAac, if_neg (by omega), e1]
  dsimp only
  rw [aacHeader_ok ha hh]
  dsimp only
  rw [e2]
  have hl := enc_length a msg.flatten
  rw [enc] at hl
  rw [put_ok (by rw [hl, List.length_nil]; omega)]
  refine ⟨_, rfl, ?_⟩
  have := decoded_all ha [msg.flatten] (by
    intro m hm; have := List.mem_singleton.1 hm; subst this; exact ⟨h2, hs⟩)
  simpa [enc] using this

example : recordAac 10485760 exCfg.hdr [[0xaf, 1, 7], [8]] = some (some [0xff, 0xf1, 0x50, 0x80, 1, 0x3f, 0xfc, 7, 8]) := by decide +kernel

/-- Recording: nothing compares the size of a message with that of the static buffer; `max_message` above 10 MB lets a publisher write behind it. -/
theorem C55_violation_record (cap : Nat) {hdr msg : Cur} {x y : UInt8} {ext : Bytes} {a : Asc} (ha : a.Ok) (hh : hdr.flatten = x :: y :: (a.bytes ++ ext))
    (h2 : 2 ≤ msg.flatten.length) (hc : cap < msg.flatten.length + 5) : recordAac cap hdr msg = none := by
  obtain ⟨c, e1, e2, -⟩ := copy_ok (n := 2) (ne_of_length (by omega)) h2
  rw [recordAac, if_neg (by omega), e1]
  dsimp only
  rw [aacHeader_ok ha hh]
  dsimp only
  rw [e2]
  have hl := enc_length a msg.flatten
  rw [enc] at hl
  rw [put, if_pos (by rw [hl, List.length_nil]; omega)]
  rfl

/-- MP3: the message without its first byte, when there is room for one byte more than that. -/
theorem C55_mp3_partial (room : Nat) (b : Bytes) (bs : Cur) (hb : b ≠ []) (h : (b :: bs).flatten.length ≤ room) : mp3Fill room (b :: bs) = some ((b :: bs).flatten.drop 1) := by
  have hb' : 0 < b.length := List.length_pos_iff.2 hb
  rw [List.flatten_cons, List.length_append] at h
  rw [mp3Fill, if_neg (by omega), List.take_of_length_le (by omega), if_neg (by omega), fill_all _ _ (by omega), List.flatten_cons, List.drop_append_of_le_length (by omega)]

example : mp3Fill 4 [[0x2f, 0xff], [0xfb, 1]] = some [0xff, 0xfb, 1] := by decide

/-- A frame that fills the buffer exactly (the test in front of it allows that) loses its last byte; an empty first buffer makes the length wrap. -/
theorem C55_violation_mp3 : mp3Fill 3 [[0x2f, 0xff, 0xfb, 1]] = some [0xff, 0xfb] ∧ mp3Fill 3 [[], [0x2f]] = none := by decide

theorem fill_le (c : Cur) (n : Nat) : (fill n c).length ≤ n := by
  induction c generalizing n with
  | nil => exact Nat.zero_le _
  | cons b bs ih =>
    rw [fill]; split
    · exact Nat.zero_le _
    · have := ih (n - b.length)
      rw [List.length_append, List.length_take]; omega

/-- What every step keeps. -/
def Bounded (cap : Nat) (st : St) : Prop := st.buf.length ≤ cap ∧ ∀ p ∈ st.out, p.2.length ≤ cap

theorem flush_bounded {cap : Nat} {st : St} (h : Bounded cap st) : Bounded cap (flush st) := by
  rw [flush]; split
  · exact h
  · refine ⟨Nat.zero_le _, fun p hp => ?_⟩
    rcases List.mem_append.1 hp with hp | hp
    · exact h.2 p hp
    · have := List.mem_singleton.1 hp; subst this; exact h.1

theorem due_bounded {cap : Nat} {cfg : Cfg} {r n : Nat} {st : St} (h : Bounded cap st) : Bounded cap (due cfg r n st) := by
  rw [due]; split
  · exact flush_bounded h
  · exact h

theorem append_bounded {cfg : Cfg} {now : Nat} {msg : Cur} {junk : Bytes} {st : St} (h : Bounded cfg.cap st) : Bounded cfg.cap (append cfg now msg junk st) := by
  rw [append]; split
  · exact h
  · dsimp only
    have hf := fill_le msg (cfg.cap - (st.buf.length + 5))
    rcases aacHeader cfg.hdr with _ | ⟨o, s, c⟩
    · refine ⟨?_, h.2⟩
      dsimp only
      rw [List.length_append, List.length_append, List.length_take]; omega
    · dsimp only
      obtain ⟨a1, a2, -⟩ := align_buf cfg now st.buf.isEmpty { st with buf := st.buf ++ (adts o s c (msg.flatten.length - 2 + 7) ++ (fill (cfg.cap - (st.buf.length + 5)) msg).drop 2) }
      refine ⟨?_, by rw [a2]; exact h.2⟩
      rw [a1]
      dsimp only
      rw [List.length_append, List.length_append, List.length_drop]
      have : (adts o s c (msg.flatten.length - 2 + 7)).length = 7 := rfl
      omega

/-- Whatever messages arrive: what is stored stays inside the audio buffer. -/
theorem C55_bounds_partial (cfg : Cfg) (opened : Bool) (evs : List Ev) : (run cfg { opened := opened } evs).buf.length ≤ cfg.cap ∧
    ∀ p ∈ (run cfg { opened := opened } evs).out, p.2.length ≤ cfg.cap := by
  suffices h : ∀ st, Bounded cfg.cap st → Bounded cfg.cap (run cfg st evs) from h _ ⟨Nat.zero_le _, fun p hp => absurd hp (by simp)⟩
  intro st h
  induction evs generalizing st with
  | nil => exact h
  | cons e evs ih =>
    refine ih _ ?_
    cases e with
    | opens =>
      rw [step]; split
      · exact h
      · exact flush_bounded h
    | closes => exact h
    | eof => exact flush_bounded h
    | video ts => exact due_bounded h
    | audio ts msg junk =>
      rw [step, audio]; split
      · exact h
      · dsimp only; split
        · exact h
        · refine append_bounded ?_
          split
          · exact flush_bounded (due_bounded h)
          · exact due_bounded h

/-- With the full buffer of `C55_violation_full`. -/
example : (run exCfg {} [.audio 0 [[0xaf, 1, 7, 8, 9, 10]] [], .audio 23 [[0xaf, 1, 7, 8, 9, 10]] []]).buf.length = exCfg.cap := by decide +kernel

end Verif.Adts
