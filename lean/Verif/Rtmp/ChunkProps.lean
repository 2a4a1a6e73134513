import Verif.Rtmp.ChunkBound
import Verif.Rtmp.SendLemmas
/-
C01: segmentation independence; C03: interleaved chunk streams; C04: max_message; C05: chunk size change;
C06: no write outside the input buffers. Specification of the sender: ChunkSpec.
-/
namespace Verif.Chunk
open Verif.Chunk.Spec
variable {σ : Type}

/-- A recording application which obeys set-chunk-size messages the way `ngx_rtmp_protocol_message_handler` does
(ngx_rtmp_receive.c:14-60: type 1, 4-byte big-endian value, not checked); used for concrete witnesses. -/
def recorder : List Msg → Msg → List Msg × HRc := fun l m =>
  (l ++ [m], if m.hdr.type = 1 ∧ m.payload.length ≥ 4 then .newChunk (beDec (m.payload.take 4)) else .ok)

def Out.isUb : Out σ → Bool
  | .ub => true
  | _ => false

def Out.state : Out σ → Option σ
  | .idle x _ => some x
  | _ => none

/-! ### C06 -/

/-- C06 (partial): as long as the peer never makes the chunk size smaller, no byte is ever written outside an input buffer,
whatever the bytes and the segmentation, and `recv` is never called with an empty buffer. Missing: shrinking chunk sizes. -/
theorem C06_no_overrun_partial (cfg : Cfg) (h : σ → Msg → σ × HRc) (cur : σ → Nat) (hns : NonShrinking h cur) (x : σ)
    (segs : List Bytes) : recvAll cfg h x (Sess.init (cur x)) segs ≠ .ub ∧
      ∀ x', recvAll cfg h x (Sess.init (cur x)) segs ≠ .stuck x' :=
  recvLoop_safe cfg h cur hns _ x _ segs (quiet_init _) rfl

/-- C06: the data carried over into the new buffers by a chunk size change never overruns them, whatever the sizes. -/
theorem C06_carry_over_fits (s : Sess) (size : Nat) (i : Nat) (f : Bytes) (hf : f ∈ ((setChunkSize s size).streams i).frags)
    (hs : (s.streams i).frags ≠ []) : f.length ≤ size + MAX_HEADER := by
  simp only [setChunkSize, if_neg hs] at hf
  exact copyFrags_fit _ _ [] _ (by simp) f hf

/-- C06 (violation): a set-chunk-size message to 1 followed, in the same read, by more bytes than a buffer of
the new size holds writes past the end of that buffer (ngx_rtmp_handler.c:249-250). -/
theorem C06_shrink_violation :
    (recvAll ⟨32, 1000, true⟩ recorder [] (Sess.init 128)
      [[2, 0, 0, 0, 0, 0, 4, 1, 0, 0, 0, 0, 0, 0, 0, 1] ++ List.replicate 20 0]).isUb = true := by
  decide +kernel

example : NonShrinking (fun (n : Nat) (m : Msg) =>
    if m.hdr.type = 1 ∧ n ≤ beDec m.payload then (beDec m.payload, HRc.newChunk (beDec m.payload)) else (n, HRc.ok)) id := by
  intro x m x'
  dsimp only
  split
  · rename_i hc
    refine ⟨fun h => by simp at h, fun c h => ?_⟩
    simp only [Prod.mk.injEq, HRc.newChunk.injEq] at h
    obtain ⟨rfl, rfl⟩ := h
    exact ⟨hc.2, rfl⟩
  · refine ⟨fun h => ?_, fun c h => by simp at h⟩
    simp only [Prod.mk.injEq] at h
    exact h.1.symm

/-! ### C01 -/

/-- C01 (partial): two segmentations of the same bytes give the same outcome (state of the application, i.e. everything
it was told; receiver state; error), provided neither runs into the buffer overrun of C06. -/
theorem C01_segmentation_partial (cfg : Cfg) (h : σ → Msg → σ × HRc) (x : σ) (chunk : Nat) (segs1 segs2 : List Bytes)
    (heq : segs1.flatten = segs2.flatten)
    (h1 : recvAll cfg h x (Sess.init chunk) segs1 ≠ .ub) (h2 : recvAll cfg h x (Sess.init chunk) segs2 ≠ .ub) :
    recvAll cfg h x (Sess.init chunk) segs1 = recvAll cfg h x (Sess.init chunk) segs2 := by
  rw [recvAll_feed cfg h x chunk segs1 h1, recvAll_feed cfg h x chunk segs2 h2, heq]

/-- C01 (partial): unconditional when the chunk size never shrinks. -/
theorem C01_segmentation_nonshrinking_partial (cfg : Cfg) (h : σ → Msg → σ × HRc) (cur : σ → Nat) (hns : NonShrinking h cur)
    (x : σ) (segs1 segs2 : List Bytes) (heq : segs1.flatten = segs2.flatten) :
    recvAll cfg h x (Sess.init (cur x)) segs1 = recvAll cfg h x (Sess.init (cur x)) segs2 :=
  C01_segmentation_partial cfg h x (cur x) segs1 segs2 heq (C06_no_overrun_partial cfg h cur hns x segs1).1
    (C06_no_overrun_partial cfg h cur hns x segs2).1

/-- C01 (violation): with a shrinking chunk size the outcome depends on the segmentation: read in one piece the bytes of
`C06_shrink_violation` overrun a buffer, read in two pieces they do not. -/
theorem C01_segmentation_violation :
    ∃ segs1 segs2 : List Bytes, segs1.flatten = segs2.flatten ∧
      (recvAll ⟨32, 1000, true⟩ recorder [] (Sess.init 128) segs1).isUb = true ∧
      (recvAll ⟨32, 1000, true⟩ recorder [] (Sess.init 128) segs2).isUb = false :=
  ⟨[[2, 0, 0, 0, 0, 0, 4, 1, 0, 0, 0, 0, 0, 0, 0, 1] ++ List.replicate 20 0],
   [[2, 0, 0, 0, 0, 0, 4, 1, 0, 0, 0, 0, 0, 0, 0, 1], List.replicate 20 0], by decide, by decide +kernel, by decide +kernel⟩

/-- Witness: a 6-byte message over chunks of 4 bytes, read in odd pieces. -/
example : (recvAll ⟨32, 1000, true⟩ recorder [] (Sess.init 4)
      [[3, 0, 0], [5, 0, 0, 6, 8, 1, 0, 0, 0, 1, 2], [3, 4, 0xc3, 5], [6]]).state =
    some [⟨⟨3, 5, 6, 8, 1⟩, [1, 2, 3, 4, 5, 6]⟩] := by decide +kernel

/-! ### C03 -/

/-- The application never changes the chunk size. -/
def Steady (h : σ → Msg → σ × HRc) : Prop := ∀ x m c, (h x m).2 ≠ .newChunk c

theorem steady_nonshrinking {h : σ → Msg → σ × HRc} (hs : Steady h) (chunk : Nat) : NonShrinking h (fun _ => chunk) := by
  intro x m x'
  refine ⟨fun _ => rfl, fun c hc => ?_⟩
  exact absurd (by rw [hc]) (hs x m c)

/-- C03: for every interleaving of chunks that obeys the protocol, every segmentation and every application, the application
is given exactly the completed messages, complete and in the order of completion; the connection stays up unless
the application refuses a message. -/
theorem C03_interleaving (cfg : Cfg) (chunk : Nat) (hc : 1 ≤ chunk) (h : σ → Msg → σ × HRc) (hst : Steady h) (x : σ)
    (es : List Ev) (hv : Valid cfg h x (Snd.init chunk) es) (segs : List Bytes)
    (hw : segs.flatten = (trace cfg.publishTimeFix h x (Snd.init chunk) es).1) :
    match (trace cfg.publishTimeFix h x (Snd.init chunk) es).2 with
    | .live x' _ => ∃ s', recvAll cfg h x (Sess.init chunk) segs = .idle x' s'
    | .closed x' => recvAll cfg h x (Sess.init chunk) segs = .err x' := by
  have hub := (C06_no_overrun_partial cfg h (fun _ => chunk) (steady_nonshrinking hst chunk) x segs).1
  rw [recvAll_feed cfg h x chunk segs hub, hw]
  have := trace_feed es (sim_init cfg chunk hc) hv (Send.smallPending_of_ok h hst es x _)
  revert this
  cases (trace cfg.publishTimeFix h x (Snd.init chunk) es).2 with
  | live x' d' => exact fun ⟨s', a, _⟩ => ⟨s', a⟩
  | closed x' => exact id

/-- The messages completed by a list of chunks. -/
def completed : Snd → List Ev → List Msg
  | _, [] => []
  | d, e :: es => (e.next d).2.toList ++ completed (e.next d).1 es

/-- All chunks obey the protocol (no application involved). -/
def Conforming (cfg : Cfg) : Snd → List Ev → Prop
  | _, [] => True
  | d, e :: es => e.valid cfg d ∧ Conforming cfg (e.next d).1 es

theorem trace_accept (cfg : Cfg) (es : List Ev) (d : Snd) (l : List Msg) (hv : Conforming cfg d es) :
    Valid cfg (fun l m => (l ++ [m], HRc.ok)) l d es ∧
    ∃ d', (trace cfg.publishTimeFix (fun l m => (l ++ [m], HRc.ok)) l d es).2 = .live (l ++ completed d es) d' := by
  induction es generalizing d l with
  | nil => exact ⟨trivial, d, by simp [trace, completed]⟩
  | cons e es ih =>
    obtain ⟨h1, h2⟩ := hv
    rcases hn : e.next d with ⟨d1, _ | m⟩
    · rw [hn] at h2
      obtain ⟨i1, d', i2⟩ := ih d1 l h2
      have hef : e.effect (fun l m => (l ++ [m], HRc.ok)) l d = .live l d1 := by simp only [Ev.effect, hn]
      refine ⟨⟨h1, by rw [hef]; exact i1⟩, d', ?_⟩
      simp only [trace, hef, completed, hn, Option.toList_none, List.nil_append]
      exact i2
    · rw [hn] at h2
      obtain ⟨i1, d', i2⟩ := ih d1 (l ++ [m]) h2
      have hef : e.effect (fun l m => (l ++ [m], HRc.ok)) l d = .live (l ++ [m]) d1 := by
        simp only [Ev.effect, hn, react]
      refine ⟨⟨h1, by rw [hef]; exact i1⟩, d', ?_⟩
      simp only [trace, hef, completed, hn, Option.toList_some]
      rw [i2]
      simp

/-- C03, spelled out for an application that records what it is given: the record is the list of completed messages. -/
theorem C03_delivered (cfg : Cfg) (chunk : Nat) (hc : 1 ≤ chunk) (es : List Ev) (hv : Conforming cfg (Snd.init chunk) es)
    (segs : List Bytes)
    (hw : segs.flatten = (trace cfg.publishTimeFix (fun (l : List Msg) m => (l ++ [m], HRc.ok)) [] (Snd.init chunk) es).1) :
    ∃ s', recvAll cfg (fun (l : List Msg) m => (l ++ [m], HRc.ok)) [] (Sess.init chunk) segs =
      .idle (completed (Snd.init chunk) es) s' := by
  obtain ⟨h1, d', h2⟩ := trace_accept cfg es (Snd.init chunk) [] hv
  have := C03_interleaving cfg chunk hc _ (by intro x m c; simp) [] es h1 segs hw
  rw [h2] at this
  simpa using this

/-- Witness: two messages on chunk streams 3 and 70, interleaved, then format 1 and format 3 messages, and the messages
they amount to. -/
example : let es : List Ev := [.start 3 false 0 100 8 1 [1, 2, 3, 4, 5, 6], .start 70 true 0 0x1000000 9 1 [7, 8, 9, 10, 11],
      .cont 70 false, .cont 3 false, .start 3 false 1 20 9 1 [1, 2], .start 3 false 3 20 9 1 [3, 4]]
    Conforming ⟨100, 1000, true⟩ (Snd.init 4) es ∧ completed (Snd.init 4) es =
      [⟨⟨70, 0x1000000, 5, 9, 1⟩, [7, 8, 9, 10, 11]⟩, ⟨⟨3, 100, 6, 8, 1⟩, [1, 2, 3, 4, 5, 6]⟩,
       ⟨⟨3, 120, 2, 9, 1⟩, [1, 2]⟩, ⟨⟨3, 140, 2, 9, 1⟩, [3, 4]⟩] := by
  refine ⟨?_, by decide⟩
  refine ⟨by decide, by decide, by decide, by decide, by decide, by decide, trivial⟩

/-- A corner of the protocol the implementation decides differently: after a format 0 header the RTMP specification makes a
format 3 chunk that starts a message reuse the timestamp of that header as delta (here 100, giving 200); the server uses
delta 0. -/
theorem C03_type3_after_type0 :
    (recvAll ⟨32, 1000, true⟩ recorder [] (Sess.init 128)
      [[3, 0, 0, 100, 0, 0, 1, 8, 1, 0, 0, 0, 7, 0xc3, 8]]).state =
    some [⟨⟨3, 100, 1, 8, 1⟩, [7]⟩, ⟨⟨3, 100, 1, 8, 1⟩, [8]⟩] := by decide +kernel

/-! ### C05 -/

/-- C05 (partial): chunk size changes in the middle of interleaved messages lose nothing, when the chunk size never
shrinks and the part of each unfinished message received so far fits one buffer of the new size. Missing: larger unfinished
messages and shrinking sizes, see the violations. -/
theorem C05_chunk_size_change_partial (cfg : Cfg) (h : σ → Msg → σ × HRc) (cur : σ → Nat) (hns : NonShrinking h cur) (x : σ)
    (hc : 1 ≤ cur x) (es : List Ev) (hv : Valid cfg h x (Snd.init (cur x)) es) (hp : SmallPending h x (Snd.init (cur x)) es)
    (segs : List Bytes) (hw : segs.flatten = (trace cfg.publishTimeFix h x (Snd.init (cur x)) es).1) :
    match (trace cfg.publishTimeFix h x (Snd.init (cur x)) es).2 with
    | .live x' _ => ∃ s', recvAll cfg h x (Sess.init (cur x)) segs = .idle x' s'
    | .closed x' => recvAll cfg h x (Sess.init (cur x)) segs = .err x' := by
  have hub := (C06_no_overrun_partial cfg h cur hns x segs).1
  rw [recvAll_feed cfg h x (cur x) segs hub, hw]
  have := trace_feed es (sim_init cfg (cur x) hc) hv hp
  revert this
  cases (trace cfg.publishTimeFix h x (Snd.init (cur x)) es).2 with
  | live x' d' => exact fun ⟨s', a, _⟩ => ⟨s', a⟩
  | closed x' => exact id

/-- C05 (partial): the same for shrinking sizes, for segmentations that do not overrun a buffer. -/
theorem C05_chunk_size_shrink_partial (cfg : Cfg) (h : σ → Msg → σ × HRc) (x : σ) (chunk : Nat) (hc : 1 ≤ chunk) (es : List Ev)
    (hv : Valid cfg h x (Snd.init chunk) es) (hp : SmallPending h x (Snd.init chunk) es) (segs : List Bytes)
    (hw : segs.flatten = (trace cfg.publishTimeFix h x (Snd.init chunk) es).1)
    (hub : recvAll cfg h x (Sess.init chunk) segs ≠ .ub) :
    match (trace cfg.publishTimeFix h x (Snd.init chunk) es).2 with
    | .live x' _ => ∃ s', recvAll cfg h x (Sess.init chunk) segs = .idle x' s'
    | .closed x' => recvAll cfg h x (Sess.init chunk) segs = .err x' := by
  rw [recvAll_feed cfg h x chunk segs hub, hw]
  have := trace_feed es (sim_init cfg chunk hc) hv hp
  revert this
  cases (trace cfg.publishTimeFix h x (Snd.init chunk) es).2 with
  | live x' d' => exact fun ⟨s', a, _⟩ => ⟨s', a⟩
  | closed x' => exact id

/-- Chunks used below: a 60-byte message on chunk stream 3, interrupted after `4 + 4 n` bytes by
set-chunk-size 5. -/
def lossEvents (n : Nat) : List Ev :=
  .start 3 false 0 0 8 1 ((List.range 60).map UInt8.ofNat) :: List.replicate n (.cont 3 false) ++
    [.start 2 false 0 0 1 0 [0, 0, 0, 5]] ++ List.replicate 4 (.cont 3 false)

/-- Witness for the hypotheses of the partial theorem: the same with only 8 bytes received before the change to 64. -/
example : (trace true recorder [] (Snd.init 4) [.start 3 false 0 0 8 1 ((List.range 60).map UInt8.ofNat), .cont 3 false,
      .start 2 false 0 0 1 0 [0, 0, 0, 64], .cont 3 false]).2 matches .live [_, _] _ := rfl

/-- C05 (violation): the peer sends 40 of 60 bytes of a message in chunks of 4, then enlarges the chunk size to 5, then
sends the rest: all chunks obey the protocol, the size grows, yet the message delivered is 57 bytes long instead of 60
(ngx_rtmp_handler.c:942-945 does not advance `bo->last`). -/
theorem C05_pending_data_lost_violation :
    ((recvAll ⟨32, 1000, true⟩ recorder [] (Sess.init 4)
      [(trace true recorder [] (Snd.init 4) (lossEvents 9)).1]).state.map (·.map (·.payload.length))) = some [4, 57] ∧
    ((match (trace true recorder [] (Snd.init 4) (lossEvents 9)).2 with
      | .live l _ => l.map (·.payload.length) | .closed _ => []) = [4, 60]) := by
  decide +kernel

/-! ### C04 -/

/-- C04 (partial): as long as no header in the middle of a message announces less than what was already received of it,
at most `max_message` bytes are accumulated for any message, and every message the application is given has at most that
length (formally: a property of the application state that is kept by handling messages up to that length always holds).
The bytes, the application and the order of reads are arbitrary. -/
theorem C04_bounded_partial (cfg : Cfg) (h : σ → Msg → σ × HRc) (x : σ) (chunk : Nat) (P : σ → Prop) (h0 : P x)
    (hP : ∀ x m, P x → m.payload.length ≤ cfg.maxMessage → m.hdr.mlen ≤ cfg.maxMessage → P (h x m).1)
    (c : σ × Sess) (hr : Reach cfg h (x, Sess.init chunk) c) :
    P c.1 ∧ ∀ i, (c.2.streams i).frags.flatten.length ≤ cfg.maxMessage := by
  have : P c.1 ∧ Bounded cfg c.2 := by
    induction hr with
    | refl => exact ⟨h0, bounded_init cfg chunk⟩
    | step _ hg hs ih => exact step_bounded P hP ih.1 ih.2 hg hs
  exact ⟨this.1, fun i => Nat.le_trans (this.2.st i).a (this.2.st i).b⟩

/-- C04: a header announcing more than `max_message` ends the session, whatever was received before it and whatever follows;
the application is not called again. -/
theorem C04_too_big_rejected (cfg : Cfg) (h : σ → Msg → σ × HRc) (x x' : σ) (s : Sess) (chunk : Nat) (pre post : Bytes)
    (hpre : recvAll cfg h x (Sess.init chunk) [pre] = .idle x' s) (hidle : s.buf = [] ∧ s.pos = 0 ∧ s.inCsid = 0)
    (wide rep : Bool) (fmt csid t mlen type msid : Nat) (hf : fmt ≤ 1) (h2 : 2 ≤ csid) (hc : csid < 65600)
    (hcm : csid < cfg.maxStreams) (ht : t < 2 ^ 32) (hm : mlen < 2 ^ 24) (hty : type < 256) (hms : msid < 2 ^ 32)
    (hbig : mlen > cfg.maxMessage) (segs : List Bytes)
    (hseg : segs.flatten = pre ++ (encBasic wide fmt csid ++ encMsgHdr rep fmt t mlen type msid) ++ post)
    (hub : recvAll cfg h x (Sess.init chunk) segs ≠ .ub) :
    recvAll cfg h x (Sess.init chunk) segs = .err x' := by
  have hp1 : feed cfg h x (Sess.init chunk) pre = .idle x' s := by
    rw [← hpre, recvAll_feed cfg h x chunk [pre] (by rw [hpre]; simp)]; simp
  have hbi : BufInv s := ⟨by rw [hidle.2.1]; exact Nat.zero_le _, by rw [hidle.2.1]; exact Nat.zero_le _⟩
  rw [recvAll_feed cfg h x chunk segs hub, hseg, List.append_assoc, feed_append cfg h x _ _ _ (quiet_init chunk).1, hp1]
  simp only
  rw [feed_append cfg h x' s _ _ hbi]
  have hne : encBasic wide fmt csid ++ encMsgHdr rep fmt t mlen type msid ≠ [] := by
    intro hh
    have := congrArg List.length hh
    have h1 := encBasic_pos wide fmt csid
    simp at this
    simp [this.1] at h1
  have hbad : parseHeader cfg (s.add (encBasic wide fmt csid ++ encMsgHdr rep fmt t mlen type msid)) = .bad := by
    have hb : (s.add (encBasic wide fmt csid ++ encMsgHdr rep fmt t mlen type msid)).buf =
        encBasic wide fmt csid ++ encMsgHdr rep fmt t mlen type msid := by rw [add_buf, hidle.1]; rfl
    have hE : ∃ e le r3, parseExt fmt (s.streams csid).lastExt (min t 0xffffff) (decide (t ≥ 0xffffff))
        ((if t ≥ 0xffffff ∧ (fmt ≤ 2 ∨ rep = true) then beEnc 4 t else []) ++ []) = some (t, e, le, r3) := by
      by_cases hx : t ≥ 0xffffff
      · rw [if_pos ⟨hx, Or.inl (by omega)⟩, show decide (t ≥ 0xffffff) = true by simp [hx]]
        exact ⟨_, _, _, parseExt_wire fmt _ _ t [] ht (by omega)⟩
      · rw [if_neg (by omega), show decide (t ≥ 0xffffff) = false by simp [hx], Nat.min_eq_left (by omega)]
        exact ⟨_, _, _, parseExt_none_wire _ _ _ _⟩
    obtain ⟨e, le, r3, hE⟩ := hE
    refine parseHeader_too_big (fmt := fmt) (csid := csid) (r1 := encMsgHdr rep fmt t mlen type msid) ?_ ?_ hcm ?_ hE ?_
      (h := newHdr { (s.streams csid).hdr with csid := csid } fmt mlen type msid)
    · exact hidle.2.2
    · rw [hb]; exact parseBasic_enc wide fmt csid _ (by omega) h2 hc
    · have henc : encMsgHdr rep fmt t mlen type msid = (if fmt ≤ 2 then beEnc 3 (min t 0xffffff) else []) ++
          (if fmt ≤ 1 then beEnc 3 mlen ++ [UInt8.ofNat type] else []) ++ (if fmt = 0 then leEnc 4 msid else []) ++
          ((if t ≥ 0xffffff ∧ (fmt ≤ 2 ∨ rep = true) then beEnc 4 t else []) ++ []) := by
        rw [List.append_nil]; rfl
      have f2 : fmt ≤ 2 := by omega
      have hm' := parseMsgHdr_enc fmt t mlen type msid
        { s.streams csid with hdr := { (s.streams csid).hdr with csid := csid } }
        ((if t ≥ 0xffffff ∧ (fmt ≤ 2 ∨ rep = true) then beEnc 4 t else []) ++ []) hm hty hms
      rw [← henc, show (if fmt ≤ 2 then min t 0xffffff else (s.streams csid).dtime) = min t 0xffffff from if_pos f2,
        show (if fmt ≤ 2 then decide (t ≥ 0xffffff) else (s.streams csid).ext) = decide (t ≥ 0xffffff) from if_pos f2] at hm'
      exact hm'
    · have : (newHdr { (s.streams csid).hdr with csid := csid } fmt mlen type msid).mlen = mlen := by
        unfold newHdr
        split <;> simp_all
      omega
  have hz : (s.add (encBasic wide fmt csid ++ encMsgHdr rep fmt t mlen type msid)).pos = 0 := by
    rw [add_pos]; exact hidle.2.1
  rw [(feed_one (cfg := cfg) (h := h) (x := x') hidle.1 hne).2 x' (process_bad hz hbad)]

/-- C04 (violation): with max_message 10 and chunk size 4, a second header in the middle of an 8-byte message announcing
one byte makes the receiver accumulate without limit: here 20 bytes are buffered and the session is still alive
(`h->mlen - st->len` wraps, ngx_rtmp_handler.c:470). -/
theorem C04_accumulation_violation :
    (match recvAll ⟨32, 10, true⟩ recorder [] (Sess.init 4)
        [[3, 0, 0, 0, 0, 0, 8, 8, 1, 0, 0, 0, 1, 2, 3, 4, 3, 0, 0, 0, 0, 0, 1, 8, 1, 0, 0, 0, 1, 2, 3, 4,
          0xc3, 1, 2, 3, 4, 0xc3, 1, 2, 3, 4, 0xc3, 1, 2, 3, 4]] with
     | .idle _ s => (s.streams 3).frags.flatten.length
     | _ => 0) = 20 := by decide +kernel

/-- Witness for the hypotheses of `C04_too_big_rejected`. -/
example : ∃ s, recvAll ⟨32, 10, true⟩ recorder [] (Sess.init 4) [[3, 0, 0, 0, 0, 0, 1, 8, 1, 0, 0, 0, 1]] =
      .idle [⟨⟨3, 0, 1, 8, 1⟩, [1]⟩] s ∧ s.buf = [] ∧ s.pos = 0 ∧ s.inCsid = 0 := by
  have h : (match recvAll ⟨32, 10, true⟩ recorder [] (Sess.init 4) [[3, 0, 0, 0, 0, 0, 1, 8, 1, 0, 0, 0, 1]] with
      | .idle x s => decide (x = [⟨⟨3, 0, 1, 8, 1⟩, [1]⟩] ∧ s.buf = [] ∧ s.pos = 0 ∧ s.inCsid = 0)
      | _ => false) = true := by decide +kernel
  split at h
  · rename_i x s he
    have h := of_decide_eq_true h
    exact ⟨s, by rw [he, h.1], h.2⟩
  · cases h

end Verif.Chunk
