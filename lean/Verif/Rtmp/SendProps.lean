import Verif.Rtmp.SendLemmas
/-
C10: repacking of payload into outgoing buffers; C02: serialise/parse round trip.
Specifications: `Packed`, `OkMsg` (SendSpec).
-/
namespace Verif.Send
open Verif Verif.Chunk Verif.Chunk.Spec
variable {σ : Type}

theorem dstOk_of_packed {cap : Nat} {dst : List Bytes} {bs : Bytes} (h : Packed cap dst bs) (hl : ∀ b, dst.getLast? = some b → b.length ≤ cap) :
    DstOk cap dst.dropLast dst.getLast? bs := by
  have hne := h.ne_nil
  rw [List.getLast?_eq_some_getLast hne]
  refine ⟨?_, hl _ (List.getLast?_eq_some_getLast hne)⟩
  rw [List.dropLast_concat_getLast hne]; exact h

theorem packed_last_le {cap : Nat} {dst : List Bytes} {bs : Bytes} (h : Packed cap dst bs) :
    ∀ b, dst.getLast? = some b → b.length ≤ cap := by
  induction h with
  | last b hb => intro b' e; simp at e; subst e; exact hb
  | cons b r bs h1 h2 h3 ih =>
    intro b' e
    apply ih
    rw [List.getLast?_cons] at e
    cases hr : r.getLast? with
    | none => rw [List.getLast?_eq_none_iff] at hr; exact absurd hr h3.ne_nil
    | some y => rw [hr] at e; simpa using e

/-- C10: whatever the segmentation of the source (empty buffers included), the new frame holds exactly the source
bytes, cut into full chunks and one last piece. -/
theorem C10_repack (c : Nat) (hc : 1 ≤ c) (cl : Bytes) (cls : List Bytes) :
    ∃ out, appendChain c [] cl cls = some out ∧ Packed c out (cl ++ cls.flatten) := by
  have := appendLoop_spec c hc (cl.length + cls.flatten.length + 2) [] none cl cls [] ⟨rfl, rfl⟩ (by simp) (by simp)
  simpa [appendChain] using this

/-- C10 (partial): appending to a frame that already has data. Missing: the case where the last buffer is exactly full and
all source buffers are empty, see the violation below (no caller in the code base appends twice). -/
theorem C10_append_partial (c : Nat) (hc : 1 ≤ c) (dst : List Bytes) (bs : Bytes) (hd : Packed c dst bs) (cl : Bytes)
    (cls : List Bytes) (hx : cl ++ cls.flatten ≠ [] ∨ ∀ b, dst.getLast? = some b → b.length < c) :
    ∃ out, appendChain c dst cl cls = some out ∧ Packed c out (bs ++ (cl ++ cls.flatten)) := by
  refine appendLoop_spec c hc _ _ _ _ _ _ (dstOk_of_packed hd (packed_last_le hd)) ?_ ?_
  · rintro ⟨b, e, hb⟩
    rcases hx with hx | hx
    · exact hx
    · have := hx b e; omega
  · split <;> omega

/-- C10 (partial): several appends give the same buffers as one append of the concatenation. -/
theorem C10_stepwise_partial (c : Nat) (hc : 1 ≤ c) (cl1 cl2 : Bytes) (cls1 cls2 : List Bytes) (h2 : cl2 ++ cls2.flatten ≠ []) :
    (appendChain c [] cl1 cls1).bind (fun d => appendChain c d cl2 cls2) = appendChain c [] cl1 (cls1 ++ cl2 :: cls2) := by
  obtain ⟨o1, e1, p1⟩ := C10_repack c hc cl1 cls1
  obtain ⟨o2, e2, p2⟩ := C10_append_partial c hc o1 _ p1 cl2 cls2 (Or.inl h2)
  obtain ⟨o3, e3, p3⟩ := C10_repack c hc cl1 (cls1 ++ cl2 :: cls2)
  rw [e1, e3]
  simp only [Option.bind_some, e2, Option.some.injEq]
  refine Packed.unique hc p2 ?_
  simpa using p3

example : Packed 4 [[1, 2, 3, 4], [5]] [1, 2, 3, 4, 5] ∧ appendChain 4 [[1, 2, 3, 4], [5]] [] [[6, 7, 8, 9], []] =
    some [[1, 2, 3, 4], [5, 6, 7, 8], [9]] :=
  ⟨Packed.cons [1, 2, 3, 4] [[5]] [5] rfl (by simp) (Packed.last _ (by decide)), by decide⟩

/-- C10 (violation): appending only empty buffers to a frame whose last buffer is full adds an empty buffer, which
`prepare_out_chain` turns into a chunk header without payload. -/
theorem C10_empty_append_violation :
    appendChain 4 [[1, 2, 3, 4]] [] [] = some [[1, 2, 3, 4], []] ∧
    prepareOut 32 true ⟨3, 0, 4, 9, 1⟩ [[1, 2, 3, 4], []] =
      (prepareOut 32 true ⟨3, 0, 4, 9, 1⟩ [[1, 2, 3, 4]]).map (· ++ [0xc3]) := by decide

/-- The bytes put on the wire for a frame made from payload buffers `cl :: cls` (`ngx_rtmp_shared_alloc_frame`, then
`ngx_rtmp_prepare_out_chain`). -/
def sendFrame (maxStreams : Nat) (playTimeFix : Bool) (chunk : Nat) (f : Hdr × Bytes × List Bytes) : Option Bytes :=
  (appendChain chunk [] f.2.1 f.2.2).bind (fun bufs => prepareOut maxStreams playTimeFix f.1 bufs)

/-- The message a frame stands for. -/
def frameMsg (f : Hdr × Bytes × List Bytes) : Msg :=
  ⟨{ f.1 with mlen := (f.2.1 ++ f.2.2.flatten).length }, f.2.1 ++ f.2.2.flatten⟩

/-- Serialise frames one after the other. -/
def sendFrames (maxStreams : Nat) (playTimeFix : Bool) (chunk : Nat) : List (Hdr × Bytes × List Bytes) → Option Bytes
  | [] => some []
  | f :: fs => (sendFrame maxStreams playTimeFix chunk f).bind fun a =>
      (sendFrames maxStreams playTimeFix chunk fs).map (a ++ ·)

/-- A handler that accepts every message. -/
def accept (f : σ → Msg → σ) : σ → Msg → σ × HRc := fun x m => (f x m, .ok)

theorem accept_nonshrinking (f : σ → Msg → σ) (chunk : Nat) : NonShrinking (accept f) (fun _ => chunk) := by
  intro x m x'
  exact ⟨fun _ => rfl, fun c h => by simp [accept] at h⟩

theorem frames_trace (cfg : Cfg) (play : Bool) (f : σ → Msg → σ) (fs : List (Hdr × Bytes × List Bytes)) (d : Snd)
    (hc : 1 ≤ d.chunk) (hr : Rested d) (x : σ) (hok : ∀ a ∈ fs, OkMsg cfg (frameMsg a))
    (hfix : play = cfg.publishTimeFix ∨ ∀ a ∈ fs, a.1.ts < 0xffffff) :
    ∃ es d', sendFrames cfg.maxStreams play d.chunk fs = some (trace cfg.publishTimeFix (accept f) x d es).1 ∧
      (trace cfg.publishTimeFix (accept f) x d es).2 = .live ((fs.map frameMsg).foldl f x) d' ∧
      Valid cfg (accept f) x d es := by
  induction fs generalizing x d with
  | nil => exact ⟨[], d, rfl, rfl, trivial⟩
  | cons a fs ih =>
    obtain ⟨out, e1, p1⟩ := C10_repack d.chunk hc a.2.1 a.2.2
    have hm := hok a (by simp)
    obtain ⟨d1, h1, h2, h3, h4, h5⟩ := msg_trace cfg play cfg.publishTimeFix f (frameMsg a) d hc x out hm hr p1
      (by rcases hfix with h | h
          · exact Or.inl h
          · exact Or.inr (h a (by simp)))
    obtain ⟨es, d', i1, i2, i3⟩ := ih d1 (by omega) h4 (f x (frameMsg a)) (fun b hb => hok b (by simp [hb]))
      (by rcases hfix with h | h
          · exact Or.inl h
          · exact Or.inr (fun b hb => h b (by simp [hb])))
    have htr : trace cfg.publishTimeFix (accept f) x d (events (frameMsg a) out) =
        ((trace cfg.publishTimeFix (accept f) x d (events (frameMsg a) out)).1, .live (f x (frameMsg a)) d1) := by
      rw [← h2]; rfl
    have hta := trace_append cfg.publishTimeFix (accept f) _ es x d htr
    refine ⟨events (frameMsg a) out ++ es, d', ?_, ?_, ?_⟩
    · rw [hta]
      simp only [sendFrames, sendFrame, e1, Option.bind_some]
      have hpo : prepareOut cfg.maxStreams play a.1 out = prepareOut cfg.maxStreams play (frameMsg a).hdr out := rfl
      rw [hpo, h1, Option.bind_some, ← h5, i1]
      rfl
    · rw [hta]; exact i2
    · exact valid_append cfg cfg.publishTimeFix (accept f) _ es x d htr h3 i3

/-- C02: any list of frames the server serialises is parsed by the receiver with the same chunk size into exactly the same
messages in the same order, for every segmentation of the byte stream; `f` is an arbitrary application (for instance one
that records the messages it is given), so nothing is added, lost, merged or reordered. The play- and publish-side handling
of extended timestamps must agree, as it does with default settings. -/
theorem C02_round_trip (cfg : Cfg) (chunk : Nat) (hc : 1 ≤ chunk) (fs : List (Hdr × Bytes × List Bytes))
    (hok : ∀ a ∈ fs, OkMsg cfg (frameMsg a)) (f : σ → Msg → σ) (x : σ) :
    ∃ wire, sendFrames cfg.maxStreams cfg.publishTimeFix chunk fs = some wire ∧
      ∀ segs : List Bytes, segs.flatten = wire →
        ∃ s', recvAll cfg (accept f) x (Sess.init chunk) segs = .idle ((fs.map frameMsg).foldl f x) s' := by
  obtain ⟨es, d', h1, h2, h3⟩ := frames_trace cfg cfg.publishTimeFix f fs (Snd.init chunk) hc (fun _ => rfl) x hok (Or.inl rfl)
  refine ⟨_, h1, fun segs hseg => ?_⟩
  have hub := (recvLoop_safe cfg (accept f) (fun _ => chunk) (accept_nonshrinking f chunk) (recvFuel segs) x (Sess.init chunk)
    segs (quiet_init chunk) rfl).1
  rw [recvAll_feed cfg (accept f) x chunk segs hub, hseg]
  have := trace_feed es (sim_init cfg chunk hc) h3 (smallPending_of_ok _ (by simp [accept]) es x _)
  rw [h2] at this
  obtain ⟨s', hs, _⟩ := this
  exact ⟨s', hs⟩

/-- C02: the same when the settings differ, as long as no timestamp needs the extended field. -/
theorem C02_round_trip_short_ts (cfg : Cfg) (play : Bool) (chunk : Nat) (hc : 1 ≤ chunk) (fs : List (Hdr × Bytes × List Bytes))
    (hok : ∀ a ∈ fs, OkMsg cfg (frameMsg a)) (hts : ∀ a ∈ fs, a.1.ts < 0xffffff) (f : σ → Msg → σ) (x : σ) :
    ∃ wire, sendFrames cfg.maxStreams play chunk fs = some wire ∧
      ∀ segs : List Bytes, segs.flatten = wire →
        ∃ s', recvAll cfg (accept f) x (Sess.init chunk) segs = .idle ((fs.map frameMsg).foldl f x) s' := by
  obtain ⟨es, d', h1, h2, h3⟩ := frames_trace cfg play f fs (Snd.init chunk) hc (fun _ => rfl) x hok (Or.inr hts)
  refine ⟨_, h1, fun segs hseg => ?_⟩
  have hub := (recvLoop_safe cfg (accept f) (fun _ => chunk) (accept_nonshrinking f chunk) (recvFuel segs) x (Sess.init chunk)
    segs (quiet_init chunk) rfl).1
  rw [recvAll_feed cfg (accept f) x chunk segs hub, hseg]
  have := trace_feed es (sim_init cfg chunk hc) h3 (smallPending_of_ok _ (by simp [accept]) es x _)
  rw [h2] at this
  obtain ⟨s', hs, _⟩ := this
  exact ⟨s', hs⟩

/-- Witness: two frames on different chunk streams, the second with an extended timestamp, an odd source segmentation
and a three-byte basic header. -/
example : let cfg : Cfg := ⟨1000, 1000, true⟩
    ∀ a ∈ [((⟨3, 5, 0, 8, 1⟩ : Hdr), ([] : Bytes), [[1, 2, 3], [], [4]]), (⟨400, 0x1000000, 0, 9, 1⟩, [1, 2, 3, 4, 5, 6, 7], [])],
      OkMsg cfg (frameMsg a) := by decide

/-- A frame on a chunk stream the receiver does not allow is not sent: the session is ended. -/
theorem C02_too_big_csid (maxStreams : Nat) (play : Bool) (hdr : Hdr) (bufs : List Bytes) (h : hdr.csid ≥ maxStreams) :
    prepareOut maxStreams play hdr bufs = none := by
  simp [prepareOut, h]

/-- Result projection for tests. -/
def got : Out (List Msg) → Option (List Msg)
  | .idle x _ => some x
  | _ => none

/-- When the settings disagree (the sender repeats extended timestamps, the receiver does not expect that) the claim is
false: a wrong payload is delivered, then the connection fails. -/
theorem C02_mismatched_time_fix_counterexample :
    ∃ wire, sendFrames 32 true 4 [(⟨3, 0xffffff, 0, 8, 1⟩, [1, 2, 3, 4, 5, 6], [])] = some wire ∧
      got (recvAll ⟨32, 1000, false⟩ (accept fun l m => l ++ [m]) [] (Sess.init 4) [wire.take 23]) =
        some [⟨⟨3, 0xffffff, 6, 8, 1⟩, [1, 2, 3, 4, 0, 255]⟩] ∧
      got (recvAll ⟨32, 1000, false⟩ (accept fun l m => l ++ [m]) [] (Sess.init 4) [wire]) = none := by
  refine ⟨_, rfl, ?_⟩
  decide +kernel

end Verif.Send
