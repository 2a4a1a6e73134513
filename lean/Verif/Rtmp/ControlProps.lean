import Verif.Rtmp.ControlModel
import Verif.Rtmp.FrameProps
import Verif.Rtmp.SendLemmas
/-
C16: control messages encode what the API says. C41: control messages do not depend on earlier frames.
-/
namespace Verif.Control
open Verif Verif.Send

/-- Specification: what the peer should make of each message. -/
def meaning : Ctl → Act
  | .chunkSize n => .setChunkSize n
  | .abort csid => .abort csid
  | .ack seq => .ack seq
  | .ackSize n => .setAckSize n
  | .bandwidth n l => .bandwidth n l
  | .streamBegin m => .streamBegin m
  | .streamEof m => .streamEof m
  | .streamDry m => .streamDry m
  | .setBuflen m t => .setBuflen m t
  | .recorded m => .recorded m
  | .pingRequest t => .sendPingResponse t
  | .pingResponse _ => .resetPing

/-- Arguments fit their C types. -/
def Ok : Ctl → Prop
  | .chunkSize n | .abort n | .ack n | .ackSize n | .streamBegin n | .streamEof n | .streamDry n | .recorded n
  | .pingRequest n | .pingResponse n => n < 2 ^ 32
  | .bandwidth n l => n < 2 ^ 32 ∧ l < 2 ^ 8
  | .setBuflen m t => m < 2 ^ 32 ∧ t < 2 ^ 32

theorem packed_single {c : Nat} {out : List Bytes} {bs : Bytes} (h : Packed c out bs) (hb : bs.length ≤ c) : out = [bs] := by
  cases h with
  | last _ _ => rfl
  | cons b r bs' h1 h2 _ =>
    have := List.length_pos_iff.2 h2
    rw [List.length_append] at hb
    omega

theorem out4_dec (n : Nat) (h : n < 2 ^ 32) : beDec (out4 n) = n := beDec_beEnc_of_lt (by omega)
theorem out4_len (n : Nat) : (out4 n).length = 4 := beEnc_length 4 n

theorem take4 (n : Nat) (r : Bytes) : (out4 n ++ r).take 4 = out4 n := by
  rw [List.take_append_of_le_length (by rw [out4_len]; exact Nat.le_refl _), List.take_of_length_le (by rw [out4_len]; exact Nat.le_refl _)]
theorem drop4 (n : Nat) (r : Bytes) : (out4 n ++ r).drop 4 = r := List.drop_left' (out4_len n)

theorem utype_len (t : Nat) : (utype t).length = 2 := rfl
theorem utype_dec : beDec (utype 0) = 0 ∧ beDec (utype 1) = 1 ∧ beDec (utype 2) = 2 ∧ beDec (utype 3) = 3 ∧
    beDec (utype 4) = 4 ∧ beDec (utype 6) = 6 ∧ beDec (utype 7) = 7 := by decide

theorem user_val (t n : Nat) (r : Bytes) : (utype t ++ out4 n ++ r).take 2 = utype t ∧
    ((utype t ++ out4 n ++ r).drop 2).take 4 = out4 n ∧ (utype t ++ out4 n ++ r).drop 6 = r := by
  refine ⟨rfl, ?_, ?_⟩
  · rw [List.append_assoc, List.drop_left' (by rfl : (utype t).length = 2), take4]
  · rw [List.append_assoc, show 6 = 2 + 4 from rfl, ← List.drop_drop, List.drop_left' (by rfl : (utype t).length = 2), drop4]

/-- C16 (partial): every constructor except abort: the message is created within its buffer, and whatever the peer's
buffers, as long as its receive chunk size is at least the output chunk size (here: it cuts the payload at the same size `c` or
a larger one), it is understood as that message with the same arguments. Missing: abort and chunk sizes below 10, see the
violations. -/
theorem C16_round_trip_partial (c : Nat) (hc : 10 ≤ c) (old : Frame.Hdr) (m : Ctl) (hm : Ok m) (hab : ∀ n, m ≠ .abort n)
    (rc : Nat) (hrc : c ≤ rc) :
    ∃ hdr bytes, create c old m = some (hdr, bytes) ∧ hdr.csid = 2 ∧
      ∀ bufs, Packed rc bufs bytes → handle hdr.type bufs = meaning m := by
  have hlen : (content m).2.length ≤ 10 := by
    cases m <;> simp [content, utype, out4_len]
  refine ⟨{ old with type := (content m).1, csid := 2 }, (content m).2, if_pos (by omega), rfl, fun bufs hp => ?_⟩
  rw [packed_single hp (by omega)]
  have hd := out4_dec
  cases m with
  | abort n => exact absurd rfl (hab n)
  | chunkSize n | ack n | ackSize n =>
    simp only [content, handle, protocolMessage, meaning]
    simp [out4_len, List.take_of_length_le, hd n hm]
  | bandwidth n l =>
    obtain ⟨h1, h2⟩ := hm
    simp only [content, handle, protocolMessage, meaning, take4, drop4]
    simp [out4_len, hd n h1]
    omega
  | streamBegin n | streamEof n | streamDry n | recorded n | pingRequest n | pingResponse n =>
    have hu := fun t => user_val t n []
    simp only [List.append_nil] at hu
    simp only [content, handle, userMessage, meaning, hu]
    simp [out4_len, utype_len, hd n hm, utype_dec]
  | setBuflen n t =>
    obtain ⟨h1, h2⟩ := hm
    have hu := user_val 3 n (out4 t)
    simp only [content, handle, userMessage, meaning, hu]
    simp [out4_len, utype_len, hd n h1, hd t h2, utype_dec, List.take_of_length_le]

example : Ok (.setBuflen 1 3000) ∧ (∀ n, Ctl.setBuflen 1 3000 ≠ .abort n) ∧
    Packed 128 [[0, 3, 0, 0, 0, 1, 0, 0, 0x0b, 0xb8]] (content (.setBuflen 1 3000)).2 :=
  ⟨⟨by decide, by decide⟩, by simp, .last _ (by decide)⟩

/-- C16 (violation): an abort for chunk stream `csid` is understood by the peer as a new chunk size `csid`
(ngx_rtmp_send.c:101). -/
theorem C16_abort_violation (c : Nat) (hc : 10 ≤ c) (old : Frame.Hdr) (csid : Nat) (h : csid < 2 ^ 32) :
    ∃ hdr bytes, create c old (.abort csid) = some (hdr, bytes) ∧ hdr.type = 1 ∧
      ∀ bufs, Packed c bufs bytes → handle hdr.type bufs = .setChunkSize csid := by
  refine ⟨{ old with type := 1, csid := 2 }, out4 csid, if_pos (by simp [content, out4_len]; omega), rfl, fun bufs hp => ?_⟩
  rw [packed_single hp (by rw [out4_len]; omega)]
  simp [handle, protocolMessage, out4_len, List.take_of_length_le, out4_dec csid h]

/-- C16 (violation): a peer that cuts messages into chunks of 3 bytes has its control messages ignored (only the first
buffer is looked at), although the message arrives complete. -/
theorem C16_small_chunk_violation (n : Nat) :
    ∃ bufs, Packed 3 bufs (content (.ackSize n)).2 ∧ handle 5 bufs = .ignored := by
  refine ⟨[(out4 n).take 3, (out4 n).drop 3], ?_, ?_⟩
  · have h : (content (.ackSize n)).2 = (out4 n).take 3 ++ (out4 n).drop 3 := (List.take_append_drop 3 _).symm
    rw [h]
    refine .cons _ _ _ (by simp [out4_len]) ?_ (.last _ (by simp [out4_len]))
    intro h
    have := congrArg List.length h
    simp [out4_len] at this
  · simp [handle, protocolMessage, out4_len]

/-- C16 (violation): with a configured output chunk size below 10 a constructor writes past the end of its buffer. -/
theorem C16_tiny_buffer_violation (c : Nat) (hc : c < 10) (old : Frame.Hdr) (m t : Nat) :
    create c old (.setBuflen m t) = none := by
  unfold create
  rw [if_neg (by simp [content, utype, out4_len]; omega)]

/-! ### C41 -/

/-- The header of a control message created from a given pool state: the header left in the frame memory, with type and
chunk stream overwritten (ngx_rtmp_send.c:24-26). -/
def headerOf (s : Frame.St) (chain : List Nat) (m : Ctl) : Frame.Hdr :=
  { ((Frame.alloc s .rtmp chain).1.heap (Frame.alloc s .rtmp chain).2).hdr with type := (content m).1, csid := 2 }

/-- C41 (partial): as long as no frame has been given back to the pool, a control message has timestamp 0 and message stream 0.
Missing: recycled frames, see the violation. -/
theorem C41_control_header_partial (s : Frame.St) (hfree : s.free .rtmp = none) (chain : List Nat) (m : Ctl) :
    headerOf s chain m = ⟨2, 0, 0, (content m).1, 0⟩ := by
  unfold headerOf Frame.alloc
  rw [hfree]
  simp

example : Frame.init.free .rtmp = none := rfl

/-- C41 (violation): after a frame of a media message (timestamp 5000, message stream 1) was given back, the next control message
is sent with that timestamp and message stream: `ngx_rtmp_shared_alloc_frame` does not clear recycled frames and
NGX_RTMP_USER_START only sets type and chunk stream. -/
theorem C41_stale_header_violation :
    ∃ s held, Frame.Reach s held ∧ ∃ a, held a = 1 ∧
      let s1 := s.setFrame a { s.heap a with hdr := ⟨6, 5000, 0, 9, 1⟩ }  -- the owner fills in the header
      headerOf (Frame.release s1 a).1 [] (.pingRequest 7) = ⟨2, 5000, 0, 4, 1⟩ :=
  ⟨_, _, .step (op := .alloc .rtmp []) .init trivial, 0, by decide, by decide⟩

/-- MPEG-TS frames are cleared when recycled. -/
theorem C41_mpegts_cleared (s : Frame.St) (a : Nat) (chain : List Nat) (h : s.free .mpegts = some a) :
    (Frame.alloc s .mpegts chain).1.heap a = { ref := 1, chain := chain } := by
  unfold Frame.alloc
  rw [h]
  simp [Frame.St.setFrame]

end Verif.Control
