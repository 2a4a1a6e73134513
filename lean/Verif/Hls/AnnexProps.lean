import Verif.Hls.AnnexUnits
import Verif.Hls.AnnexSafe
/- Property C54: H.264 messages as Annex B access units. -/
namespace Verif.Annex
open Verif

/-- However message and codec header are cut into buffers: what is written decodes to the access unit made of the NAL units of the message. Missing: messages whose last NAL
unit has one byte (`C54_violation_end`). -/
theorem C54_annexb_partial (v : Variant) (cap nb : Nat) (hnb : 0 < nb) (p : Params) (hp : p.Ok) (hdr : Cur) (hh : hdr.flatten = p.bytes)
    (src : List Bytes) (hsrc : ∀ n ∈ src, Nal n ∧ n.length < 256 ^ nb) (hlast : ∀ n, src.getLast? = some n → n.length ≠ 1)
    (fmt : UInt8) (cts : Bytes) (hcts : cts.length = 3) (msg : Cur) (hm : msg.flatten = fmt :: 1 :: (cts ++ lenPrefixed nb src)) (hcap : room p src ≤ cap) :
    ∃ out D, video v cap nb hdr msg = (some (fmt.toNat / 16, beDec cts), .frame out) ∧ decoded out = some D ∧ AccessUnit p src D := by
  have m1 : msg.flatten = [fmt] ++ ([1] ++ (cts ++ lenPrefixed nb src)) := hm
  obtain ⟨c1, e1, f1, N1⟩ := copy_pre (ne_of_length (by rw [m1]; simp)) m1
  obtain ⟨c2, e2, f2, N2⟩ := copy_pre (ne_of_length (by rw [f1]; simp)) f1
  obtain ⟨c3, e3, f3, N3⟩ := copy_pre (ne_of_length (by rw [f2, List.length_append, hcts]; omega)) f2
  rw [hcts] at e3
  obtain ⟨out, o1, o2⟩ := nals_ok (v := v) (cap := cap) hp hh hnb src (fun n h => ⟨(hsrc n h).1.1, (hsrc n h).2⟩) hlast N3 f3 (st := {}) .nil
    (Nat.lt_succ_self _) (by rw [room] at hcap; simp only [List.length_nil, if_true, Bool.false_eq_true, if_false]; omega)
  refine ⟨out, _, ?_, o2.decoded ?_, units_access hp src⟩
  · have e1' : copy 1 msg = ([fmt], some c1) := e1
    have e2' : copy 1 c1 = ([1], some c2) := e2
    rw [video, e1']; dsimp only
    rw [e2']; dsimp only
    rw [if_neg (by simp), e3]; dsimp only
    rw [o1]
    simp [beDec]
  · exact units_nal (fun n h => (hp.hNal n h).1) (fun n h => (hsrc n h).1) _ _

def exParams : Params := ⟨[0x17, 0, 0, 0, 0, 1, 0x64, 0, 0x28, 0xff], 7, [[0x67, 0x64, 0, 0x28]], [[0x68, 0xee, 0x3c]], [1, 2]⟩

theorem exParams_ok : exParams.Ok := ⟨rfl, by decide, by decide, by decide, by decide, by decide, by decide⟩

/-- Delimiter and parameter sets of the source left out, SEI, IDR slice: the hypotheses hold; the buffers are cut across fields. -/
example : exParams.Ok ∧ (∀ n ∈ [[0x09, 0x10], [0x67, 1], [0x06, 5, 0x80], [0x65, 0, 0, 3, 1]], Nal n ∧ n.length < 256 ^ 4) ∧
    room exParams [[0x09, 0x10], [0x67, 1], [0x06, 5, 0x80], [0x65, 0, 0, 3, 1]] ≤ 1048576 ∧
    (video hls 1048576 4 [exParams.bytes.take 13, [], exParams.bytes.drop 13]
      [[0x17, 1, 0], [], [0, 0x50, 0, 0], [0, 2, 0x09, 0x10, 0, 0, 0, 2, 0x67, 1, 0, 0, 0, 3, 6, 5, 0x80, 0, 0, 0], [5, 0x65, 0, 0], [3, 1]]) =
      (some (1, 80), .frame ([0, 0, 0, 1, 9, 0xf0] ++ [0, 0, 1, 6, 5, 0x80] ++ [0, 0, 0, 1, 0x67, 0x64, 0, 0x28] ++ [0, 0, 0, 1, 0x68, 0xee, 0x3c] ++
        [0, 0, 1, 0x65, 0, 0, 3, 1])) := by
  refine ⟨exParams_ok, by decide, by decide, by decide +kernel⟩

/-- Whatever the bytes of message and codec header: nothing is stored outside the buffer, the loop ends, and only the HLS module follows a NULL pointer. -/
theorem C54_safe_partial (v : Variant) (cap nb : Nat) (hnb : 0 < nb) (hdr msg : Cur) :
    (video v cap nb hdr msg).2 ≠ .overflow ∧ (video v cap nb hdr msg).2 ≠ .stuck ∧ (v.logs = false → (video v cap nb hdr msg).2 ≠ .crash) ∧
    ∀ out, (video v cap nb hdr msg).2 = .frame out → out.length ≤ cap := by
  have h : Safe v cap (video v cap nb hdr msg).2 := by
    rw [video]
    rcases copy 1 msg with ⟨_, _ | c1⟩
    · trivial
    · dsimp only
      rcases copy 1 c1 with ⟨ht, _ | c2⟩
      · trivial
      · dsimp only
        by_cases hv : v.htype = true ∧ ht ≠ [1]
        · rw [if_pos hv]; trivial
        · rw [if_neg hv]
          rcases copy 3 c2 with ⟨_, _ | c3⟩
          · trivial
          · exact nals_safe v hnb hdr _ c3 {} (Nat.zero_le _) (Nat.lt_succ_self _)
  refine ⟨fun e => ?_, fun e => ?_, fun hl e => ?_, fun out e => ?_⟩ <;> rw [e] at h
  · exact h
  · exact h
  · rw [Safe, hl] at h; cases h
  · exact h

/-- An access unit that ends with an end-of-sequence NAL unit (one byte, 7.3.1) is legal; HLS follows a NULL pointer, the other two drop the picture. -/
theorem C54_violation_end : (∀ n ∈ [[0x41, 0x9a], [0x0a]], Nal n) ∧
    (video hls 1048576 4 [exParams.bytes] [0x27 :: 1 :: 0 :: 0 :: 0 :: lenPrefixed 4 [[0x41, 0x9a], [0x0a]]]).2 = .crash ∧
    (video mpegts 1048576 4 [exParams.bytes] [0x27 :: 1 :: 0 :: 0 :: 0 :: lenPrefixed 4 [[0x41, 0x9a], [0x0a]]]).2 = .error ∧
    (video record 1048576 4 [exParams.bytes] [0x27 :: 1 :: 0 :: 0 :: 0 :: lenPrefixed 4 [[0x41, 0x9a], [0x0a]]]).2 = .error := by
  decide +kernel

/-- Any message that ends inside a NAL unit: HLS follows a NULL pointer. -/
theorem C54_violation_cut : (video hls 1048576 4 [exParams.bytes] [[0x27, 1, 0, 0, 0, 0, 0, 0, 9, 0x41]]).2 = .crash := by
  decide +kernel

/-- When the first NAL unit is of another type (14, prefix NAL unit), the delimiter is not the first of the access unit (7.4.1.2.3). -/
theorem C54_violation_first : (∀ n ∈ [[0x6e, 0x40, 0x80], [0x41, 0x9a]], Nal n) ∧
    (video hls 1048576 4 [exParams.bytes] [0x27 :: 1 :: 0 :: 0 :: 0 :: lenPrefixed 4 [[0x6e, 0x40, 0x80], [0x41, 0x9a]]]).2 =
      .frame [0, 0, 0, 1, 0x6e, 0x40, 0x80, 0, 0, 0, 1, 9, 0xf0, 0, 0, 1, 0x41, 0x9a] := by
  decide +kernel

/-- Composition times that are not negative: pts and dts differ by them (90 kHz clock). -/
theorem C54_times_partial (v : Variant) (hv : v.pts32 = false) (ts cts : Nat) (hc : cts < 2 ^ 23) : times v ts cts = (90 * ts, 90 * (ts + cts)) := by
  rw [times, hv]
  simp only [Bool.false_eq_true, if_false, Prod.mk.injEq]
  omega

example : times hls 1000 80 = (90000, 97200) := by decide

/-- A composition time of -1 ms (24 bits, two's complement, as FLV has it): the picture is to be shown 4.6 hours later. -/
theorem C54_violation_negative : (times hls 1000 (2 ^ 24 - 1)).2 = 90 * (1000 + 16777215) ∧ (times mpegts 1000 (2 ^ 24 - 1)).2 = 90 * (1000 + 16777215) := by decide

/-- ngx_live_record.c: 13 h 15 min after the start the display time falls behind the decoding time by 2^32 ticks. -/
theorem C54_violation_record : times record 47721859 0 = (47721859 * 90, 47721859 * 90 - 2 ^ 32) := by decide

end Verif.Annex
