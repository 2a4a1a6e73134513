import Verif.Codec.TsProps
/-
C72: where codec headers are misread.
-/
namespace Verif.Codec
open Verif Verif.BitOp

/-! ### How long it takes -/

/-- With less than 64 bits left, the reader returns, after so many calls. -/
def Short {α : Type} (p : Rd α) (n : Nat) : Prop := ∀ s, s.br.remaining.length < 64 → ∃ a s', p s = some (a, s') ∧ s.calls + n ≤ s'.calls ∧ s'.br.remaining.length < 64

theorem Short.bind {α β : Type} {p : Rd α} {f : α → Rd β} {n m : Nat} (h1 : Short p n) (h2 : ∀ a, Short (f a) m) : Short (p >>= f) (n + m) := by
  intro s hs
  obtain ⟨a, s1, e1, e2, e3⟩ := h1 s hs
  obtain ⟨b, s2, g1, g2, g3⟩ := h2 a s1 e3
  refine ⟨b, s2, ?_, by omega, g3⟩
  show (p s).bind (fun x => f x.1 x.2) = _
  rw [e1]
  exact g1

theorem short_pure {α : Type} (a : α) : Short (pure a : Rd α) 0 := fun s hs => ⟨a, s, rfl, by omega, hs⟩

theorem read_short (br : Reader) (n : Nat) : (BitOp.read br n).2.remaining.length ≤ br.remaining.length - n := by
  by_cases h : n ≤ br.remaining.length
  · rw [(C30_read_exact br n h).2.1, List.length_drop]
    omega
  · rw [(C30_read_past_end br n (by omega)).2.2]
    simp

theorem short_u (n : Nat) : Short (u n) 1 := fun s hs => ⟨_, _, rfl, by simp, by have := read_short s.br n; dsimp only; omega⟩

theorem zeros_short : ∀ (fuel : Nat) (br : Reader) (n : Nat), br.remaining.length < fuel → (zerosLoop fuel br n).1 ≤ n + br.remaining.length ∧ (zerosLoop fuel br n).2.remaining.length ≤ br.remaining.length := by
  intro fuel
  induction fuel with
  | zero => intro br n h; omega
  | succ fuel ih =>
    intro br n h
    unfold zerosLoop
    dsimp only
    have hr := read_short br 1
    split
    · rename_i hz
      have hlen : 1 ≤ br.remaining.length := by
        apply Nat.le_of_not_lt
        intro g
        rw [(C30_read_past_end br 1 g).2.1] at hz
        cases hz.2
      have := ih (BitOp.read br 1).2 (n + 1) (by omega)
      omega
    · dsimp only
      omega

theorem short_ue : Short ue 1 := by
  intro s hs
  have hz := zeros_short (8 * s.br.data.length + 1) s.br 0 (by rw [remaining_length]; omega)
  unfold ue readGolomb
  dsimp only
  rw [if_neg (by omega)]
  refine ⟨_, _, rfl, by simp, ?_⟩
  have := read_short (zerosLoop (8 * s.br.data.length + 1) s.br 0).2 (zerosLoop (8 * s.br.data.length + 1) s.br 0).1
  dsimp only
  omega

theorem short_times : ∀ k, Short (times ue k) k := by
  intro k
  induction k with
  | zero => exact short_pure ()
  | succ k ih =>
    have := short_ue.bind (fun _ => ih)
    rw [Nat.add_comm] at this
    exact this

theorem Short.mono {α : Type} {p : Rd α} {n m : Nat} (h : Short p n) (hm : m ≤ n) : Short p m := by
  intro s hs
  obtain ⟨a, s', h1, h2, h3⟩ := h s hs
  exact ⟨a, s', h1, by omega, h3⟩

theorem short_onlyIf {α : Type} {c : Bool} {p : Rd α} {d : α} {n : Nat} (h : Short p n) : Short (onlyIf c p d) 0 := by
  unfold onlyIf
  split
  · exact h.mono (by omega)
  · exact short_pure d

theorem short_crop : Short rtmpCrop 0 := by
  refine ((short_u 1).bind (m := 0) fun f => ?_).mono (by omega)
  split
  · exact short_pure _
  · exact (short_ue.bind fun l => short_ue.bind fun r => short_ue.bind fun t => short_ue.bind fun b => short_pure (l, r, t, b)).mono (by omega)

/-- After these bits the reader makes so many calls, if less than 64 bits follow. -/
def Long {α : Type} (p : Rd α) (b : List Bool) (n : Nat) : Prop :=
  ∀ s l, s.br.err = false → s.br.remaining = b ++ l → l.length < 64 → ∃ a s', p s = some (a, s') ∧ n ≤ s'.calls ∧ s'.br.remaining.length < 64

theorem Long.after {α β : Type} {p : Rd α} {f : α → Rd β} {b b' : List Bool} {a : α} {n : Nat} (h1 : Gets p b a) (h2 : Long (f a) b' n) : Long (p >>= f) (b ++ b') n := by
  intro s l e1 e2 e3
  rw [List.append_assoc] at e2
  obtain ⟨s1, g1, g2, g3⟩ := h1 s _ e1 e2
  obtain ⟨r, s2, k1, k2, k3⟩ := h2 s1 l g3 g2 e3
  refine ⟨r, s2, ?_, k2, k3⟩
  show (p s).bind (fun x => f x.1 x.2) = _
  rw [g1]
  exact k1

theorem Long.before {α β : Type} {p : Rd α} {f : α → Rd β} {b : List Bool} {n m : Nat} (h1 : Long p b n) (h2 : ∀ a, Short (f a) m) : Long (p >>= f) b n := by
  intro s l e1 e2 e3
  obtain ⟨a, s1, g1, g2, g3⟩ := h1 s l e1 e2 e3
  obtain ⟨r, s2, k1, k2, k3⟩ := h2 a s1 g3
  refine ⟨r, s2, ?_, by omega, k3⟩
  show (p s).bind (fun x => f x.1 x.2) = _
  rw [g1]
  exact k1

theorem Short.long {α : Type} {p : Rd α} {n : Nat} (h : Short p n) : Long p [] n := by
  intro s l _ e2 e3
  obtain ⟨a, s', h1, h2, h3⟩ := h s (by rw [e2]; exact e3)
  exact ⟨a, s', h1, by omega, h3⟩

theorem long_poc (k : Nat) (hk : k + 1 < 2 ^ 64) : Long rtmpPoc (golombCode 1 ++ ([false] ++ (golombCode 0 ++ (golombCode 0 ++ (golombCode k ++ []))))) k := by
  unfold rtmpPoc
  refine Long.after (gets_ue 1 (by decide)) ?_
  rw [if_neg (by decide), if_pos rfl]
  exact Long.after (gets_flag false) (Long.after (gets_ue 0 (by decide)) (Long.after (gets_ue 0 (by decide)) (Long.after (gets_ue k hk) (short_times k).long)))

/-- Main profile, picture order count of type 1 with `k` offsets -/
theorem long_sps (c : Ctx) (k : Nat) (hk : k + 1 < 2 ^ 64) :
    Long (rtmpSps c) (bitEnc 8 77 ++ (bitEnc 8 0 ++ (bitEnc 8 30 ++ (golombCode 0 ++ ([] ++ (golombCode 0 ++ (golombCode 1 ++ ([false] ++ (golombCode 0 ++ (golombCode 0 ++ (golombCode k ++ []))))))))))) k := by
  unfold rtmpSps
  refine Long.after (gets_u 8 77 (by decide) (by decide)) (Long.after (gets_u 8 0 (by decide) (by decide)) (Long.after (gets_u 8 30 (by decide) (by decide)) (Long.after (gets_ue 0 (by decide)) ?_)))
  refine Long.after (a := ()) (Gets.pure ()) (Long.after (gets_ue 0 (by decide)) ?_)
  refine Long.before (long_poc k hk) fun _ => short_ue.bind fun rf => (short_u 1).bind fun _ => short_ue.bind fun w => short_ue.bind fun h => (short_u 1).bind fun fmo =>
    (short_onlyIf (c := fmo == 0) (d := 0) (short_u 1)).bind fun _ => (short_u 1).bind fun _ => short_crop.bind fun x => short_pure _

def loopMsg : Bytes := [0x17, 0, 0, 0, 0] ++ Spec.record 77 0 30 4 1 21 ++ [0x67] ++
    [0x4d, 0x00, 0x1e, 0xd3, 0x00, 0x00, 0x00, 0x00, 0x00, 0x00, 0x00, 0x02, 0x00, 0x00, 0x00, 0x00, 0x00, 0x00, 0x00, 0x04]

/-- C72 (violation): a message of 34 bytes for which more than 4·10^18 offsets are read, at the end of its data: the process is busy for years. -/
theorem C72_time_violation : ∃ c' st, parse (avcHeader {}) loopMsg = some (c', st) ∧ 2 ^ 62 - 1 ≤ st.calls := by
  have h : Long (avcHeader {}) (bitsOf [0x17, 0, 0, 0, 0, 1] ++ (bitEnc 8 77 ++ (bitEnc 8 0 ++ (bitEnc 8 30 ++ (bitEnc 8 0xff ++ (bitEnc 8 0xe1 ++ (bitsOf [0, 21] ++ (bitEnc 8 0x67 ++
      (bitEnc 8 77 ++ (bitEnc 8 0 ++ (bitEnc 8 30 ++ (golombCode 0 ++ ([] ++ (golombCode 0 ++ (golombCode 1 ++ ([false] ++ (golombCode 0 ++ (golombCode 0 ++ (golombCode (2 ^ 62 - 1) ++ []))))))))))))))))))) (2 ^ 62 - 1) := by
    unfold avcHeader
    obtain ⟨v, hv⟩ := gets_u_any 48 (bitsOf [0x17, 0, 0, 0, 0, 1]) (by rw [bitsOf_length]; rfl)
    obtain ⟨w, hw⟩ := gets_u_any 16 (bitsOf [0, 21]) (by rw [bitsOf_length]; rfl)
    refine Long.after hv (Long.after (gets_u 8 77 (by decide) (by decide)) (Long.after (gets_u 8 0 (by decide) (by decide)) (Long.after (gets_u 8 30 (by decide) (by decide))
      (Long.after (gets_u 8 0xff (by decide) (by decide)) (Long.after (gets_u 8 0xe1 (by decide) (by decide)) ?_)))))
    dsimp only
    rw [if_neg (by decide)]
    refine Long.after hw (Long.after (gets_u 8 0x67 (by decide) (by decide)) ?_)
    rw [if_neg (by decide)]
    exact long_sps _ _ (by decide)
  obtain ⟨a, s', h1, h2, _⟩ := h { br := init loopMsg } [true, false, false] rfl (by decide +kernel) (by decide)
  exact ⟨a, s', h1, h2⟩

/-! ### What is misread -/

/-- A message with a set, followed by a picture parameter set -/
def avcMsg (p co l : Nat) (nal : Bytes) : Bytes := [0x17, 0, 0, 0, 0] ++ Spec.record p co l 4 1 (nal.length + 1) ++ [0x67] ++ nal ++ [1, 0, 4, 0x68, 0xee, 0x3c, 0x80]

/-- Width and height after a message in one buffer -/
def rtmpSize (m : Bytes) : Option (Nat × Nat) := (av 12 (fun _ _ => none) 9 [m] none).bind fun c => c.map fun c => (c.width, c.height)

def tsSize (nal : Bytes) : Option (Option (Nat × Nat)) := (parse tsAvc (0x67 :: nal)).map fun x => x.1.map fun a => (a.width, a.height)

/-- A set whose bytes begin a NAL unit: how it is coded, and the size of its pictures -/
def IsCoded (s : Spec.Sps) (nal : Bytes) (size : Int × Int) : Prop := ∃ rbsp, s.bits <+: bitsOf rbsp ∧ nal = Spec.escape 0 rbsp ∧ s.size = size

def hd1080i : Spec.Sps := { profile := 100, constraints := 0, level := 40, high := some {}, poc := .lsb 2, refFrames := 4, width := 119, height := 33, frameMbsOnly := false, crop := some (0, 0, 0, 2) }

/-- C72 (violation): interlaced video of 1920x1080 is taken for 1920x1084: two units of 4 rows are cropped, and counted as units of 2. -/
theorem C72_interlaced_violation : IsCoded hd1080i [0x64, 0x00, 0x28, 0xac, 0xd9, 0x40, 0x78, 0x04, 0x47, 0xda] (1920, 1080) ∧
    rtmpSize (avcMsg 100 0 40 [0x64, 0x00, 0x28, 0xac, 0xd9, 0x40, 0x78, 0x04, 0x47, 0xda]) = some (1920, 1084) ∧
    tsSize [0x64, 0x00, 0x28, 0xac, 0xd9, 0x40, 0x78, 0x04, 0x47, 0xda] = some (some (1920, 1084)) :=
  ⟨⟨[0x64, 0x00, 0x28, 0xac, 0xd9, 0x40, 0x78, 0x04, 0x47, 0xda], by decide +kernel, by decide, by decide⟩, by decide +kernel, by decide +kernel⟩

def hd444 : Spec.Sps := { profile := 244, constraints := 0, level := 40, high := some { format := 3 }, poc := .lsb 2, refFrames := 4, width := 119, height := 67, crop := some (0, 0, 0, 8) }

/-- C72 (violation): video of 1920x1080 in 4:4:4 is taken for 1920x1072. -/
theorem C72_444_violation : IsCoded hd444 [0xf4, 0x00, 0x28, 0x91, 0x9b, 0x28, 0x0f, 0x00, 0x44, 0xfc, 0x4a] (1920, 1080) ∧
    rtmpSize (avcMsg 244 0 40 [0xf4, 0x00, 0x28, 0x91, 0x9b, 0x28, 0x0f, 0x00, 0x44, 0xfc, 0x4a]) = some (1920, 1072) ∧
    tsSize [0xf4, 0x00, 0x28, 0x91, 0x9b, 0x28, 0x0f, 0x00, 0x44, 0xfc, 0x4a] = some (some (1920, 1072)) :=
  ⟨⟨[0xf4, 0x00, 0x28, 0x91, 0x9b, 0x28, 0x0f, 0x00, 0x44, 0xfc, 0x4a], by decide +kernel, by decide, by decide⟩, by decide +kernel, by decide +kernel⟩

/-- C72 (violation): the profiles 128, 138, 139, 134 and 135 have a chroma format that the RTMP module does not know of; transport streams do not know of it in profile 135.
A set of 1920x1080 is misread. -/
theorem C72_profile_violation : IsCoded { hd1080 with profile := 128 } [0x80, 0x00, 0x28, 0xac, 0xd9, 0x40, 0x78, 0x02, 0x27, 0xe5, 0x40] (1920, 1080) ∧
    rtmpSize (avcMsg 128 0 40 [0x80, 0x00, 0x28, 0xac, 0xd9, 0x40, 0x78, 0x02, 0x27, 0xe5, 0x40]) = some (16, 160) ∧
    IsCoded { hd1080 with profile := 135 } [0x87, 0x00, 0x28, 0xac, 0xd9, 0x40, 0x78, 0x02, 0x27, 0xe5, 0x40] (1920, 1080) ∧
    tsSize [0x87, 0x00, 0x28, 0xac, 0xd9, 0x40, 0x78, 0x02, 0x27, 0xe5, 0x40] = some (some (16, 160)) :=
  ⟨⟨[0x80, 0x00, 0x28, 0xac, 0xd9, 0x40, 0x78, 0x02, 0x27, 0xe5, 0x40], by decide +kernel, by decide, by decide⟩, by decide +kernel,
    ⟨[0x87, 0x00, 0x28, 0xac, 0xd9, 0x40, 0x78, 0x02, 0x27, 0xe5, 0x40], by decide +kernel, by decide, by decide⟩, by decide +kernel⟩

def hdLists : Spec.Sps := { hd1080 with high := some { lists := some (some (8 :: List.replicate 15 0) :: List.replicate 7 none) } }

/-- C72 (violation): when there is a scaling list the RTMP module reads on as if there were none; the height of a set of 1920x1080 is 2^64 - 416. In a transport stream there are no parameters then. -/
theorem C72_lists_violation : IsCoded hdLists [0x64, 0x00, 0x28, 0xad, 0x84, 0x3f, 0xff, 0x80, 0xd9, 0x40, 0x78, 0x02, 0x27, 0xe5, 0x40] (1920, 1080) ∧
    rtmpSize (avcMsg 100 0 40 [0x64, 0x00, 0x28, 0xad, 0x84, 0x3f, 0xff, 0x80, 0xd9, 0x40, 0x78, 0x02, 0x27, 0xe5, 0x40]) = some (16, 2 ^ 64 - 416) ∧
    tsSize [0x64, 0x00, 0x28, 0xad, 0x84, 0x3f, 0xff, 0x80, 0xd9, 0x40, 0x78, 0x02, 0x27, 0xe5, 0x40] = some none :=
  ⟨⟨[0x64, 0x00, 0x28, 0xad, 0x84, 0x3f, 0xff, 0x80, 0xd9, 0x40, 0x78, 0x02, 0x27, 0xe5, 0x40], by decide +kernel, by decide, by decide⟩, by decide +kernel, by decide +kernel⟩

def escSps : Spec.Sps := { profile := 77, constraints := 0, level := 30, poc := .offsets false (2 ^ 23) 0 [], refFrames := 1, width := 39, height := 29 }

/-- C72 (violation): emulation prevention bytes are not taken out; a set of 640x480 that has one is taken for 16x32. -/
theorem C72_escape_violation : IsCoded escSps [0x4d, 0x00, 0x1e, 0xd0, 0x00, 0x00, 0x03, 0x02, 0x00, 0x00, 0x03, 0x01, 0xa0, 0x28, 0x0f, 0x64] (640, 480) ∧
    rtmpSize (avcMsg 77 0 30 [0x4d, 0x00, 0x1e, 0xd0, 0x00, 0x00, 0x03, 0x02, 0x00, 0x00, 0x03, 0x01, 0xa0, 0x28, 0x0f, 0x64]) = some (16, 32) ∧
    tsSize [0x4d, 0x00, 0x1e, 0xd0, 0x00, 0x00, 0x03, 0x02, 0x00, 0x00, 0x03, 0x01, 0xa0, 0x28, 0x0f, 0x64] = some (some (16, 32)) :=
  ⟨⟨[0x4d, 0x00, 0x1e, 0xd0, 0x00, 0x00, 0x02, 0x00, 0x00, 0x01, 0xa0, 0x28, 0x0f, 0x64], by decide +kernel, by decide, by decide⟩, by decide +kernel, by decide +kernel⟩

/-- C72 (violation): when the set is not in the first buffer of the message, or is cut, the size is 16x32: that the reader failed is not looked at. -/
theorem C72_cut_violation : (av 12 (fun _ _ => none) 9 [hdMsg.take 14, hdMsg.drop 14] none).bind (fun c => c.map fun c => (c.width, c.height)) = some (16, 32) ∧ rtmpSize (hdMsg.take 14) = some (16, 32) :=
  ⟨by decide +kernel, by decide +kernel⟩

/-- C72 (violation): eight zeros in a set, and 1 is shifted by 64 or more; in a transport stream an `int` is shifted by 31 and more if `log2_max_frame_num_minus4` is 27. -/
theorem C72_shift_violation : av 12 (fun _ _ => none) 9 [avcMsg 77 0 30 [0x4d, 0x00, 0x1e, 0, 0, 0, 0, 0, 0, 0, 0, 0xff]] none = none ∧
    parse tsAvc [0x67, 0x4d, 0x00, 0x1e, 0, 0, 0, 0, 0, 0, 0, 0, 0xff] = none ∧ parse tsAvc [0x67, 0x4d, 0x00, 0x1e, 0x87, 0x3f] = none := by
  refine ⟨by decide +kernel, ?_, ?_⟩
  · have : (parse tsAvc [0x67, 0x4d, 0x00, 0x1e, 0, 0, 0, 0, 0, 0, 0, 0, 0xff]).isNone = true := by decide +kernel
    simpa using this
  · have : (parse tsAvc [0x67, 0x4d, 0x00, 0x1e, 0x87, 0x3f]).isNone = true := by decide +kernel
    simpa using this

/-- C72 (violation): once a stream has had SBR and PS, a header of plain AAC-LC leaves `aac_sbr` and `aac_ps` set. -/
theorem C72_sbr_violation : (av 12 (fun _ _ => none) 8 [[0xaf, 0, 0x12, 0x10]] (some { sbr := true, ps := true })).bind (fun c => c.map fun c => (c.aacProfile, c.sampleRate, c.sbr, c.ps)) = some (2, 44100, true, true) := by decide +kernel

/-- C72 (violation): the first byte of a video message is read before it is known to be there. -/
theorem C72_empty_violation (hevcId : Nat) (hevc : Ctx → Bytes → Option Ctx) (c : Option Ctx) : av hevcId hevc 9 [[]] c = none := rfl

end Verif.Codec
