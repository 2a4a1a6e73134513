import Verif.Codec.Props
/-
C72: parameters of AVC and AAC in transport streams, and safety.
-/
namespace Verif.Codec
open Verif Verif.BitOp

/-- Sets that are read in transport streams: numbers of less than 64 bits, exponents by which 1 can be shifted, no scaling list, and a chroma format in the profiles that
have it, but not in profile 135. What the standard does not allow may be there: a picture order count of another type than 0, 1, 2, a chroma format above 3. -/
def TsOk (s : Spec.Sps) : Prop := s.profile < 256 ∧ s.constraints < 256 ∧ s.level < 256 ∧ (∀ k ∈ s.codes, k + 1 < 2 ^ 64) ∧ Shifts s.frameNum ∧ (∀ k, s.poc = .lsb k → Shifts k) ∧
  (∀ t, s.poc = .output t → 2 ≤ t) ∧ (s.high.isSome = true ↔ s.profile ∈ Spec.highProfiles ∧ s.profile ≠ 135) ∧ s.NoLists ∧
  ∀ c, s.high = some c → ∀ ls, c.lists = some ls → ls.length = if c.format = 3 then 12 else 8

/-- What is told of a set: sizes are of 64 bits, and cropped in units of 2. -/
def Tells (a : Avc) (s : Spec.Sps) : Prop := a.profile = s.profile ∧ a.constraints = s.constraints ∧ a.level = s.level ∧ a.refFrames = s.refFrames ∧
  (a.width : Int) = (16 * (s.width + 1) - 2 * s.cropped.1) % 2 ^ 64 ∧
  (a.height : Int) = (16 * (if s.frameMbsOnly then 1 else 2) * (s.height + 1) - 2 * s.cropped.2) % 2 ^ 64

theorem tsOk_iff (s : Spec.Sps) : TsOk s ↔ Readable s := by
  have hp : s.profile ∈ Spec.highProfiles ∧ s.profile ≠ 135 ↔ s.profile ∈ tsHigh := by
    constructor
    · intro ⟨h1, h2⟩
      exact (show ∀ p ∈ Spec.highProfiles, p ≠ 135 → p ∈ tsHigh by decide) _ h1 h2
    · intro h
      exact (show ∀ p ∈ tsHigh, p ∈ Spec.highProfiles ∧ p ≠ 135 by decide) _ h
  unfold TsOk Readable
  rw [hp]
  constructor
  · intro ⟨h1, h2, h3, h4, h5, h6, h7, h8, h9, h10⟩
    exact ⟨h1, h2, h3, h4, h5, h6, h7, h8, fun c hc ls hls => ⟨h10 c hc ls hls, h9 c hc ls hls⟩⟩
  · intro ⟨h1, h2, h3, h4, h5, h6, h7, h8, h9⟩
    exact ⟨h1, h2, h3, h4, h5, h6, h7, h8, fun c hc ls hls => (h9 c hc ls hls).2, fun c hc ls hls => (h9 c hc ls hls).1⟩

theorem tells_avcOf (s : Spec.Sps) : Tells (avcOf s) s := by
  refine ⟨rfl, rfl, rfl, rfl, ?_, ?_⟩
  · rw [cropped_eq]
    exact (size64_int _ _).trans (by push_cast; rfl)
  · rw [cropped_eq]
    refine (size64_int _ _).trans ?_
    cases s.frameMbsOnly with
    | true => rw [if_pos rfl, show 2 - true.toNat = 1 from rfl, Nat.one_mul]; push_cast; rfl
    | false => rw [if_neg (by decide), show 2 - false.toNat = 2 from rfl]; push_cast; rw [← Int.mul_assoc 16 2]; rfl

/-- C72: parameters of AVC in a transport stream are made just of NAL units of type 7 that begin with a set as `TsOk` tells, and tell of that set what it has.
So nothing is made of data that end before the set does, of sets with a scaling list, or of another NAL unit. -/
theorem C72_ts_avc (d : Bytes) :
    (∀ a st, parse tsAvc d = some (some a, st) → ∃ hdr : Nat, ∃ s, ∃ rest : List Bool, hdr < 256 ∧ hdr % 32 = 7 ∧ TsOk s ∧ bitsOf d = bitEnc 8 hdr ++ s.bits ++ rest ∧ Tells a s) ∧
    (∀ hdr : Nat, ∀ s, ∀ rest : List Bool, hdr < 256 → hdr % 32 = 7 → TsOk s → bitsOf d = bitEnc 8 hdr ++ s.bits ++ rest → ∃ a st, parse tsAvc d = some (some a, st) ∧ Tells a s) := by
  constructor
  · intro a st h
    have he := ends_tsAvc _ _ _ h
    obtain ⟨_, b, hb, hx⟩ := took_tsAvc _ _ _ h he
    obtain ⟨hdr, s, h1, h2, h3, rfl, rfl⟩ := hx a rfl
    exact ⟨hdr, s, st.br.remaining, h1, h2, (tsOk_iff s).2 h3, by simpa [init, Reader.remaining] using hb, tells_avcOf s⟩
  · intro hdr s rest h1 h2 h3 hd
    obtain ⟨st, hst⟩ := (gets_tsAvc s ((tsOk_iff s).1 h3) hdr h1 h2).parse d rest hd
    exact ⟨avcOf s, st, hst, tells_avcOf s⟩

/-- C72: for a set after the standard that is told of, the size is that of the picture just when the units of cropping are 2 (or nothing is cropped). -/
theorem C72_ts_size (s : Spec.Sps) (a : Avc) (h : Tells a s) (hc : ∀ k ∈ s.codes, k < 2 ^ 32 - 1) (hf : Fits s) : ((a.width : Int), (a.height : Int)) = s.size ↔ Twos s := by
  have h2 := tells_avcOf s
  obtain ⟨_, _, _, _, h5, h6⟩ := h
  obtain ⟨_, _, _, _, g5, g6⟩ := h2
  rw [h5, h6, ← g5, ← g6]
  exact size_iff s hc hf

/-- 1920x1080, progressive, high profile: 8 rows are cropped at the bottom. -/
def hd1080 : Spec.Sps := { profile := 100, constraints := 0, level := 40, high := some {}, poc := .lsb 2, refFrames := 4, width := 119, height := 67, crop := some (0, 0, 0, 4) }

theorem hd1080_ok : hd1080.Ok ∧ hd1080.NoLists ∧ TsOk hd1080 ∧ Fits hd1080 ∧ Twos hd1080 ∧ hd1080.size = (1920, 1080) := by
  have hl : ∀ c, hd1080.high = some c → c.lists = none := by
    intro c hc
    injection hc with hc
    rw [← hc]
  have n : hd1080.NoLists := fun c hc ls hls => by rw [hl c hc] at hls; cases hls
  have hp : ∀ t, hd1080.poc ≠ .output t := by intro t h; cases h
  refine ⟨⟨by decide, by decide, by decide, by decide, fun t ht => absurd ht (hp t), by decide, fun c hc ls hls => by rw [hl c hc] at hls; cases hls⟩, n, ?_, by unfold Fits; decide, by unfold Twos; decide, by decide⟩
  refine ⟨by decide, by decide, by decide, by decide, by unfold Shifts; decide, ?_, fun t ht => absurd ht (hp t), by decide, n, fun c hc ls hls => by rw [hl c hc] at hls; cases hls⟩
  intro k hk
  injection hk with hk
  exact .inl (by omega)

/-- The bytes of that set -/
def hdBytes : Bytes := [0x64, 0x00, 0x28, 0xac, 0xd9, 0x40, 0x78, 0x02, 0x27, 0xe5, 0x40]

/-- A picture parameter set follows. -/
def hdMsg : Bytes := [0x17, 0, 0, 0, 0] ++ Spec.record 100 0 40 4 1 12 ++ [0x67] ++ Spec.escape 0 hdBytes ++ [1, 0, 4, 0x68, 0xee, 0x3c, 0x80]

example : ∃ w h : Nat, av 12 (fun _ _ => none) 9 [hdMsg.take 27, hdMsg.drop 27] none = some (some { videoCodec := 7, profile := 100, compat := 0, level := 40, nalBytes := 4, refFrames := 4, width := w, height := h, avcHeader := some hdMsg }) ∧ (w : Int) = 1920 ∧ (h : Int) = 1080 := by
  obtain ⟨o1, o2, o3, o4, o5, o6⟩ := hd1080_ok
  obtain ⟨w, h, h1, h2⟩ := C72_avc_partial 12 (fun _ _ => none) none hd1080 o1 o2 (by decide) 1 (.inl rfl) 0 0 0 100 0 40 4 1 12 (by decide) (by decide) (by decide) (by decide) (by decide) 0x67 (by decide) hdBytes
    [1, 0, 4, 0x68, 0xee, 0x3c, 0x80] (by decide +kernel) 11 (by decide +kernel) (by decide) hdMsg (hdMsg.take 27) [hdMsg.drop 27] (by decide) (by decide) (by decide)
  have := (h2 o4).2 o5
  rw [o6] at this
  injection this with g1 g2
  exact ⟨w, h, h1, g1, g2⟩

example : ∃ a st, parse tsAvc (0x67 :: hdBytes) = some (some a, st) ∧ (a.width : Int) = 1920 ∧ (a.height : Int) = 1080 := by
  obtain ⟨o1, o2, o3, o4, o5, o6⟩ := hd1080_ok
  obtain ⟨a, st, h1, h2⟩ := (C72_ts_avc (0x67 :: hdBytes)).2 0x67 hd1080 [false, true, false, false, false, false, false, false] (by decide) (by decide) o3 (by decide +kernel)
  have := (C72_ts_size hd1080 a h2 o1.2.2.2.1 o4).2 o5
  rw [o6] at this
  injection this with g1 g2
  exact ⟨a, st, h1, g1, g2⟩

/-- HE-AAC: LC with SBR, 24000 Hz and 48000 Hz -/
example : ∃ c', av 12 (fun _ _ => none) 8 [[0xaf, 0, 0x2b, 0x11, 0x88]] none = some (some c') ∧ c'.aacProfile = 2 ∧ c'.sampleRate = 48000 ∧ c'.sbr = true ∧ c'.ps = false := by
  have hb : Spec.Asc.IsBits { object := 2, rate := 24000, chan := 2, ext := some (false, 48000) } (bitEnc 5 5 ++ bitEnc 4 6 ++ bitEnc 4 2 ++ bitEnc 4 3 ++ bitEnc 5 2) :=
    ⟨bitEnc 4 6, .inl ⟨6, rfl, rfl⟩, bitEnc 4 3, .inl ⟨3, rfl, rfl⟩, rfl⟩
  obtain ⟨c', h1, _, h2, h3, _, h4, h5, _⟩ := C72_aac_partial 12 (fun _ _ => none) none _ (by unfold Spec.Asc.Ok; decide) 0xaf (by decide) [0x2b, 0x11, 0x88] (by decide) [] _ hb (by decide +kernel)
  exact ⟨c', h1, h2, h3, h4, h5⟩

/-! ### ADTS -/

theorem adts_b1 : ∀ x : Fin 256, ∀ m : Bool, (byteBits (UInt8.ofNat x.val))[4]? = some m → (if (UInt8.ofNat x.val).toNat &&& 0x08 ≠ 0 then 1 else 0) = m.toNat := by decide +kernel

theorem adts_b2 : ∀ x : Fin 256, ∀ o : Fin 4, ∀ i : Fin 16, (byteBits (UInt8.ofNat x.val)).take 6 = bitEnc 2 o.val ++ bitEnc 4 i.val →
    (UInt8.ofNat x.val).toNat >>> 6 = o.val ∧ (UInt8.ofNat x.val).toNat >>> 2 &&& 0x0f = i.val := by decide +kernel

theorem adts_chan : ∀ x : Fin 256, (UInt8.ofNat x.val).toNat >>> 6 = 2 * ((byteBits (UInt8.ofNat x.val))[0]?.getD false).toNat + ((byteBits (UInt8.ofNat x.val))[1]?.getD false).toNat ∧
    (UInt8.ofNat x.val).toNat &&& 1 = ((byteBits (UInt8.ofNat x.val))[7]?.getD false).toNat := by decide +kernel

theorem chan_fin : ∀ ch : Fin 8, ∀ x y : Fin 4, y.val = 2 * (ch.val.testBit 1).toNat + (ch.val.testBit 0).toNat → x.val = (ch.val.testBit 2).toNat → x.val <<< 2 ||| y.val = ch.val := by decide +kernel

/-- C72: the header of a frame of ADTS, of at least 7 octets, tells its object type, rate and channels. -/
theorem C72_ts_aac (a : Spec.Adts) (i : Nat) (hok : a.Ok i) (d : Bytes) (rest : List Bool) (h7 : 7 ≤ d.length) (hd : bitsOf d = a.bits i ++ rest) :
    tsAac d = some (some { version := a.mpeg2.toNat, profile := a.object, freqIndex := i, freq := a.rate, chan := a.chan }) := by
  obtain ⟨o1, o2, o3, o4⟩ := hok
  obtain ⟨r1, r2⟩ := rates_index _ _ o3
  match d, h7 with
  | b0 :: b1 :: b2 :: b3 :: b4 :: b5 :: b6 :: tl, _ =>
    have u8 : ∀ b : UInt8, UInt8.ofNat b.toNat = b := fun b => UInt8.ofNat_toNat
    have e1 : (byteBits b1)[4]? = some a.mpeg2 := by
      have : byteBits b1 = ((bitsOf (b0 :: b1 :: b2 :: b3 :: b4 :: b5 :: b6 :: tl)).drop 8).take 8 := rfl
      rw [this, hd]
      rfl
    have e2 : byteBits b2 = bitEnc 2 (a.object - 1) ++ bitEnc 4 i ++ [a.priv, a.chan.testBit 2] := by
      have : byteBits b2 = ((bitsOf (b0 :: b1 :: b2 :: b3 :: b4 :: b5 :: b6 :: tl)).drop 16).take 8 := rfl
      rw [this, hd]
      rfl
    have e3 : (byteBits b3).take 2 = [a.chan.testBit 1, a.chan.testBit 0] := by
      have : (byteBits b3).take 2 = ((bitsOf (b0 :: b1 :: b2 :: b3 :: b4 :: b5 :: b6 :: tl)).drop 24).take 2 := rfl
      rw [this, hd]
      rfl
    have f1 := adts_b1 ⟨b1.toNat, b1.toNat_lt⟩ a.mpeg2 (by rw [u8]; exact e1)
    have f2 := adts_b2 ⟨b2.toNat, b2.toNat_lt⟩ ⟨a.object - 1, by omega⟩ ⟨i, by omega⟩ (by rw [u8, e2]; rfl)
    have f3 := (adts_chan ⟨b3.toNat, b3.toNat_lt⟩).1
    have f4 := (adts_chan ⟨b2.toNat, b2.toNat_lt⟩).2
    dsimp only at f1 f2 f3 f4
    rw [u8] at f1 f2 f3 f4
    have g0 : (byteBits b3)[0]? = some (a.chan.testBit 1) := by
      have : (byteBits b3)[0]? = ((byteBits b3).take 2)[0]? := rfl
      rw [this, e3]
      rfl
    have g1 : (byteBits b3)[1]? = some (a.chan.testBit 0) := by
      have : (byteBits b3)[1]? = ((byteBits b3).take 2)[1]? := rfl
      rw [this, e3]
      rfl
    have g7 : (byteBits b2)[7]? = some (a.chan.testBit 2) := by rw [e2]; rfl
    rw [g0, g1] at f3
    rw [g7] at f4
    simp only [Option.getD_some] at f3 f4
    have hb3 : b3.toNat >>> 6 < 4 := by rw [f3]; cases a.chan.testBit 1 <;> cases a.chan.testBit 0 <;> decide
    have hb2 : b2.toNat &&& 1 < 4 := by rw [f4]; cases a.chan.testBit 2 <;> decide
    have f5 := chan_fin ⟨a.chan, o4⟩ ⟨b2.toNat &&& 1, hb2⟩ ⟨b3.toNat >>> 6, hb3⟩ f3 f4
    dsimp only at f5
    have hr0 : a.rate ≠ 0 := by
      intro h0
      rw [h0] at o3
      cases o3
    unfold tsAac
    dsimp only
    rw [f2.2, r1]
    cases hr : a.rate with
    | zero => exact absurd hr hr0
    | succ n =>
      rw [f1, f2.1, f5, show a.object - 1 + 1 = a.object by omega]
      rfl

example : tsAac [0xff, 0xf1, 0x4c, 0x80, 0x2e, 0x7f, 0xfc] = some (some { version := 0, profile := 2, freqIndex := 3, freq := 48000, chan := 2 }) :=
  C72_ts_aac { mpeg2 := false, absent := true, object := 2, rate := 48000, chan := 2 } 3 (by unfold Spec.Adts.Ok; decide) _ ((bitsOf [0xff, 0xf1, 0x4c, 0x80, 0x2e, 0x7f, 0xfc]).drop 26) (by decide) (by decide +kernel)

/-! ### Safety -/

/-- A reader that always returns -/
def Total {α : Type} (p : Rd α) : Prop := ∀ s, ∃ a s', p s = some (a, s')

theorem Total.bind {α β : Type} {p : Rd α} {f : α → Rd β} (h1 : Total p) (h2 : ∀ a, Total (f a)) : Total (p >>= f) := by
  intro s
  obtain ⟨a, s1, e1⟩ := h1 s
  obtain ⟨b, s2, e2⟩ := h2 a s1
  refine ⟨b, s2, ?_⟩
  show (p s).bind (fun x => f x.1 x.2) = _
  rw [e1]
  exact e2

theorem total_pure {α : Type} (a : α) : Total (pure a : Rd α) := fun s => ⟨a, s, rfl⟩
theorem total_u (n : Nat) : Total (u n) := fun _ => ⟨_, _, rfl⟩

theorem total_objectType : Total objectType := by
  unfold objectType
  refine (total_u 5).bind fun t => ?_
  split
  · exact (total_u 6).bind fun x => total_pure _
  · exact total_pure _

theorem read_lt (br : Reader) (n : Nat) (hn : n ≤ 64) : (BitOp.read br n).1 < 2 ^ n := by
  by_cases h : n ≤ br.remaining.length
  · rw [C30_read_exact64 br n h hn]
    have := bitVal_lt (br.remaining.take n)
    rwa [List.length_take, Nat.min_eq_left h] at this
  · rw [(C30_read_past_end br n (by omega)).1]
    exact Nat.two_pow_pos n

theorem total_rate : Total rate := by
  intro s
  have hlt := read_lt s.br 4 (by omega)
  unfold rate
  show ∃ a s', (u 4 s).bind (fun x => (if x.1 = 15 then u 24 else match rates[x.1]? with | some r => pure r | none => fun _ => none : Rd Nat) x.2) = some (a, s')
  unfold u
  dsimp only
  rw [Option.bind_some]
  dsimp only
  split
  · exact ⟨_, _, rfl⟩
  · have : (BitOp.read s.br 4).1 < rates.length := hlt
    rw [List.getElem?_eq_getElem this]
    exact ⟨_, _, rfl⟩

theorem total_aacHeader (c : Ctx) : Total (aacHeader c) := by
  unfold aacHeader
  refine (total_u 16).bind fun _ => total_objectType.bind fun t => total_rate.bind fun r => (total_u 4).bind fun ch => ?_
  split
  · exact total_rate.bind fun r' => total_objectType.bind fun t' => total_pure _
  · exact total_pure _

/-- C72: whatever a message of sound has in it, all that is read of it is there; the same with the header of ADTS. -/
theorem C72_sound_safe (hevcId : Nat) (hevc : Ctx → Bytes → Option Ctx) (b : Bytes) (more : List Bytes) (c : Option Ctx) (d : Bytes) :
    (av hevcId hevc 8 (b :: more) c).isSome = true ∧ (tsAac d).isSome = true := by
  constructor
  · unfold av
    dsimp only
    rw [if_neg (by omega)]
    cases b with
    | nil => rfl
    | cons x b =>
      dsimp only
      rw [if_neg (by omega)]
      have hfmt : (x.toNat &&& 0x0c) >>> 2 < flvRates.length := by
        have key : ∀ x : Fin 256, (x.val &&& 0x0c) >>> 2 < flvRates.length := by decide +kernel
        exact key ⟨x.toNat, x.toNat_lt⟩
      unfold saveCodec
      rw [if_pos rfl, List.getElem?_eq_getElem hfmt]
      dsimp only
      rw [Option.bind_some, Option.isSome_map]
      generalize ({ width := _, height := _, videoCodec := _, audioCodec := _, aacProfile := _, chanConf := _, sbr := _, ps := _, profile := _, compat := _, level := _, nalBytes := _, refFrames := _, sampleRate := _, sampleSize := _, channels := _, avcHeader := _, aacHeader := _ } : Ctx) = e
      unfold saveHeader
      split
      · rfl
      split
      · rfl
      rw [if_pos rfl]
      split
      · obtain ⟨a, s', h⟩ := total_aacHeader e { br := init (x :: b) }
        unfold parse
        rw [h]
        rfl
      · rfl
  · unfold tsAac
    split
    · rename_i b2 b3 _ _ _ _
      dsimp only
      have key : ∀ x : Fin 256, x.val >>> 2 &&& 0x0f < rates.length := by decide +kernel
      have := List.getElem?_eq_getElem (key ⟨b2.toNat, b2.toNat_lt⟩)
      obtain ⟨r, hr⟩ : ∃ r, rates[b2.toNat >>> 2 &&& 0x0f]? = some r := ⟨_, this⟩
      rw [hr]
      cases r <;> rfl
    · rfl

end Verif.Codec
