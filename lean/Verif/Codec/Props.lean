import Verif.Codec.HeaderLemmas
/-
C72: what is known of a stream from its codec headers: AVC and AAC, over RTMP and in transport streams.
-/
namespace Verif.Codec
open Verif Verif.BitOp

/-- The units of cropping are 2 where something is cropped: 4:2:0 in frames, or 4:2:2 cropped at the sides only. -/
def Twos (s : Spec.Sps) : Prop := (s.cropped.1 = 0 ∨ s.cropX = 2) ∧ (s.cropped.2 = 0 ∨ s.cropY = 2)

/-- Something is left of the picture. -/
def Fits (s : Spec.Sps) : Prop := 0 ≤ s.size.1 ∧ 0 ≤ s.size.2

/-! ### Helper lemmas -/

theorem size64_int (w c : Nat) : ((size64 w c : Nat) : Int) = (16 * (w : Int) - 2 * (c : Int)) % 2 ^ 64 := by
  unfold size64
  rw [Int.toNat_of_nonneg (Int.emod_nonneg _ (by decide))]
  have e : ((w * 16 : Nat) - (c * 2 : Nat) : Int) = 16 * (w : Int) - 2 * (c : Int) := by omega
  rw [e]
  rfl

theorem size_one (w c X : Nat) (hX : X = 1 ∨ X = 2 ∨ X = 4) (hc : c < 2 ^ 34) (hw : 16 * w < 2 ^ 63) (hf : 0 ≤ 16 * (w : Int) - X * c) :
    ((size64 w c : Nat) : Int) = 16 * (w : Int) - X * c ↔ c = 0 ∨ X = 2 := by
  rw [size64_int]
  rcases hX with rfl | rfl | rfl <;> omega

theorem cropX_cases (s : Spec.Sps) : s.cropX = 1 ∨ s.cropX = 2 := by
  unfold Spec.Sps.cropX
  split <;> simp

theorem cropY_cases (s : Spec.Sps) : s.cropY = 1 ∨ s.cropY = 2 ∨ s.cropY = 4 := by
  unfold Spec.Sps.cropY
  split <;> split <;> simp

theorem cropped_eq (s : Spec.Sps) : s.cropped = ((cropOf s.crop).1 + (cropOf s.crop).2.1, (cropOf s.crop).2.2.1 + (cropOf s.crop).2.2.2) := by
  unfold Spec.Sps.cropped
  cases s.crop with
  | none => rfl
  | some x => rfl

/-- The size is right just when the units are 2. -/
theorem size_iff (s : Spec.Sps) (h : ∀ k ∈ s.codes, k < 2 ^ 32 - 1) (hf : Fits s) :
    (((size64 (s.width + 1) ((cropOf s.crop).1 + (cropOf s.crop).2.1) : Nat) : Int), ((size64 ((2 - s.frameMbsOnly.toNat) * (s.height + 1)) ((cropOf s.crop).2.2.1 + (cropOf s.crop).2.2.2) : Nat) : Int)) = s.size ↔ Twos s := by
  have hw : s.width < 2 ^ 32 - 1 := h _ (by simp [Spec.Sps.codes])
  have hh : s.height < 2 ^ 32 - 1 := h _ (by simp [Spec.Sps.codes])
  have hc : (cropOf s.crop).1 + (cropOf s.crop).2.1 < 2 ^ 34 ∧ (cropOf s.crop).2.2.1 + (cropOf s.crop).2.2.2 < 2 ^ 34 := by
    have : ∀ k ∈ (match s.crop with | none => [] | some (l, r, t, b) => [l, r, t, b]), k < 2 ^ 32 - 1 := fun k hk => h k (by unfold Spec.Sps.codes; exact List.mem_append_right _ hk)
    cases hs : s.crop with
    | none => constructor <;> simp [cropOf]
    | some x =>
      obtain ⟨l, r, t, b⟩ := x
      rw [hs] at this
      have h1 := this l (by simp)
      have h2 := this r (by simp)
      have h3 := this t (by simp)
      have h4 := this b (by simp)
      constructor <;> (simp only [cropOf]; omega)
  unfold Fits Spec.Sps.size at hf
  unfold Twos Spec.Sps.size
  rw [cropped_eq] at hf ⊢
  dsimp only at hf ⊢
  rw [Prod.mk.injEq]
  have e1 := size_one (s.width + 1) _ s.cropX (by have := cropX_cases s; omega) hc.1 (by omega) (by have := hf.1; push_cast at this ⊢; exact this)
  refine and_congr (by rw [← e1]; push_cast; rfl) ?_
  have hf2 := hf.2
  have hY := cropY_cases s
  revert hf2
  cases s.frameMbsOnly with
  | true =>
    intro hf2
    rw [if_pos rfl] at hf2 ⊢
    have := size_one (s.height + 1) _ s.cropY hY hc.2 (by omega) (by push_cast at hf2 ⊢; omega)
    rw [← this, show 2 - true.toNat = 1 from rfl, Nat.one_mul]
    push_cast
    exact Iff.rfl
  | false =>
    intro hf2
    rw [if_neg (by decide)] at hf2 ⊢
    have := size_one (2 * (s.height + 1)) _ s.cropY hY hc.2 (by omega) (by push_cast at hf2 ⊢; omega)
    rw [← this, show 2 - false.toNat = 2 from rfl]
    push_cast
    rw [← Int.mul_assoc 16 2]
    exact Iff.rfl

theorem fmt_fin : ∀ ft : Fin 3, 1 ≤ ft.val → (UInt8.ofNat (16 * ft.val + 7)).toNat &&& 0x0f = 7 ∧
    ((UInt8.ofNat (16 * ft.val + 7)).toNat &&& 0xf0 = 0x10 ∨ (UInt8.ofNat (16 * ft.val + 7)).toNat &&& 0xf0 = 0x20) := by decide

/-- `av` of a header of AVC is what is read from the first buffer. -/
theorem av_avc (hevcId : Nat) (hevc : Ctx → Bytes → Option Ctx) (c : Option Ctx) (ft : Nat) (hft : ft = 1 ∨ ft = 2) (y : Bytes) (hy : 1 ≤ y.length) (more : List Bytes) (c' : Ctx) (st : St)
    (h : parse (avcHeader { (c.getD {}) with videoCodec := 7 }) (UInt8.ofNat (16 * ft + 7) :: 0 :: y) = some (c', st)) :
    av hevcId hevc 9 ((UInt8.ofNat (16 * ft + 7) :: 0 :: y) :: more) c = some (some { c' with avcHeader := some ((UInt8.ofNat (16 * ft + 7) :: 0 :: y) ++ more.flatten) }) := by
  obtain ⟨f1, f2⟩ := fmt_fin ⟨ft, by omega⟩ (by dsimp only; omega)
  dsimp only at f1 f2
  unfold av
  dsimp only
  rw [if_neg (by omega), if_neg (by omega)]
  unfold saveCodec
  rw [if_neg (by omega), Option.bind_some]
  unfold saveHeader
  rw [if_neg (by simp only [List.length_cons]; omega), if_neg (by simp [isHeader]), if_neg (by omega), if_pos (by dsimp only; exact f1), f1, h]
  simp

theorem nalSize_fin : ∀ ls : Fin 5, 1 ≤ ls.val → (UInt8.ofNat (0xfc + (ls.val - 1))).toNat % 4 + 1 = ls.val := by decide
theorem nals_fin : ∀ k : Fin 32, (UInt8.ofNat (0xe0 + k.val)).toNat % 32 = k.val := by decide

theorem u8_toNat (p : Nat) (h : p < 256) : (UInt8.ofNat p).toNat = p := by rw [UInt8.toNat_ofNat']; exact Nat.mod_eq_of_lt h

/-- From the start of a list to a buffer that holds it -/
theorem first_split (pre esc after first rest : Bytes) (j : Nat) (h : first ++ rest = pre ++ esc ++ after) (hl : pre.length + j ≤ first.length) :
    ∃ y, first = pre ++ y ∧ esc.take j <+: y := by
  have h1 : first = (pre ++ esc ++ after).take first.length := by rw [← h]; simp
  refine ⟨(esc ++ after).take (first.length - pre.length), ?_, ?_⟩
  · refine h1.trans ?_
    rw [List.append_assoc, List.take_append, List.take_of_length_le (by omega)]
  · rw [List.prefix_take_iff]
    refine ⟨?_, by rw [List.length_take]; omega⟩
    exact (List.take_prefix j esc).trans (List.prefix_append _ _)

/-! ### Property theorems -/

/-- C72: a header of AVC that comes over RTMP. The message is a FLV tag body (frame type 1 or 2, codec 7, packet type 0, a composition time) with an
`AVCDecoderConfigurationRecord` whose first NAL unit is a sequence parameter set; whatever follows, and however the message is cut into buffers, if the
set is in the first one (its first `j` bytes, of which none is an emulation prevention byte): profile, compatibility, level and size of lengths are those of the
record, and the number of reference frames that of the set. The rest of the context stays, and the whole message is kept as the header.
The size is that of the picture just when the units of cropping are 2 (or nothing is cropped). -/
theorem C72_avc_partial (hevcId : Nat) (hevc : Ctx → Bytes → Option Ctx) (c : Option Ctx) (s : Spec.Sps) (hok : s.Ok) (hn : s.NoLists) (hpr : s.profile ∉ [128, 138, 139, 134, 135])
    (ft : Nat) (hft : ft = 1 ∨ ft = 2) (t1 t2 t3 : UInt8) (p co l ls k n : Nat) (hp : p < 256) (hco : co < 256) (hl : l < 256) (hls : 1 ≤ ls ∧ ls ≤ 4) (hk : 1 ≤ k ∧ k < 32)
    (hdr : UInt8) (hhdr : hdr.toNat % 32 = 7) (rbsp after : Bytes) (hr : s.bits <+: bitsOf rbsp) (j : Nat) (hj : s.bits.length ≤ 8 * j) (hesc : (Spec.escape 0 rbsp).take j = rbsp.take j)
    (msg first : Bytes) (more : List Bytes) (hmsg : msg = [UInt8.ofNat (16 * ft + 7), 0, t1, t2, t3] ++ Spec.record p co l ls k n ++ [hdr] ++ Spec.escape 0 rbsp ++ after)
    (hbufs : (first :: more).flatten = msg) (hfirst : 14 + j ≤ first.length) :
    ∃ w h : Nat, av hevcId hevc 9 (first :: more) c = some (some { (c.getD {}) with videoCodec := 7, profile := p, compat := co, level := l, nalBytes := ls, refFrames := s.refFrames, width := w, height := h, avcHeader := some msg }) ∧
      (Fits s → (((w : Int), (h : Int)) = s.size ↔ Twos s)) := by
  rw [hmsg, List.flatten_cons] at hbufs
  obtain ⟨y, hy1, hy2⟩ := first_split ([UInt8.ofNat (16 * ft + 7), 0, t1, t2, t3] ++ Spec.record p co l ls k n ++ [hdr]) (Spec.escape 0 rbsp) after first more.flatten j hbufs (by simpa [Spec.record] using hfirst)
  obtain ⟨r, hbits⟩ := escape_bits rbsp y j s.bits hr hj hesc hy2
  have g := gets_avcHeader { (c.getD {}) with videoCodec := 7 } (bitsOf [UInt8.ofNat (16 * ft + 7), 0, t1, t2, t3, 1]) (bitsOf [UInt8.ofNat (n / 256), UInt8.ofNat n]) p co l
    (UInt8.ofNat (0xfc + (ls - 1))).toNat (UInt8.ofNat (0xe0 + k)).toNat hdr.toNat s (by rw [bitsOf_length]; rfl) (by rw [bitsOf_length]; rfl) hp hco hl (UInt8.toNat_lt _) (UInt8.toNat_lt _)
    (by have := nals_fin ⟨k, hk.2⟩; dsimp only at this; omega) (UInt8.toNat_lt _) hhdr hok hn hpr
  have hls' := nalSize_fin ⟨ls, by omega⟩ hls.1
  dsimp only at hls'
  rw [hls'] at g
  obtain ⟨st, hst⟩ := g.parse first r (by
    rw [hy1, bitsOf_append, ← hbits]
    have e1 : bitsOf ([UInt8.ofNat (16 * ft + 7), 0, t1, t2, t3] ++ Spec.record p co l ls k n ++ [hdr]) = bitsOf [UInt8.ofNat (16 * ft + 7), 0, t1, t2, t3, 1] ++
        (byteBits (UInt8.ofNat p) ++ (byteBits (UInt8.ofNat co) ++ (byteBits (UInt8.ofNat l) ++ (byteBits (UInt8.ofNat (0xfc + (ls - 1))) ++ (byteBits (UInt8.ofNat (0xe0 + k)) ++ (bitsOf [UInt8.ofNat (n / 256), UInt8.ofNat n] ++ byteBits hdr)))))) := by
      simp only [Spec.record, bitsOf, List.cons_append, List.nil_append, List.flatMap_cons, List.flatMap_nil, List.append_nil, List.append_assoc]
    rw [e1, bitEnc_byte p hp, bitEnc_byte co hco, bitEnc_byte l hl, bitEnc_u8, bitEnc_u8, bitEnc_u8]
    simp only [List.append_assoc])
  have hfy : first = UInt8.ofNat (16 * ft + 7) :: 0 :: ([t1, t2, t3] ++ Spec.record p co l ls k n ++ [hdr] ++ y) := by rw [hy1]; rfl
  have hm : first ++ more.flatten = msg := by rw [hmsg, hbufs]
  rw [hfy] at hst hm ⊢
  refine ⟨_, _, ?_, fun hf => size_iff s hok.2.2.2.1 hf⟩
  rw [av_avc hevcId hevc c ft hft _ (by simp) more _ st hst, hm]
  rfl

/-- C72: a message that is no header (its second byte is not 0, or there are less than 3 bytes in the first buffer) tells of the codec only, a message of sound also the channels
and, when no rate is known yet, the rate; headers and what they told stay. -/
theorem C72_keep (hevcId : Nat) (hevc : Ctx → Bytes → Option Ctx) (type : Nat) (x : UInt8) (rest : Bytes) (more : List Bytes) (c : Option Ctx) (c' : Ctx)
    (hno : rest.length < 2 ∨ rest.head? ≠ some 0) (h : av hevcId hevc type ((x :: rest) :: more) c = some (some c')) :
    c'.width = (c.getD {}).width ∧ c'.height = (c.getD {}).height ∧ c'.profile = (c.getD {}).profile ∧ c'.compat = (c.getD {}).compat ∧ c'.level = (c.getD {}).level ∧ c'.nalBytes = (c.getD {}).nalBytes ∧
      c'.refFrames = (c.getD {}).refFrames ∧ c'.aacProfile = (c.getD {}).aacProfile ∧ c'.chanConf = (c.getD {}).chanConf ∧ c'.sbr = (c.getD {}).sbr ∧ c'.ps = (c.getD {}).ps ∧
      c'.avcHeader = (c.getD {}).avcHeader ∧ c'.aacHeader = (c.getD {}).aacHeader ∧ ((c.getD {}).sampleRate ≠ 0 → c'.sampleRate = (c.getD {}).sampleRate) ∧
      (type ≠ 8 → c'.audioCodec = (c.getD {}).audioCodec ∧ c'.channels = (c.getD {}).channels ∧ c'.sampleSize = (c.getD {}).sampleSize ∧ c'.sampleRate = (c.getD {}).sampleRate) ∧
      (type ≠ 9 → c'.videoCodec = (c.getD {}).videoCodec) := by
  unfold av at h
  dsimp only at h
  have hc : ∀ c1, c = some c1 → c.getD {} = c1 := by intro c1 h1; rw [h1]; rfl
  split at h
  · injection h with h
    rw [hc _ h]
    simp
  split at h
  · injection h with h
    rw [hc _ h]
    simp
  rename_i ht _
  generalize c.getD {} = d at h ⊢
  obtain ⟨e, h1, h2⟩ := Option.map_eq_some_iff.1 h
  injection h2 with h2
  subst h2
  obtain ⟨d', h3, h4⟩ := Option.bind_eq_some_iff.1 h1
  have hs : e = d' := by
    unfold saveHeader at h4
    split at h4
    · injection h4 with h4
      exact h4.symm
    rename_i hlen
    rw [if_pos] at h4
    · injection h4 with h4
      exact h4.symm
    · rcases hno with hno | hno
      · exact absurd hno (by simp only [List.length_cons] at hlen; omega)
      · cases rest with
        | nil => rfl
        | cons z zs =>
          simp only [List.head?_cons, ne_eq, Option.some.injEq] at hno
          simpa [isHeader] using hno
  subst hs
  unfold saveCodec at h3
  split at h3
  · rename_i h8
    split at h3
    · cases h3
    · injection h3 with h3
      subst h3
      subst h8
      simp +contextual
  · rename_i h8
    injection h3 with h3
    subst h3
    have : type = 9 := by omega
    subst this
    simp

example : av 12 (fun _ _ => none) 9 [[0x27, 1, 0, 0, 0, 9]] (some { width := 1280, videoCodec := 7 }) = some (some { width := 1280, videoCodec := 7 }) := by decide +kernel

/-- C72: messages that are neither sound nor video change nothing. -/
theorem C72_other (hevcId : Nat) (hevc : Ctx → Bytes → Option Ctx) (type : Nat) (h8 : type ≠ 8) (h9 : type ≠ 9) (b : Bytes) (more : List Bytes) (c : Option Ctx) :
    av hevcId hevc type (b :: more) c = some c := by
  unfold av
  dsimp only
  rw [if_pos ⟨h8, h9⟩]

example : (18 : Nat) ≠ 8 ∧ (18 : Nat) ≠ 9 := by decide

/-- C72: a header of AAC: a FLV tag body (format 10, packet type 0) with an `AudioSpecificConfig` in the first buffer. Object type, rate of output and channels are those of the
configuration, whether it has an explicit part for SBR or PS or not; `aac_sbr` and `aac_ps` are set if it has. -/
theorem C72_aac_partial (hevcId : Nat) (hevc : Ctx → Bytes → Option Ctx) (c : Option Ctx) (a : Spec.Asc) (hok : a.Ok) (fmt : UInt8) (hf : fmt.toNat / 16 = 10) (y : Bytes) (hy : 1 ≤ y.length) (more : List Bytes) (b : List Bool)
    (hb : a.IsBits b) (hpre : b <+: bitsOf y) :
    ∃ c', av hevcId hevc 8 ((fmt :: 0 :: y) :: more) c = some (some c') ∧ c'.audioCodec = 10 ∧ c'.aacProfile = a.object ∧ c'.sampleRate = a.outRate ∧ c'.chanConf = a.chan ∧
      c'.sbr = ((c.getD {}).sbr || a.ext.isSome) ∧ c'.ps = ((c.getD {}).ps || a.ext.map (·.1) == some true) ∧ c'.aacHeader = some (fmt :: 0 :: y ++ more.flatten) ∧
      c'.width = (c.getD {}).width ∧ c'.height = (c.getD {}).height ∧ c'.videoCodec = (c.getD {}).videoCodec ∧ c'.profile = (c.getD {}).profile ∧ c'.level = (c.getD {}).level ∧ c'.compat = (c.getD {}).compat ∧
      c'.nalBytes = (c.getD {}).nalBytes ∧ c'.refFrames = (c.getD {}).refFrames ∧ c'.avcHeader = (c.getD {}).avcHeader := by
  obtain ⟨r, hr⟩ := hpre
  generalize hcd : c.getD {} = d
  have hfmt : (fmt.toNat &&& 0xf0) >>> 4 = 10 ∧ (fmt.toNat &&& 0x0c) >>> 2 < 4 := by
    have key : ∀ x : Fin 256, x.val / 16 = 10 → (x.val &&& 0xf0) >>> 4 = 10 ∧ (x.val &&& 0x0c) >>> 2 < 4 := by decide +kernel
    exact key ⟨fmt.toNat, fmt.toNat_lt⟩ hf
  obtain ⟨rr, hrr⟩ : ∃ rr, flvRates[(fmt.toNat &&& 0x0c) >>> 2]? = some rr := by
    have : (fmt.toNat &&& 0x0c) >>> 2 < flvRates.length := hfmt.2
    exact ⟨_, List.getElem?_eq_getElem this⟩
  obtain ⟨d', hd'⟩ : ∃ d', saveCodec 8 fmt.toNat d = some d' ∧ d'.audioCodec = 10 ∧ d' = { d with audioCodec := 10, channels := d'.channels, sampleSize := d'.sampleSize, sampleRate := d'.sampleRate } := by
    unfold saveCodec
    rw [if_pos rfl, hrr, hfmt.1]
    exact ⟨_, rfl, rfl, rfl⟩
  obtain ⟨st, hst⟩ := (gets_aacHeader d' (bitsOf [fmt, 0]) b a (by rw [bitsOf_length]; rfl) hok hb).parse (fmt :: 0 :: y) r (by
    rw [show fmt :: 0 :: y = [fmt, 0] ++ y from rfl, bitsOf_append, ← hr, List.append_assoc])
  refine ⟨{ d' with aacProfile := a.object, sampleRate := a.outRate, chanConf := a.chan, sbr := d'.sbr || a.ext.isSome, ps := d'.ps || (a.ext.map (·.1)).getD false, aacHeader := some (fmt :: 0 :: y ++ more.flatten) }, ?_, ?_⟩
  · unfold av
    dsimp only
    rw [if_neg (by omega), if_neg (by omega), hcd, hd'.1, Option.bind_some]
    unfold saveHeader
    rw [if_neg (by simp only [List.length_cons]; omega), if_neg (by simp [isHeader]), if_pos rfl, if_pos hd'.2.1, hst]
    rfl
  · rw [hd'.2.2]
    refine ⟨rfl, rfl, rfl, rfl, rfl, ?_, rfl, rfl, rfl, rfl, rfl, rfl, rfl, rfl, rfl, rfl⟩
    cases a.ext with
    | none => rfl
    | some x =>
      obtain ⟨p, q⟩ := x
      cases p <;> rfl

end Verif.Codec
