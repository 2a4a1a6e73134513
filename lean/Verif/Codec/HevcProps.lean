import Verif.Codec.HevcRecord
/-
C73: what the server knows of HEVC.
-/
namespace Verif.Codec
open Verif Verif.BitOp

/-- A picture is shown. -/
def HevcFits (s : Spec.HevcSps) : Prop := 1 ≤ s.size.1 ∧ 1 ≤ s.size.2

instance (s : Spec.HevcSps) : Decidable (HevcFits s) := by unfold HevcFits; infer_instance

theorem window64_fits (w sub l r : Nat) (hw : w < 2 ^ 32) (h : (1 : Int) ≤ (w : Int) - sub * (l + r)) : ((window64 w sub l r : Nat) : Int) = (w : Int) - sub * (l + r) - 1 := by
  unfold window64
  have e : (w : Int) - ((sub * r : Nat) + 1) - (sub * l : Nat) = (w : Int) - sub * (l + r) - 1 := by
    push_cast
    rw [Int.mul_add]
    omega
  have hn : (0 : Int) ≤ (sub : Int) * (l + r) := Int.mul_nonneg (by omega) (by omega)
  rw [e]
  generalize (sub : Int) * (l + r) = q at *
  omega

theorem sub_eq (s : Spec.HevcSps) : subSampling s.format = s.sub := by
  unfold subSampling Spec.HevcSps.sub
  split
  · rename_i h; rw [h]; rfl
  · split
    · rename_i h; rw [h]; rfl
    · split <;> first | rfl | (exfalso; omega)

/-- What is read is the size when there is no window, and one less in both ways when there is one. -/
theorem hevcSize_eq (s : Spec.HevcSps) (hok : s.Ok) (hf : HevcFits s) :
    (((hevcSize s).1 : Int), ((hevcSize s).2 : Int)) = if s.window = none then s.size else (s.size.1 - 1, s.size.2 - 1) := by
  obtain ⟨_, _, _, _, _, _, _, o8, o9, _⟩ := hok
  unfold hevcSize
  unfold HevcFits at hf
  rw [sub_eq]
  cases hw : s.window with
  | none => simp [Spec.HevcSps.size, hw]
  | some x =>
    obtain ⟨l, r, t, b⟩ := x
    simp only [Spec.HevcSps.size, hw] at hf ⊢
    rw [if_neg (by simp), window64_fits _ _ _ _ (by omega) hf.1, window64_fits _ _ _ _ (by omega) hf.2]

theorem hevc_fmt_fin : ∀ ft : Fin 3, ft.val ≠ 0 → (UInt8.ofNat (16 * ft.val + 12)).toNat &&& 0x0f = 12 ∧
    ((UInt8.ofNat (16 * ft.val + 12)).toNat &&& 0xf0 = 0x10 ∨ (UInt8.ofNat (16 * ft.val + 12)).toNat &&& 0xf0 = 0x20) := by decide

/-- `av` of a header of HEVC is what is read from the first buffer. -/
theorem av_hevc (c : Option Ctx) (ft : Nat) (hft : ft = 1 ∨ ft = 2) (y : Bytes) (hy : 1 ≤ y.length) (more : List Bytes) (hevc : Ctx → Bytes → Option Ctx) :
    av 12 hevc 9 ((UInt8.ofNat (16 * ft + 12) :: 0 :: y) :: more) c =
      (hevc { (c.getD {}) with videoCodec := 12 } (UInt8.ofNat (16 * ft + 12) :: 0 :: y)).map fun c' => some { c' with avcHeader := some ((UInt8.ofNat (16 * ft + 12) :: 0 :: y) ++ more.flatten) } := by
  obtain ⟨f1, f2⟩ := hevc_fmt_fin ⟨ft, by omega⟩ (by dsimp only; omega)
  dsimp only at f1 f2
  unfold av
  dsimp only
  rw [if_neg (by omega), if_neg (by omega)]
  unfold saveCodec
  rw [if_neg (by omega), Option.bind_some]
  unfold saveHeader
  rw [if_neg (by simp only [List.length_cons]; omega), if_neg (by simp [isHeader]), if_neg (by omega), if_neg (by dsimp only; omega), if_pos (by dsimp only; exact f1), f1, Option.map_map]
  simp only [List.flatten_cons]
  rfl

/-- C73: a message with a configuration record of HEVC, in one buffer. The parameter sets of sequences are in units of at most 4096 bytes, and after the last of them is another array of units.
Then the size of lengths is that of the record. The size of the picture is that of the last set when it has no conformance window, and one less in both ways when it has one;
without a set it stays. The rest of the context stays (profile and level too), and the message is kept as the header.
Missing: headers that end with a set, that are in more than one buffer, and a right size with a window (see the violations). -/
theorem C73_hevc_partial (c : Option Ctx) (ft : Nat) (hft : ft = 1 ∨ ft = 2) (t1 t2 t3 : UInt8) (general : Bytes) (hg : general.length = 20) (rates ls : Nat) (hr : rates < 64) (hls : 1 ≤ ls ∧ ls ≤ 4)
    (arrays after : List Spec.NalArray) (hn : (arrays ++ after).length < 256) (hok : ∀ a ∈ arrays, a.Ok) (hafter : ∀ a ∈ after, a.Ok ∧ a.type ≠ 33) (hne : after ≠ [])
    (hsets : ∀ a ∈ arrays, a.type = 33 → ∀ n ∈ a.nals, n.length ≤ 4096 ∧ ∃ s : Spec.HevcSps, s.Ok ∧ Spec.IsSpsNal s n)
    (msg : Bytes) (hmsg : msg = [UInt8.ofNat (16 * ft + 12), 0, t1, t2, t3] ++ Spec.hevcRecord general rates ls (arrays ++ after)) :
    ∃ w h : Nat, av 12 hevcHeader 9 [msg] c = some (some { (c.getD {}) with videoCodec := 12, nalBytes := ls, width := w, height := h, avcHeader := some msg }) ∧
      ((∀ a ∈ arrays, a.type = 33 → a.nals = []) → w = (c.getD {}).width ∧ h = (c.getD {}).height) ∧
      ∀ (a b : List Spec.NalArray) (f : Nat) (ns : List Bytes) (n : Bytes) (s : Spec.HevcSps), arrays = a ++ ⟨f, 33, ns ++ [n]⟩ :: b → (∀ x ∈ b, x.type ≠ 33) → s.Ok → Spec.IsSpsNal s n → HevcFits s →
        ((w : Int), (h : Int)) = if s.window = none then s.size else (s.size.1 - 1, s.size.2 - 1) := by
  have hh : Holds (spsNals arrays) := by
    intro n hn
    obtain ⟨a, ha, hna⟩ := List.mem_flatMap.1 hn
    obtain ⟨ha1, ha2⟩ := List.mem_filter.1 ha
    exact hsets a ha1 (by simpa using ha2) n hna
  have h3 : 2 ≤ (after.flatMap Spec.NalArray.bytes ++ []).length := by
    cases after with
    | nil => exact absurd rfl hne
    | cons a after => simp [Spec.NalArray.bytes, Spec.be16]
  obtain ⟨c', e, w, h, rfl, k2, k3⟩ := hevcHeader_record { (c.getD {}) with videoCodec := 12 } [UInt8.ofNat (16 * ft + 12), 0, t1, t2, t3] general rates ls arrays after [] rfl hg hr hls hn hok hafter h3 hh
  rw [List.append_nil, ← hmsg] at e
  refine ⟨w, h, ?_, ?_, ?_⟩
  · have hm : msg = UInt8.ofNat (16 * ft + 12) :: 0 :: ([t1, t2, t3] ++ Spec.hevcRecord general rates ls (arrays ++ after)) := by rw [hmsg]; rfl
    have := av_hevc c ft hft ([t1, t2, t3] ++ Spec.hevcRecord general rates ls (arrays ++ after)) (by simp) [] hevcHeader
    rw [← hm, e] at this
    rw [this]
    simp
  · intro hnil
    refine k2 ?_
    unfold spsNals
    rw [List.flatMap_eq_nil_iff]
    intro a ha
    obtain ⟨ha1, ha2⟩ := List.mem_filter.1 ha
    exact hnil a ha1 (by simpa using ha2)
  · intro a b f ns n s hab hb hs hi hf
    have hl : (spsNals arrays).getLast? = some n := by
      have hb' : b.filter (fun a => a.type == 33) = [] := by
        rw [List.filter_eq_nil_iff]
        intro x hx
        simpa using hb x hx
      rw [hab]
      unfold spsNals
      rw [List.filter_append, List.filter_cons_of_pos (by simp), hb', List.flatMap_append, List.flatMap_cons, List.flatMap_nil, List.append_nil]
      dsimp only
      rw [← List.append_assoc, List.getLast?_append]
      rfl
    have := k3 n hl s hs hi
    have hz := hevcSize_eq s hs hf
    rw [this] at hz
    exact hz

/-- 1920 by 1080, without a window -/
def hevcHd : Spec.HevcSps where
  general := bitEnc 8 1 ++ bitEnc 32 0x60000000 ++ bitEnc 48 0x900000000000
  level := bitEnc 8 93
  width := 1920
  height := 1080

/-- The same from a picture of 1088 lines -/
def hevcWin : Spec.HevcSps := { hevcHd with height := 1088, window := some (0, 0, 0, 4) }

def hevcHdNal : Bytes := [66, 1, 1, 1, 96, 0, 0, 3, 0, 144, 0, 0, 3, 0, 0, 3, 0, 93, 160, 3, 192, 128, 16, 229]
def hevcWinNal : Bytes := [66, 1, 1, 1, 96, 0, 0, 3, 0, 144, 0, 0, 3, 0, 0, 3, 0, 93, 160, 3, 192, 128, 17, 7, 203]

theorem hevcHd_ok : hevcHd.Ok := by
  refine ⟨by decide, by decide, by decide, by decide, by simp [hevcHd], by decide, by decide, by decide, by decide, by simp [hevcHd]⟩

theorem hevcWin_ok : hevcWin.Ok := by
  refine ⟨by decide, by decide, by decide, by decide, by simp [hevcHd, hevcWin], by decide, by decide, by decide, by decide, ?_⟩
  intro l r t b h
  simp only [hevcWin, Option.some.injEq, Prod.mk.injEq] at h
  omega

theorem hevcHd_nal : Spec.IsSpsNal hevcHd hevcHdNal :=
  ⟨66, 1, [1, 1, 96, 0, 0, 0, 144, 0, 0, 0, 0, 0, 93, 160, 3, 192, 128, 16, 229], by decide, by decide, by decide +kernel, by decide⟩

theorem hevcWin_nal : Spec.IsSpsNal hevcWin hevcWinNal :=
  ⟨66, 1, [1, 1, 96, 0, 0, 0, 144, 0, 0, 0, 0, 0, 93, 160, 3, 192, 128, 17, 7, 203], by decide, by decide, by decide +kernel, by decide⟩

example : hevcHd.size = (1920, 1080) ∧ hevcWin.size = (1920, 1080) ∧ HevcFits hevcHd ∧ HevcFits hevcWin := by decide

/-- A header of a stream with these sets meets what is asked. -/
example : ∃ arrays after : List Spec.NalArray, (arrays ++ after).length < 256 ∧ (∀ a ∈ arrays, a.Ok) ∧ (∀ a ∈ after, a.Ok ∧ a.type ≠ 33) ∧ after ≠ [] ∧
    (∀ a ∈ arrays, a.type = 33 → ∀ n ∈ a.nals, n.length ≤ 4096 ∧ ∃ s : Spec.HevcSps, s.Ok ∧ Spec.IsSpsNal s n) ∧ arrays = [⟨2, 32, [[64, 1, 12]]⟩] ++ ⟨2, 33, [hevcWinNal] ++ [hevcHdNal]⟩ :: [] := by
  refine ⟨[⟨2, 32, [[64, 1, 12]]⟩, ⟨2, 33, [hevcWinNal, hevcHdNal]⟩], [⟨2, 34, [[68, 1, 193]]⟩], by decide, ?_, ?_, by decide, ?_, rfl⟩
  · intro a ha
    simp only [List.mem_cons, List.not_mem_nil, or_false] at ha
    rcases ha with rfl | rfl <;> exact ⟨by decide, by decide, by decide, by decide⟩
  · intro a ha
    simp only [List.mem_cons, List.not_mem_nil, or_false] at ha
    subst ha
    exact ⟨⟨by decide, by decide, by decide, by decide⟩, by decide⟩
  · intro a ha ht n hn
    simp only [List.mem_cons, List.not_mem_nil, or_false] at ha
    rcases ha with rfl | rfl
    · exact absurd ht (by decide)
    · simp only [List.mem_cons, List.not_mem_nil, or_false] at hn
      rcases hn with rfl | rfl
      · exact ⟨by decide, hevcWin, hevcWin_ok, hevcWin_nal⟩
      · exact ⟨by decide, hevcHd, hevcHd_ok, hevcHd_nal⟩

/-! ### Whatever comes -/

/-- What is read changes the size and nothing else. -/
def Sizes (p : Rd Ctx) (c : Ctx) : Prop := ∀ s c' s', p s = some (c', s') → ∃ w h, c' = { c with width := w, height := h }

theorem Rd.bind_some {α β : Type} {p : Rd α} {f : α → Rd β} {s : St} {r : β × St} (h : (p >>= f) s = some r) : ∃ a s1, p s = some (a, s1) ∧ f a s1 = some r := by
  change StateT.bind p f s = some r at h
  unfold StateT.bind at h
  obtain ⟨⟨a, s1⟩, h1, h2⟩ := Option.bind_eq_some_iff.1 h
  exact ⟨a, s1, h1, h2⟩

theorem hevcNal_sizes (mem : Bytes) (len : Nat) (c c' : Ctx) (h : hevcNal mem len c = some c') : ∃ w x, c' = { c with width := w, height := x } := by
  unfold hevcNal at h
  obtain ⟨r, _, h⟩ := Option.bind_eq_some_iff.1 h
  cases r with
  | none => injection h with h; subst h; exact ⟨c.width, c.height, rfl⟩
  | some d =>
    dsimp only at h
    obtain ⟨⟨x, st⟩, _, h⟩ := Option.map_eq_some_iff.1 h
    cases x with
    | none => exact ⟨c.width, c.height, h.symm⟩
    | some y => exact ⟨y.1, y.2, h.symm⟩

theorem hevcNals_sizes (type : Nat) : ∀ (n : Nat) (c : Ctx), Sizes (hevcNals type n c) c := by
  intro n
  induction n with
  | zero =>
    intro c s c' s' h
    injection h with h
    injection h with h _
    exact ⟨c.width, c.height, h.symm⟩
  | succ n ih =>
    intro c s c' s' h
    unfold hevcNals at h
    obtain ⟨len, s1, _, h⟩ := Rd.bind_some h
    obtain ⟨st, s2, _, h⟩ := Rd.bind_some h
    obtain ⟨c1, s3, h3, h⟩ := Rd.bind_some h
    obtain ⟨_, s4, _, h⟩ := Rd.bind_some h
    obtain ⟨w, x, rfl⟩ := ih c1 s4 c' s' h
    unfold lift at h3
    obtain ⟨c2, h4, h5⟩ := Option.map_eq_some_iff.1 h3
    injection h5 with h5 _
    subst h5
    split at h4
    · obtain ⟨w', x', rfl⟩ := hevcNal_sizes _ _ _ _ h4
      exact ⟨w, x, rfl⟩
    · injection h4 with h4
      subst h4
      exact ⟨w, x, rfl⟩

theorem hevcArrays_sizes : ∀ (n : Nat) (c : Ctx), Sizes (hevcArrays n c) c := by
  intro n
  induction n with
  | zero =>
    intro c s c' s' h
    injection h with h
    injection h with h _
    exact ⟨c.width, c.height, h.symm⟩
  | succ n ih =>
    intro c s c' s' h
    unfold hevcArrays at h
    obtain ⟨t, s1, _, h⟩ := Rd.bind_some h
    obtain ⟨k, s2, _, h⟩ := Rd.bind_some h
    obtain ⟨c1, s3, h3, h⟩ := Rd.bind_some h
    obtain ⟨w, x, rfl⟩ := ih c1 s3 c' s' h
    obtain ⟨w', x', rfl⟩ := hevcNals_sizes _ _ _ _ _ _ h3
    exact ⟨w, x, rfl⟩

/-- C73: whatever bytes come as a header of HEVC, nothing is changed but the codec, size of lengths (1 to 4), size of the picture and the kept header. -/
theorem C73_only (c : Option Ctx) (ft : Nat) (hft : ft = 1 ∨ ft = 2) (y : Bytes) (hy : 1 ≤ y.length) (more : List Bytes) (r : Option Ctx)
    (h : av 12 hevcHeader 9 ((UInt8.ofNat (16 * ft + 12) :: 0 :: y) :: more) c = some r) :
    ∃ nb w x, 1 ≤ nb ∧ nb ≤ 4 ∧ r = some { (c.getD {}) with videoCodec := 12, nalBytes := nb, width := w, height := x, avcHeader := some ((UInt8.ofNat (16 * ft + 12) :: 0 :: y) ++ more.flatten) } := by
  rw [av_hevc c ft hft y hy more] at h
  obtain ⟨c', h1, h2⟩ := Option.map_eq_some_iff.1 h
  unfold hevcHeader parse at h1
  obtain ⟨⟨c1, st⟩, h3, h4⟩ := Option.map_eq_some_iff.1 h1
  dsimp only at h4
  subst h4
  unfold hevcRead at h3
  obtain ⟨_, s1, _, h3⟩ := Rd.bind_some h3
  obtain ⟨_, s2, _, h3⟩ := Rd.bind_some h3
  obtain ⟨nb, s3, _, h3⟩ := Rd.bind_some h3
  obtain ⟨n, s4, _, h3⟩ := Rd.bind_some h3
  obtain ⟨w, x, rfl⟩ := hevcArrays_sizes _ _ _ _ _ h3
  exact ⟨nb % 4 + 1, w, x, by omega, by omega, h2.symm⟩

/-- Two zeros and a byte below 3 end the loop with an error, whatever is before. -/
theorem rbspLoop_refuse (x : UInt8) (hx : x.toNat < 3) : ∀ (body : Bytes) (n z : Nat) (more out : Bytes), z ≤ 2 → body.length + 3 ≤ n → out.length + body.length + 2 ≤ 4096 →
    rbspLoop n (body ++ 0 :: 0 :: x :: more) z out = some none := by
  have zero (n z : Nat) (rest out : Bytes) (ho : out.length < 4096) : rbspLoop (n + 1) (0 :: rest) z out = if z = 2 then some none else rbspLoop n rest (z + 1) (out ++ [0]) := by
    by_cases hz : z = 2
    · rw [if_pos hz, rbspLoop.eq_def]
      dsimp only
      rw [if_pos ⟨hz, by decide⟩]
    · rw [if_neg hz, rbspLoop_put _ _ _ _ _ (by omega) ho, if_pos rfl]
  intro body
  induction body with
  | nil =>
    intro n z more out hz hn ho
    simp only [List.length_nil] at hn ho
    obtain ⟨m, rfl⟩ : ∃ m, n = m + 1 + 1 + 1 := ⟨n - 3, by omega⟩
    have hb : (out ++ [(0 : UInt8)]).length < 4096 := by simp; omega
    rw [List.nil_append, zero _ _ _ _ (by omega)]
    split
    · rfl
    · rw [zero _ _ _ _ hb]
      split
      · rfl
      · rw [rbspLoop.eq_def]
        dsimp only
        rw [if_pos ⟨by omega, hx⟩]
  | cons b body ih =>
    intro n z more out hz hn ho
    simp only [List.length_cons] at hn ho
    obtain ⟨m, rfl⟩ : ∃ m, n = m + 1 := ⟨n - 1, by omega⟩
    have go : rbspLoop m (body ++ 0 :: 0 :: x :: more) 0 out = some none := ih m 0 more out (by omega) (by omega) (by omega)
    have put : ∀ z', z' ≤ 2 → rbspLoop m (body ++ 0 :: 0 :: x :: more) z' (out ++ [b]) = some none := fun z' h => ih m z' more (out ++ [b]) h (by omega) (by simp; omega)
    rw [List.cons_append, rbspLoop.eq_def]
    dsimp only
    split
    · rfl
    · rename_i h1
      split
      · split
        · rename_i h; exfalso; cases body <;> simp at h
        · split
          · rfl
          · exact go
      · rename_i h2
        rw [if_neg (by omega)]
        refine put _ ?_
        split
        · rename_i h0
          have : b.toNat = 0 := by rw [h0]; rfl
          omega
        · omega

/-- C73: a unit in which two zeros are followed by 0, 1 or 2 (which no encoder writes, 7.3.1.1) is not used: what is known stays. -/
theorem C73_refuse (h0 h1 x : UInt8) (hx : x.toNat < 3) (body more tail : Bytes) (hl : body.length + 2 ≤ 4096) (c : Ctx) :
    hevcNal ((h0 :: h1 :: body ++ 0 :: 0 :: x :: more) ++ tail) (h0 :: h1 :: body ++ 0 :: 0 :: x :: more).length c = some c := by
  have e : (h0 :: h1 :: body ++ 0 :: 0 :: x :: more).length = (body.length + more.length + 3) + 2 := by simp; omega
  have e2 : (h0 :: h1 :: body ++ 0 :: 0 :: x :: more) ++ tail = h0 :: h1 :: (body ++ 0 :: 0 :: x :: (more ++ tail)) := by simp
  have hr : toRbsp (h0 :: h1 :: (body ++ 0 :: 0 :: x :: (more ++ tail))) ((body.length + more.length + 3) + 2) = some none := by
    unfold toRbsp
    dsimp only
    split
    · rfl
    · exact rbspLoop_refuse x hx body _ 0 _ [] (by omega) (by omega) (by simpa using hl)
  unfold hevcNal
  rw [e, e2, hr]
  rfl

example : ((2 : UInt8).toNat < 3) ∧ hevcNal [66, 1, 1, 0, 0, 2, 7] 7 {} = some {} := by decide +kernel

end Verif.Codec
