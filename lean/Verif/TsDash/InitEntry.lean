import Verif.TsDash.InitRead
/- What a reader finds in the sample entries -/
namespace Verif.TsDash
open Verif Verif.TsIn
open Verif.Mp4 (tag str overwrite boxText boxText_length flat child child_at row_cons row_nil Row numAt numAt_append readInit boxes)

theorem child_only {s : String} {x : Bytes} (hs : (str s).length = 4) (hx : 8 + x.length < 2 ^ 32) : child s (boxText (str s) x) = some x := by
  have := child_at s [] x [] (row_cons hs hx row_nil) (by simp) (by simp)
  simpa only [List.nil_append, flat, List.append_nil] using this

/-! ### Descriptors -/

theorem descSize_small : ∀ n, n < 128 → descSize n = [128, 128, 128, UInt8.ofNat n] := by decide +kernel

theorem desc_text (t : UInt8) (v : Nat) (x rest : Bytes) (ht : UInt8.ofNat v = t) (hn : x.length < 128) : Mp4.desc t (descText v x ++ rest) = some (x, rest) := by
  have e1 : beEnc 1 v = [UInt8.ofNat v] := by simp [beEnc]
  unfold descText
  rw [e1, descSize_small _ hn]
  simp only [List.cons_append, List.nil_append, Mp4.desc, ht, ne_eq, not_true, if_false]
  have h2 : (UInt8.ofNat x.length).toNat = x.length := by
    rw [UInt8.toNat_ofNat']
    omega
  have h3 : (128 : UInt8).toNat = 128 := rfl
  simp only [Mp4.descLen, h2, h3, hn, if_true, Nat.lt_irrefl, if_false, Option.bind_some, Nat.zero_mul, Nat.zero_add, Nat.sub_self]
  rw [if_neg (by rw [List.length_append]; omega), List.take_left' rfl, List.drop_left' rfl]

/-- What is said of a decoder -/
def decoderOf (r : Rep) (info : Option Bytes) : Spec.Decoder := ⟨oti r.type, if r.video then 4 else 5, r.bandwidth * 2 % 2 ^ 32, r.bandwidth % 2 ^ 32, info⟩

/-- The two bytes of an AudioSpecificConfig -/
def ascB (a : Codec.Aac) : Bytes := beEnc 1 (a.profile * 8 + a.freqIndex / 2) ++ beEnc 1 (a.freqIndex * 128 + a.chan * 8)

theorem oti_lt (t : Nat) : oti t % 256 ^ 1 = oti t := by
  unfold oti
  repeat' split
  all_goals rfl

theorem readDecoder_eq (r : Rep) : Spec.readDecoder (decConfB r) = some (decoderOf r (r.aac.map ascB)) := by
  have k1 : numAt 0 1 (decConfB r) = some (oti r.type) := by
    have := numAt_append [] (beEnc 1 (oti r.type)) (beEnc 1 ((if r.video then 4 else 5) * 4) ++ (beEnc 3 0 ++ (beEnc 4 (r.bandwidth * 2) ++ (beEnc 4 r.bandwidth ++ decSpecT r)))) 0 1 (oti r.type) rfl rfl
    rw [oti_lt] at this
    simpa [decConfB, List.append_assoc] using this
  have k2 : numAt 1 1 (decConfB r) = some ((if r.video then 4 else 5) * 4) := by
    have := numAt_append (beEnc 1 (oti r.type)) (beEnc 1 ((if r.video then 4 else 5) * 4)) (beEnc 3 0 ++ (beEnc 4 (r.bandwidth * 2) ++ (beEnc 4 r.bandwidth ++ decSpecT r))) 1 1 _ (l1 _) rfl
    have e : ((if r.video then 4 else 5) * 4) % 256 ^ 1 = (if r.video then 4 else 5) * 4 := by cases r.video <;> rfl
    rw [e] at this
    simpa [decConfB, List.append_assoc] using this
  have k3 : numAt 5 4 (decConfB r) = some (r.bandwidth * 2 % 2 ^ 32) := by
    have := numAt_append (beEnc 1 (oti r.type) ++ (beEnc 1 ((if r.video then 4 else 5) * 4) ++ beEnc 3 0)) (beEnc 4 (r.bandwidth * 2)) (beEnc 4 r.bandwidth ++ decSpecT r) 5 4 _
      (by simp only [List.length_append, l1, l3]) rfl
    simpa [decConfB, List.append_assoc] using this
  have k4 : numAt 9 4 (decConfB r) = some (r.bandwidth % 2 ^ 32) := by
    have := numAt_append (beEnc 1 (oti r.type) ++ (beEnc 1 ((if r.video then 4 else 5) * 4) ++ (beEnc 3 0 ++ beEnc 4 (r.bandwidth * 2)))) (beEnc 4 r.bandwidth) (decSpecT r) 9 4 _
      (by simp only [List.length_append, l1, l3, l4]) rfl
    simpa [decConfB, List.append_assoc] using this
  have k5 : (decConfB r).drop 13 = decSpecT r := by
    unfold decConfB
    rw [List.drop_left' (by simp only [List.length_append, l1, l3, l4])]
  have e4 : (if r.video then 4 else 5) * 4 / 4 = if r.video then 4 else 5 := Nat.mul_div_cancel _ (by decide)
  unfold Spec.readDecoder
  rw [k1, k2, k3, k4]
  simp only [Option.bind_some]
  rw [decConfB_len, k5, e4]
  unfold decSpecT decoderOf
  cases r.aac with
  | none => rfl
  | some a =>
    have hl : (ascB a).length = 2 := by unfold ascB; rw [List.length_append, l1, l1]
    show (if 13 + (descText 5 (ascB a)).length = 13 then _ else _) = _
    rw [descText_len, if_neg (by omega)]
    have hd := desc_text 5 5 (ascB a) [] rfl (by rw [hl]; decide)
    rw [List.append_nil] at hd
    show (Mp4.desc 5 (descText 5 (ascB a))).bind _ = _
    rw [hd]
    rfl

theorem readEsds_eq (r : Rep) : Spec.readEsds (esdsB r) = some (decoderOf r (r.aac.map ascB)) := by
  have hs := decSpecT_len r
  have hd := decConfB_len r
  have e0 : (esdsB r).drop 4 = descText 3 (beEnc 2 1 ++ beEnc 1 0 ++ descText 4 (decConfB r) ++ descText 6 (beEnc 1 2)) ++ [] := by
    unfold esdsB
    rw [List.drop_left' (vf_len _ _), List.append_nil]
  have hl : (beEnc 2 1 ++ beEnc 1 0 ++ descText 4 (decConfB r) ++ descText 6 (beEnc 1 2)).length < 128 := by
    simp only [List.length_append, l1, l2, descText_len]
    omega
  have e1 : numAt 2 1 (beEnc 2 1 ++ beEnc 1 0 ++ descText 4 (decConfB r) ++ descText 6 (beEnc 1 2)) = some 0 := by
    rw [List.append_assoc, List.append_assoc]
    exact numAt_append (beEnc 2 1) (beEnc 1 0) _ 2 1 0 (l2 _) rfl
  have e2 : (beEnc 2 1 ++ beEnc 1 0 ++ descText 4 (decConfB r) ++ descText 6 (beEnc 1 2)).drop 3 = descText 4 (decConfB r) ++ descText 6 (beEnc 1 2) := by
    rw [List.append_assoc, List.drop_left' (by rw [List.length_append, l2, l1])]
  unfold Spec.readEsds
  rw [e0, desc_text 3 3 _ [] rfl hl]
  simp only [Option.bind_some]
  rw [if_neg (by rw [e1]; simp), e2, desc_text 4 4 _ _ rfl (by omega)]
  simp only [Option.bind_some]
  have e3 : Mp4.desc 6 (descText 6 (beEnc 1 2)) = some ([2], []) := by decide +kernel
  rw [e3]
  simp only [Option.bind_some]
  rw [if_neg (by simp)]
  exact readDecoder_eq r

theorem readAsc_eq (a : Codec.Aac) (hp : a.profile < 31) (hi : a.freqIndex < 15) (hc : a.chan < 16) : Spec.readAsc (ascB a) = some (a.profile, a.freqIndex, a.chan) := by
  have e1 : ∀ k : Nat, beEnc 1 k = [UInt8.ofNat k] := by intro k; simp [beEnc]
  have e : ascB a = beEnc 2 (a.profile * 2048 + a.freqIndex * 128 + a.chan * 8) := by
    unfold ascB
    rw [e1, e1]
    have e2 : ∀ k : Nat, beEnc 2 k = [UInt8.ofNat (k / 256), UInt8.ofNat k] := by intro k; simp [beEnc]
    rw [e2]
    have : ∀ a b : Nat, a % 256 = b % 256 → UInt8.ofNat a = UInt8.ofNat b := by
      intro a b h
      apply UInt8.toNat_inj.1
      simp [h]
    rw [this (a.profile * 8 + a.freqIndex / 2) ((a.profile * 2048 + a.freqIndex * 128 + a.chan * 8) / 256) (by omega),
      this (a.freqIndex * 128 + a.chan * 8) (a.profile * 2048 + a.freqIndex * 128 + a.chan * 8) (by omega)]
    rfl
  have hn := Mp4.num_cons (k := 2) (v := a.profile * 2048 + a.freqIndex * 128 + a.chan * 8) []
  rw [List.append_nil, ← e] at hn
  unfold Spec.readAsc
  rw [hn]
  simp only [Option.bind_some]
  have h0 : (a.profile * 2048 + a.freqIndex * 128 + a.chan * 8) % 256 ^ 2 = a.profile * 2048 + a.freqIndex * 128 + a.chan * 8 := Nat.mod_eq_of_lt (by omega)
  rw [h0, if_neg (by simp; omega)]
  congr 2
  · omega
  · congr 1 <;> omega

/-! ### Pictures -/

theorem readSet_eq (x rest : Bytes) (h : x.length < 2 ^ 16) : Spec.readSet (beEnc 2 x.length ++ (x ++ rest)) = some (x, rest) := by
  unfold Spec.readSet
  rw [Mp4.num_cons]
  simp only [Option.bind_some]
  rw [Nat.mod_eq_of_lt (by omega), if_neg (by rw [List.length_append]; omega), List.take_left' rfl, List.drop_left' rfl]

theorem readSets_one (x rest : Bytes) (h : x.length < 2 ^ 16) : Spec.readSets 1 (beEnc 2 x.length ++ (x ++ rest)) = some ([x], rest) := by
  unfold Spec.readSets
  rw [readSet_eq x rest h]
  rfl

theorem readAvcConf_eq (b0 b1 b2 b3 : UInt8) (s p : Bytes) (hs : (b0 :: b1 :: b2 :: b3 :: s).length < 2 ^ 16) (hp : p.length < 2 ^ 16) :
    Spec.readAvcConf (avccB (b0 :: b1 :: b2 :: b3 :: s) p) = some ⟨b1.toNat, b2.toNat, b3.toNat, 4, [b0 :: b1 :: b2 :: b3 :: s], [p], []⟩ := by
  have e : avccB (b0 :: b1 :: b2 :: b3 :: s) p =
      1 :: b1 :: b2 :: b3 :: 0xff :: 0xe1 :: (beEnc 2 (b0 :: b1 :: b2 :: b3 :: s).length ++ ((b0 :: b1 :: b2 :: b3 :: s) ++ (1 :: (beEnc 2 p.length ++ p)))) := by
    unfold avccB
    have e1 : beEnc 1 1 = [1] ∧ beEnc 1 0xff = [0xff] ∧ beEnc 1 0xe1 = [0xe1] := by decide +kernel
    rw [e1.1, e1.2.1, e1.2.2]
    simp
  rw [e]
  unfold Spec.readAvcConf
  have e31 : (0xe1 : UInt8).toNat % 32 = 1 := rfl
  dsimp only
  rw [if_neg (by simp), e31, readSets_one _ _ hs]
  simp only [Option.bind_some]
  have hp' := readSets_one p [] hp
  rw [List.append_nil] at hp'
  have e1 : (1 : UInt8).toNat = 1 := rfl
  rw [e1, hp']
  rfl

def videoA : Bytes := beEnc 4 0 ++ (beEnc 2 0 ++ (beEnc 2 1 ++ f32sT [0, 0, 0, 0]))
def videoZ : Bytes := beEnc 4 0x480000 ++ (beEnc 4 0x480000 ++ (beEnc 4 0 ++ (beEnc 2 1 ++ (f32sT [0, 0, 0, 0, 0, 0, 0, 0] ++ (beEnc 2 0x18 ++ beEnc 2 0xffff)))))

theorem videoH_eq (w h : Nat) : videoH w h = videoA ++ (beEnc 2 w ++ (beEnc 2 h ++ videoZ)) := by
  unfold videoH videoA videoZ
  simp only [List.append_assoc]

theorem width_at (w h : Nat) (x : Bytes) : numAt 24 2 (videoH w h ++ x) = some (w % 65536) := by
  rw [videoH_eq, List.append_assoc, List.append_assoc]
  exact numAt_append videoA (beEnc 2 w) _ 24 2 w (by decide +kernel) rfl

theorem height_at (w h : Nat) (x : Bytes) : numAt 26 2 (videoH w h ++ x) = some (h % 65536) := by
  rw [videoH_eq, ← List.append_assoc videoA, List.append_assoc, List.append_assoc]
  refine numAt_append (videoA ++ beEnc 2 w) (beEnc 2 h) _ 26 2 h ?_ rfl
  have : videoA.length = 24 := by decide +kernel
  rw [List.length_append, this, l2]

theorem readPicture_eq {r : Rep} (hsh : ShortSets r) (hv : r.video = true) (ht : r.type = avcType) {s p : Bytes} (hs : r.sps = some s) (hp : r.pps = some p) (h4 : 4 ≤ s.length) (hp0 : p ≠ []) :
    Mp4.readPicture (entryB r) = some ⟨widthOf r % 65536, heightOf r % 65536, avccB s p⟩ := by
  have hl := avccB_len s p
  have h1 := hsh.1 s hs
  have h2 := hsh.2 p hp
  have e : entryB r = videoH (widthOf r) (heightOf r) ++ boxText (str "avcC") (avccB s p) := by
    unfold entryB
    rw [if_pos hv, if_pos ht]
    unfold avccT
    rw [hs, hp]
    dsimp only
    rw [if_neg (by simp [List.length_eq_zero_iff, hp0]; omega)]
    rfl
  unfold Mp4.readPicture
  rw [e, width_at, height_at, List.drop_left' (videoH_len _ _), child_only (by decide +kernel) (by omega)]
  rfl

theorem readVisual_eq {r : Rep} (hv : r.video = true) (ht : r.type ≠ avcType) : Spec.readVisual (entryB r) = some (widthOf r % 65536, heightOf r % 65536, decoderOf r (r.aac.map ascB)) := by
  have hl := esdsB_len r
  have e : entryB r = videoH (widthOf r) (heightOf r) ++ boxText (str "esds") (esdsB r) := by
    unfold entryB
    rw [if_pos hv, if_neg ht]
    rfl
  unfold Spec.readVisual
  rw [e, width_at, height_at, List.drop_left' (videoH_len _ _), child_only (by decide +kernel) (by omega)]
  simp only [Option.bind_some]
  rw [readEsds_eq]
  rfl

theorem readVoice_eq {r : Rep} (hv : r.video = false) : Spec.readVoice (entryB r) = some (2, 90000, decoderOf r (r.aac.map ascB)) := by
  have hl := esdsB_len r
  have e : entryB r = audioH ++ boxText (str "esds") (esdsB r) := by
    unfold entryB
    rw [hv]
    rfl
  have k1 : numAt 16 2 (audioH ++ boxText (str "esds") (esdsB r)) = some 2 := by
    have := numAt_append (beEnc 4 0 ++ beEnc 2 0 ++ beEnc 2 1 ++ f32sT [0, 0]) (beEnc 2 2) (beEnc 2 16 ++ beEnc 4 0 ++ beEnc 4 90000 ++ boxText (str "esds") (esdsB r)) 16 2 2 (by decide +kernel) rfl
    simpa only [audioH, List.append_assoc] using this
  have k2 : numAt 24 4 (audioH ++ boxText (str "esds") (esdsB r)) = some 90000 := by
    have := numAt_append (beEnc 4 0 ++ beEnc 2 0 ++ beEnc 2 1 ++ f32sT [0, 0] ++ beEnc 2 2 ++ beEnc 2 16 ++ beEnc 4 0) (beEnc 4 90000) (boxText (str "esds") (esdsB r)) 24 4 90000 (by decide +kernel) rfl
    simpa only [audioH, List.append_assoc] using this
  unfold Spec.readVoice
  rw [e, k1, k2, List.drop_left' audioH_len, child_only (by decide +kernel) (by omega)]
  simp only [Option.bind_some]
  rw [readEsds_eq]
  rfl

end Verif.TsDash
