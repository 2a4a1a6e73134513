import Verif.Hls.AdtsModel
import Verif.Hls.AdtsSpec
import Verif.Hls.AnnexLemmas
namespace Verif.Adts
open Verif Annex

theorem beDec1 (b : UInt8) : beDec [b] = b.toNat := by simp [beDec]

theorem bits_hi : ∀ b : Fin 256, (b.val <<< 1) &&& 0x0f = b.val % 8 * 2 := by decide +kernel
theorem bits_lo : ∀ b : Fin 256, (b.val &&& 0x80) >>> 7 = b.val / 128 := by decide +kernel
theorem bits_or : ∀ x : Fin 8, ∀ y : Fin 2, (x.val * 2) ||| y.val = x.val * 2 + y.val := by decide +kernel
theorem bits_ch : ∀ b : Fin 256, (b.val >>> 3) &&& 0x0f = b.val / 8 % 16 := by decide +kernel
theorem bits_2 : ∀ o : Fin 4, ∀ s : Fin 16, ∀ c : Fin 8, ((o.val <<< 6) ||| (s.val <<< 2) ||| ((c.val &&& 4) >>> 2)) = o.val * 64 + s.val * 4 + c.val / 4 := by decide +kernel
theorem bits_3 : ∀ c : Fin 8, ∀ q : Fin 4, ((c.val &&& 3) <<< 6) ||| q.val = c.val % 4 * 64 + q.val := by decide +kernel

theorem enc2 (n : Nat) : beEnc 2 n = [UInt8.ofNat (n / 256), UInt8.ofNat n] := by simp [beEnc]

/-- The header as the code reads it. -/
theorem aacHeader_ok {a : Asc} (ha : a.Ok) {hdr : Cur} {x y : UInt8} {ext : Bytes} (hh : hdr.flatten = x :: y :: (a.bytes ++ ext)) :
    aacHeader hdr = some (if a.obj > 4 then 2 else a.obj, a.sr, a.ch) := by
  obtain ⟨h1, h2, h3, h4, h5⟩ := ha
  rw [Asc.bytes, enc2] at hh
  obtain ⟨v, hv⟩ : ∃ v, v = a.obj * 2 ^ 11 + a.sr * 2 ^ 7 + a.ch * 2 ^ 3 + a.low := ⟨_, rfl⟩
  rw [← hv] at hh
  have hh1 : hdr.flatten = [x, y] ++ ([UInt8.ofNat (v / 256)] ++ ([UInt8.ofNat v] ++ ext)) := by rw [hh]; rfl
  obtain ⟨c1, e1, f1, -⟩ := copy_pre (ne_of_length (by rw [hh1]; simp)) hh1
  obtain ⟨c2, e2, f2, -⟩ := copy_pre (ne_of_length (by rw [f1]; simp)) f1
  obtain ⟨c3, e3, -, -⟩ := copy_pre (ne_of_length (by rw [f2]; simp)) f2
  have e1' : copy 2 hdr = ([x, y], some c1) := e1
  have e2' : copy 1 c1 = ([UInt8.ofNat (v / 256)], some c2) := e2
  have e3' : copy 1 c2 = ([UInt8.ofNat v], some c3) := e3
  rw [aacHeader, e1']; dsimp only
  rw [e2']; dsimp only
  rw [e3']; dsimp only
  rw [beDec1, beDec1]
  obtain ⟨b0, hb0⟩ : ∃ b, b = (UInt8.ofNat (v / 256)).toNat := ⟨_, rfl⟩
  obtain ⟨b1, hb1⟩ : ∃ b, b = (UInt8.ofNat v).toNat := ⟨_, rfl⟩
  rw [← hb0, ← hb1]
  rw [UInt8.toNat_ofNat'] at hb0 hb1
  have l0 : b0 < 256 := by omega
  have l1 : b1 < 256 := by omega
  have q0 : b0 = a.obj * 8 + a.sr / 2 := by omega
  have q1 : b1 = a.sr % 2 * 128 + a.ch * 8 + a.low := by omega
  have r1 := bits_hi ⟨b0, l0⟩
  have r2 := bits_lo ⟨b1, l1⟩
  have r3 := bits_or ⟨b0 % 8, by omega⟩ ⟨b1 / 128, by omega⟩
  have r4 := bits_ch ⟨b1, l1⟩
  dsimp only at r1 r2 r3 r4
  rw [r1, r2, r3, r4, Nat.shiftRight_eq_div_pow]
  have o : b0 / 2 ^ 3 = a.obj := by omega
  have s : b0 % 8 * 2 + b1 / 128 = a.sr := by omega
  have c : b1 / 8 % 16 = a.ch := by omega
  rw [o, s, c, if_neg (by omega), if_neg (by omega)]

/-- A frame in the stream. -/
def enc (a : Asc) (m : Bytes) : Bytes := adts (if a.obj > 4 then 2 else a.obj) a.sr a.ch (m.length - 2 + 7) ++ m.drop 2

theorem enc_length (a : Asc) (m : Bytes) : (enc a m).length = m.length - 2 + 7 := by
  rw [enc, List.length_append, List.length_drop, adts]; simp; omega

theorem decode_enc {a : Asc} (ha : a.Ok) {m : Bytes} (hm : 2 ≤ m.length) (hs : m.length + 5 < 8192) (f : Nat) (r : Bytes) :
    decode (f + 1) (enc a m ++ r) = (decode f r).map (a.frame (m.drop 2) :: ·) := by
  obtain ⟨h1, h2, h3, h4, h5⟩ := ha
  obtain ⟨size, hsize⟩ : ∃ s, s = m.length - 2 + 7 := ⟨_, rfl⟩
  obtain ⟨obj, hobj⟩ : ∃ o, o = (if a.obj > 4 then 2 else a.obj) := ⟨_, rfl⟩
  have hobj1 : 1 ≤ obj ∧ obj ≤ 4 ∧ obj - 1 = (if a.obj ≤ 4 then a.obj - 1 else 1) := by
    rw [hobj]
    by_cases h : a.obj > 4
    · rw [if_pos h, if_neg (by omega)]; omega
    · rw [if_neg h, if_pos (by omega)]; omega
  have e2 : (UInt8.ofNat (((obj - 1) <<< 6) ||| (a.sr <<< 2) ||| ((a.ch &&& 4) >>> 2))).toNat = (obj - 1) * 64 + a.sr * 4 + a.ch / 4 := by
    have := bits_2 ⟨obj - 1, by omega⟩ ⟨a.sr, by omega⟩ ⟨a.ch, h4⟩
    dsimp only at this
    rw [UInt8.toNat_ofNat', this]; omega
  have e3 : (UInt8.ofNat (((a.ch &&& 3) <<< 6) ||| ((size >>> 11) &&& 3))).toNat = a.ch % 4 * 64 + size / 2048 % 4 := by
    have hq : (size >>> 11) &&& 3 = size / 2048 % 4 := by
      rw [Nat.shiftRight_eq_div_pow]; exact Nat.and_two_pow_sub_one_eq_mod _ 2
    have := bits_3 ⟨a.ch, h4⟩ ⟨size / 2048 % 4, by omega⟩
    dsimp only at this
    rw [UInt8.toNat_ofNat', hq, this]; omega
  have e4 : (UInt8.ofNat (size >>> 3)).toNat = size / 8 % 256 := by
    rw [UInt8.toNat_ofNat', Nat.shiftRight_eq_div_pow]
  have e5 : (UInt8.ofNat ((size <<< 5) ||| 0x1f)).toNat = size % 8 * 32 + 31 := by
    rw [UInt8.toNat_ofNat', ← Nat.shiftLeft_add_eq_or_of_lt (by decide : 0x1f < 2 ^ 5), Nat.shiftLeft_eq]; omega
  rw [enc, ← hsize, ← hobj, adts]
  obtain ⟨b2, hb2⟩ : ∃ b, b = UInt8.ofNat (((obj - 1) <<< 6) ||| (a.sr <<< 2) ||| ((a.ch &&& 4) >>> 2)) := ⟨_, rfl⟩
  obtain ⟨b3, hb3⟩ : ∃ b, b = UInt8.ofNat (((a.ch &&& 3) <<< 6) ||| ((size >>> 11) &&& 3)) := ⟨_, rfl⟩
  obtain ⟨b4, hb4⟩ : ∃ b, b = UInt8.ofNat (size >>> 3) := ⟨_, rfl⟩
  obtain ⟨b5, hb5⟩ : ∃ b, b = UInt8.ofNat ((size <<< 5) ||| 0x1f) := ⟨_, rfl⟩
  rw [← hb2] at e2 ⊢
  rw [← hb3] at e3 ⊢
  rw [← hb4] at e4 ⊢
  rw [← hb5] at e5 ⊢
  have hl : b3.toNat % 4 * 2048 + b4.toNat * 8 + b5.toNat / 32 = size := by omega
  have hd : size - 7 = (m.drop 2).length := by rw [List.length_drop]; omega
  show decode (f + 1) (0xff :: 0xf1 :: b2 :: b3 :: b4 :: b5 :: 0xfc :: (m.drop 2 ++ r)) = _
  rw [decode, hl, if_pos, hd, List.drop_left, List.take_left]
  · have hfr : (⟨b2.toNat / 64, b2.toNat / 4 % 16, b2.toNat % 2 * 4 + b3.toNat / 64, m.drop 2⟩ : Frame) = a.frame (m.drop 2) := by
      rw [Asc.frame, Frame.mk.injEq]
      exact ⟨by omega, by omega, by omega, rfl⟩
    rw [hfr]
  · refine ⟨rfl, by decide, by decide, by decide, by decide, by omega, ?_⟩
    rw [hd, List.length_append]; omega

theorem decode_all {a : Asc} (ha : a.Ok) (g : List Bytes) (hg : ∀ m ∈ g, 2 ≤ m.length ∧ m.length + 5 < 8192) (f : Nat) (hf : g.length ≤ f) :
    decode f (g.flatMap (enc a)) = some (g.map fun m => a.frame (m.drop 2)) := by
  induction g generalizing f with
  | nil => cases f <;> rfl
  | cons m g ih =>
    cases f with
    | zero => simp at hf
    | succ f =>
      rw [List.flatMap_cons, decode_enc ha (hg m (by simp)).1 (hg m (by simp)).2, ih (fun k hk => hg k (by simp [hk])) f (by simpa using hf)]
      rfl

theorem length_all (a : Asc) (g : List Bytes) : g.length ≤ (g.flatMap (enc a)).length := by
  induction g with
  | nil => simp
  | cons m g ih => rw [List.flatMap_cons, List.length_append, enc_length, List.length_cons]; omega

theorem decoded_all {a : Asc} (ha : a.Ok) (g : List Bytes) (hg : ∀ m ∈ g, 2 ≤ m.length ∧ m.length + 5 < 8192) :
    decoded (g.flatMap (enc a)) = some (g.map fun m => a.frame (m.drop 2)) := decode_all ha g hg _ (length_all a g)

theorem fill_all (c : Cur) (n : Nat) (h : c.flatten.length ≤ n) : fill n c = c.flatten := by
  induction c generalizing n with
  | nil => rfl
  | cons b bs ih =>
    rw [List.flatten_cons, List.length_append] at h
    rw [fill]
    by_cases hn : n = 0
    · rw [if_pos hn]
      have : (b :: bs).flatten = [] := List.length_eq_zero_iff.1 (by rw [List.flatten_cons, List.length_append]; omega)
      rw [this]
    · rw [if_neg hn, List.take_of_length_le (by omega), ih _ (by omega), List.flatten_cons]

theorem signed_mod (n : Nat) : ((n : Int) - signed n) % 2 ^ 64 = 0 := by
  rw [signed]; split <;> omega

end Verif.Adts
