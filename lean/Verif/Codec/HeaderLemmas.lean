import Verif.Codec.TsSound
/-
C72: from bytes to bits, and whole headers.
-/
namespace Verif.Codec
open Verif Verif.BitOp



theorem Gets.parse {α : Type} {p : Rd α} {b : List Bool} {a : α} (h : Gets p b a) (d : Bytes) (l : List Bool) (hd : bitsOf d = b ++ l) : ∃ st, parse p d = some (a, st) := by
  obtain ⟨st, h1, _, _⟩ := h { br := init d } l rfl (by simpa [init, Reader.remaining] using hd)
  exact ⟨st, h1⟩

theorem bitsOf_append (a b : Bytes) : bitsOf (a ++ b) = bitsOf a ++ bitsOf b := by
  unfold bitsOf
  rw [List.flatMap_append]

theorem bitEnc_byte_fin : ∀ x : Fin 256, bitEnc 8 x.val = byteBits (UInt8.ofNat x.val) := by decide +kernel

theorem bitEnc_byte (x : Nat) (h : x < 256) : bitEnc 8 x = byteBits (UInt8.ofNat x) := bitEnc_byte_fin ⟨x, h⟩

theorem bitEnc_u8 (b : UInt8) : bitEnc 8 b.toNat = byteBits b := by
  have := bitEnc_byte b.toNat b.toNat_lt
  rw [this]
  congr 1
  apply UInt8.toNat_inj.1
  rw [UInt8.toNat_ofNat']
  exact Nat.mod_eq_of_lt b.toNat_lt

theorem bitsOf_cons (b : UInt8) (l : Bytes) : bitsOf (b :: l) = byteBits b ++ bitsOf l := by
  unfold bitsOf
  rw [List.flatMap_cons]

theorem bitsOf_take (y : Bytes) (k : Nat) : bitsOf (y.take k) = (bitsOf y).take (8 * k) := by
  induction y generalizing k with
  | nil => simp [bitsOf]
  | cons b y ih =>
    cases k with
    | zero => simp [bitsOf]
    | succ k =>
      rw [List.take_succ_cons, bitsOf_cons, bitsOf_cons, ih, List.take_append, byteBits_length]
      rw [List.take_of_length_le (l := byteBits b) (by rw [byteBits_length]; omega), show 8 * (k + 1) - 8 = 8 * k by omega]

/-- Bits at the start of a payload are bits at the start of the NAL unit, if nothing was put in between. -/
theorem escape_bits (rbsp y : Bytes) (k : Nat) (b : List Bool) (hb : b <+: bitsOf rbsp) (hk : b.length ≤ 8 * k) (he : (Spec.escape 0 rbsp).take k = rbsp.take k)
    (hy : (Spec.escape 0 rbsp).take k <+: y) : b <+: bitsOf y := by
  obtain ⟨r, hr⟩ := hy
  rw [← hr, bitsOf_append, he]
  refine List.IsPrefix.trans ?_ (List.prefix_append _ _)
  rw [bitsOf_take]
  exact List.prefix_take_iff.2 ⟨hb, hk⟩

/-- What the set tells: `ref_frames`, width and height -/
def withSps (c : Ctx) (s : Spec.Sps) : Ctx :=
  { c with refFrames := s.refFrames, width := size64 (s.width + 1) ((cropOf s.crop).1 + (cropOf s.crop).2.1), height := size64 ((2 - s.frameMbsOnly.toNat) * (s.height + 1)) ((cropOf s.crop).2.2.1 + (cropOf s.crop).2.2.2) }

theorem gets_avcHeader (c : Ctx) (b48 b16 : List Bool) (p co l nb nn t : Nat) (s : Spec.Sps) (h48 : b48.length = 48) (h16 : b16.length = 16) (hp : p < 256) (hco : co < 256) (hl : l < 256) (hnb : nb < 256)
    (hnn : nn < 256) (hn0 : nn % 32 ≠ 0) (ht : t < 256) (ht7 : t % 32 = 7) (hok : s.Ok) (hn : s.NoLists) (hpr : s.profile ∉ [128, 138, 139, 134, 135]) :
    Gets (avcHeader c) (b48 ++ (bitEnc 8 p ++ (bitEnc 8 co ++ (bitEnc 8 l ++ (bitEnc 8 nb ++ (bitEnc 8 nn ++ (b16 ++ (bitEnc 8 t ++ s.bits)))))))) (withSps { c with profile := p, compat := co, level := l, nalBytes := nb % 4 + 1 } s) := by
  unfold avcHeader
  obtain ⟨v, hv⟩ := gets_u_any 48 b48 h48
  refine hv.bind ?_
  refine (gets_u 8 p (by omega) hp).bind ?_
  refine (gets_u 8 co (by omega) hco).bind ?_
  refine (gets_u 8 l (by omega) hl).bind ?_
  refine (gets_u 8 nb (by omega) hnb).bind ?_
  refine (gets_u 8 nn (by omega) hnn).bind ?_
  dsimp only
  rw [if_neg hn0]
  obtain ⟨w, hw⟩ := gets_u_any 16 b16 h16
  refine hw.bind ?_
  refine (gets_u 8 t (by omega) ht).bind ?_
  rw [if_neg (by omega)]
  exact gets_rtmpSps s hok hn hpr _

/-- A header without a set -/
theorem gets_avcHeader_none (c : Ctx) (b48 : List Bool) (p co l nb nn : Nat) (h48 : b48.length = 48) (hp : p < 256) (hco : co < 256) (hl : l < 256) (hnb : nb < 256) (hnn : nn < 256) (hn0 : nn % 32 = 0) :
    Gets (avcHeader c) (b48 ++ (bitEnc 8 p ++ (bitEnc 8 co ++ (bitEnc 8 l ++ (bitEnc 8 nb ++ bitEnc 8 nn))))) { c with profile := p, compat := co, level := l, nalBytes := nb % 4 + 1 } := by
  unfold avcHeader
  obtain ⟨v, hv⟩ := gets_u_any 48 b48 h48
  refine hv.bind ?_
  refine (gets_u 8 p (by omega) hp).bind ?_
  refine (gets_u 8 co (by omega) hco).bind ?_
  refine (gets_u 8 l (by omega) hl).bind ?_
  refine (gets_u 8 nb (by omega) hnb).bind ?_
  refine Gets.bind' (gets_u 8 nn (by omega) hnn) ?_ (List.append_nil _).symm
  dsimp only
  rw [if_pos hn0]
  exact Gets.pure _

/-! ### AAC -/

theorem gets_objectType (t : Nat) (h : t < 96) (h31 : t ≠ 31) : Gets objectType (Spec.objectType t) t := by
  unfold objectType Spec.objectType
  by_cases ht : t < 31
  · rw [if_pos ht]
    refine Gets.bind' (gets_u 5 t (by omega) (by omega)) ?_ (List.append_nil _).symm
    rw [if_neg (by omega)]
    exact Gets.pure t
  · rw [if_neg ht]
    refine (gets_u 5 31 (by omega) (by omega)).bind ?_
    rw [if_pos rfl]
    refine Gets.bind' (gets_u 6 (t - 32) (by omega) (by omega)) ?_ (List.append_nil _).symm
    rw [show t - 32 + 32 = t by omega]
    exact Gets.pure t

theorem rates_index (r i : Nat) (h : Spec.rateIndex r = some i) : rates[i]? = some r ∧ i < 13 := by
  unfold Spec.rateIndex at h
  have key : ∀ (x k : Nat) (o : Option Nat), rates[k]? = some x → k < 13 → (o = some i → rates[i]? = some r ∧ i < 13) → (if r = x then some k else o) = some i → rates[i]? = some r ∧ i < 13 := by
    intro x k o h1 h2 h3 h4
    by_cases hx : r = x
    · rw [if_pos hx] at h4
      injection h4 with h4
      rw [← h4, hx]
      exact ⟨h1, h2⟩
    · rw [if_neg hx] at h4
      exact h3 h4
  revert h
  refine key _ _ _ rfl (by omega) ?_
  refine key _ _ _ rfl (by omega) ?_
  refine key _ _ _ rfl (by omega) ?_
  refine key _ _ _ rfl (by omega) ?_
  refine key _ _ _ rfl (by omega) ?_
  refine key _ _ _ rfl (by omega) ?_
  refine key _ _ _ rfl (by omega) ?_
  refine key _ _ _ rfl (by omega) ?_
  refine key _ _ _ rfl (by omega) ?_
  refine key _ _ _ rfl (by omega) ?_
  refine key _ _ _ rfl (by omega) ?_
  refine key _ _ _ rfl (by omega) ?_
  refine key _ _ _ rfl (by omega) ?_
  intro h
  cases h

theorem gets_rate (r : Nat) (b : List Bool) (h : Spec.IsRate r b) : Gets rate b r := by
  unfold rate
  rcases h with ⟨i, h1, rfl⟩ | ⟨h1, rfl⟩
  · obtain ⟨h2, h3⟩ := rates_index r i h1
    refine Gets.bind' (gets_u 4 i (by omega) (by omega)) ?_ (List.append_nil _).symm
    rw [if_neg (by omega), h2]
    exact Gets.pure r
  · refine (gets_u 4 15 (by omega) (by omega)).bind ?_
    rw [if_pos rfl]
    exact gets_u 24 r (by omega) h1

theorem gets_aacHeader (c : Ctx) (b16 b : List Bool) (a : Spec.Asc) (h16 : b16.length = 16) (hok : a.Ok) (hb : a.IsBits b) :
    Gets (aacHeader c) (b16 ++ b) { c with aacProfile := a.object, sampleRate := a.outRate, chanConf := a.chan, sbr := c.sbr || a.ext.isSome, ps := c.ps || (a.ext.map (·.1)).getD false } := by
  obtain ⟨o1, o2, o3, o4⟩ := hok
  obtain ⟨r, hr, hb⟩ := hb
  unfold aacHeader
  obtain ⟨v, hv⟩ := gets_u_any 16 b16 h16
  refine hv.bind ?_
  cases he : a.ext with
  | none =>
    rw [he] at hb
    dsimp only at hb
    rw [hb, List.append_assoc]
    refine (gets_objectType a.object o1 o2).bind ?_
    refine (gets_rate _ r hr).bind ?_
    refine Gets.bind' (gets_u 4 a.chan (by omega) (by omega)) ?_ (List.append_nil _).symm
    rw [if_neg (by have := o4 he; omega)]
    have h1 : a.outRate = a.rate := by unfold Spec.Asc.outRate; rw [he]
    rw [h1]
    simp only [Option.isSome_none, Bool.or_false, Option.map_none, Option.getD_none]
    exact Gets.pure _
  | some x =>
    obtain ⟨ps, r'⟩ := x
    rw [he] at hb
    dsimp only at hb
    obtain ⟨e, h2, hb⟩ := hb
    rw [hb]
    simp only [List.append_assoc]
    have h1 : a.outRate = r' := by unfold Spec.Asc.outRate; rw [he]
    rw [h1]
    cases ps with
    | true =>
      refine (gets_objectType 29 (by omega) (by omega)).bind ?_
      refine (gets_rate _ r hr).bind ?_
      refine (gets_u 4 a.chan (by omega) (by omega)).bind ?_
      rw [if_pos (by omega)]
      refine (gets_rate _ e h2).bind ?_
      refine Gets.bind' (gets_objectType a.object o1 o2) ?_ (List.append_nil _).symm
      simp only [Option.isSome_some, Bool.or_true, Option.map_some, Option.getD_some]
      have := @Gets.pure Ctx { c with aacProfile := a.object, sampleRate := r', chanConf := a.chan, sbr := true, ps := c.ps || (29 : Nat) == 29 }
      simpa using this
    | false =>
      refine (gets_objectType 5 (by omega) (by omega)).bind ?_
      refine (gets_rate _ r hr).bind ?_
      refine (gets_u 4 a.chan (by omega) (by omega)).bind ?_
      rw [if_pos (by omega)]
      refine (gets_rate _ e h2).bind ?_
      refine Gets.bind' (gets_objectType a.object o1 o2) ?_ (List.append_nil _).symm
      simp only [Option.isSome_some, Bool.or_true, Option.map_some, Option.getD_some]
      exact Gets.pure _

end Verif.Codec
