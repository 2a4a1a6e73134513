import Verif.Ts.CrcModel
import Verif.Ts.CrcSpec
/-
The table-driven CRC is the bit-serial one.
-/
namespace Verif.Ts
open Verif

/-- Eight register steps with zero message bits. -/
def s8 (r : BitVec 32) : BitVec 32 := (List.replicate 8 false).foldl Spec.crcBit r

theorem crcTable_length : crcTable.length = 256 := by decide +kernel

theorem table_all : ∀ i : BitVec 8, crcTable[i.toNat]? = some (s8 (i.setWidth 32 <<< 24)) := by
  decide +kernel

theorem byte_all : ∀ i : BitVec 8, (Spec.bitsOf ⟨i⟩).foldl Spec.crcBit 0#32 = s8 (i.setWidth 32 <<< 24) := by
  decide +kernel

theorem crcBit_eq (r : BitVec 32) (b : Bool) :
    Spec.crcBit r b = (r <<< 1) ^^^ (if (r.msb ^^ b) then Spec.poly else 0#32) := by
  unfold Spec.crcBit; split <;> simp

theorem crcBit_xor (r s : BitVec 32) (x y : Bool) :
    Spec.crcBit (r ^^^ s) (x ^^ y) = Spec.crcBit r x ^^^ Spec.crcBit s y := by
  simp only [crcBit_eq, BitVec.shiftLeft_xor_distrib, BitVec.msb_xor]
  have hp : ∀ p a : BitVec 32, p ^^^ (p ^^^ a) = a := by intro p a; rw [← BitVec.xor_assoc]; simp
  cases r.msb <;> cases s.msb <;> cases x <;> cases y <;> simp <;>
    first | ac_rfl | (rw [show ∀ p a b : BitVec 32, a ^^^ p ^^^ (b ^^^ p) = p ^^^ (p ^^^ (a ^^^ b)) by intros; ac_rfl, hp])

theorem fold_xor (xs : List Bool) : ∀ (r s : BitVec 32),
    xs.foldl Spec.crcBit (r ^^^ s) = (List.replicate xs.length false).foldl Spec.crcBit r ^^^ xs.foldl Spec.crcBit s := by
  induction xs with
  | nil => intro r s; rfl
  | cons x xs ih =>
    intro r s
    rw [List.foldl_cons, List.length_cons, List.replicate_succ, List.foldl_cons, List.foldl_cons, ← ih, ← crcBit_xor]
    simp

theorem s8_xor (r s : BitVec 32) : s8 (r ^^^ s) = s8 r ^^^ s8 s := by
  simpa [s8] using fold_xor (List.replicate 8 false) r s

theorem fold_byte (r : BitVec 32) (b : UInt8) :
    (Spec.bitsOf b).foldl Spec.crcBit r = s8 (r ^^^ (b.toBitVec.setWidth 32 <<< 24)) := by
  have h := fold_xor (Spec.bitsOf b) r 0#32
  rw [BitVec.xor_zero] at h
  rw [h, s8_xor, ← byte_all b.toBitVec]
  rfl

theorem crcBit_low (r : BitVec 32) (h : r.msb = false) : Spec.crcBit r false = r <<< 1 := by
  simp [Spec.crcBit, h]

theorem s8_low (r : BitVec 32) : s8 (r &&& 0xffffff#32) = r <<< 8 := by
  have hk : ∀ k, k < 8 → ((r &&& 0xffffff#32) <<< k).msb = false := by
    intro k hk
    rw [BitVec.msb_eq_getLsbD_last]
    have : (0xffffff#32).getLsbD (32 - 1 - k) = false := by
      have : ∀ k : Fin 8, (0xffffff#32).getLsbD (32 - 1 - k.val) = false := by decide +kernel
      exact this ⟨k, hk⟩
    rw [BitVec.getLsbD_shiftLeft, BitVec.getLsbD_and, this]; simp
  have : s8 (r &&& 0xffffff#32) = (r &&& 0xffffff#32) <<< 8 := by
    have step : ∀ k, k < 8 → Spec.crcBit ((r &&& 0xffffff#32) <<< k) false = (r &&& 0xffffff#32) <<< (k + 1) := by
      intro k h
      rw [crcBit_low _ (hk k h), ← BitVec.shiftLeft_add]
    have h0 := step 0 (by decide)
    rw [show ((r &&& 0xffffff#32) <<< 0) = (r &&& 0xffffff#32) by simp] at h0
    simp only [s8, List.replicate, List.foldl]
    rw [h0, step _ (by decide), step _ (by decide), step _ (by decide), step _ (by decide), step _ (by decide),
      step _ (by decide), step _ (by decide)]
  rw [this]
  ext i hi
  have : i < 8 ∨ 8 ≤ i := by omega
  rcases this with h | h
  · simp [h]
  · have h2 : (0xffffff#32).getLsbD (i - 8) = true := by
      have : ∀ i : Fin 32, 8 ≤ i.val → (0xffffff#32).getLsbD (i.val - 8) = true := by decide +kernel
      exact this ⟨i, hi⟩ h
    simp only [BitVec.getElem_shiftLeft]
    rw [← BitVec.getLsbD_eq_getElem, ← BitVec.getLsbD_eq_getElem, BitVec.getLsbD_and, h2, Bool.and_true]

theorem split24 (r : BitVec 32) : r = (((r >>> 24).setWidth 8).setWidth 32 <<< 24) ^^^ (r &&& 0xffffff#32) := by
  apply BitVec.eq_of_getLsbD_eq
  intro i hi
  have h2 : ∀ i : Fin 32, (0xffffff#32).getLsbD i.val = decide (i.val < 24) := by decide +kernel
  have h3 : (0xffffff#32).getLsbD i = decide (i < 24) := h2 ⟨i, hi⟩
  simp only [BitVec.getLsbD_xor, BitVec.getLsbD_shiftLeft, BitVec.getLsbD_and, h3, BitVec.getLsbD_setWidth,
    BitVec.getLsbD_ushiftRight]
  by_cases h : i < 24
  · simp [h]
  · rw [show 24 + (i - 24) = i by omega]
    simp [h, hi, show i - 24 < 32 by omega, show i - 24 < 8 by omega]

theorem s8_eq (r : BitVec 32) : s8 r = (r <<< 8) ^^^ s8 (((r >>> 24).setWidth 8).setWidth 32 <<< 24) := by
  conv => lhs; rw [split24 r]
  rw [s8_xor, s8_low, BitVec.xor_comm]

theorem index_eq (crc : BitVec 32) (b : UInt8) :
    (((crc >>> 24) ^^^ (b.toBitVec.setWidth 32)) &&& 0xff#32).toNat = ((crc >>> 24).setWidth 8 ^^^ b.toBitVec).toNat := by
  have : (((crc >>> 24) ^^^ (b.toBitVec.setWidth 32)) &&& 0xff#32)
      = ((crc >>> 24).setWidth 8 ^^^ b.toBitVec).setWidth 32 := by
    ext i hi
    have h2 : ∀ i : Fin 32, (0xff#32).getLsbD i.val = decide (i.val < 8) := by decide +kernel
    have h3 := h2 ⟨i, hi⟩
    rw [← BitVec.getLsbD_eq_getElem, ← BitVec.getLsbD_eq_getElem, BitVec.getLsbD_and, h3]
    by_cases h : i < 8
    · simp [h, hi]
    · simp [h, hi, BitVec.getLsbD_of_ge b.toBitVec i (by omega)]
  rw [this, BitVec.toNat_setWidth]
  have := ((crc >>> 24).setWidth 8 ^^^ b.toBitVec).isLt
  exact Nat.mod_eq_of_lt (by omega)

/-- The table access of `crcByte` is in range. -/
theorem crcTable_get (crc : BitVec 32) (b : UInt8) :
    (((crc >>> 24) ^^^ (b.toBitVec.setWidth 32)) &&& 0xff#32).toNat < crcTable.length := by
  rw [index_eq, crcTable_length]
  exact ((crc >>> 24).setWidth 8 ^^^ b.toBitVec).isLt

theorem crcByte_eq (crc : BitVec 32) (b : UInt8) : crcByte crc b = (Spec.bitsOf b).foldl Spec.crcBit crc := by
  rw [fold_byte, s8_eq]
  unfold crcByte
  rw [index_eq, table_all, Option.getD_some]
  have hhi : ((crc ^^^ b.toBitVec.setWidth 32 <<< 24) >>> 24).setWidth 8 = (crc >>> 24).setWidth 8 ^^^ b.toBitVec := by
    apply BitVec.eq_of_getLsbD_eq
    intro i hi
    simp only [BitVec.getLsbD_xor, BitVec.getLsbD_shiftLeft, BitVec.getLsbD_setWidth, BitVec.getLsbD_ushiftRight]
    simp [hi, show 24 + i < 32 by omega, show i < 32 by omega]
  have hlo : (crc ^^^ b.toBitVec.setWidth 32 <<< 24) <<< 8 = crc <<< 8 := by
    rw [BitVec.shiftLeft_xor_distrib, ← BitVec.shiftLeft_add, BitVec.shiftLeft_eq_zero (n := 24 + 8) (by decide)]
    simp
  rw [hhi, hlo]

theorem fold_crc (data : Bytes) : ∀ r, data.foldl crcByte r = (data.flatMap Spec.bitsOf).foldl Spec.crcBit r := by
  induction data with
  | nil => intro r; rfl
  | cons b bs ih => intro r; rw [List.foldl_cons, ih, crcByte_eq, List.flatMap_cons, List.foldl_append]

theorem crcByte_top (r : BitVec 32) : crcByte r ⟨(r >>> 24).setWidth 8⟩ = r <<< 8 := by
  unfold crcByte
  rw [index_eq]
  have : ((r >>> 24).setWidth 8 ^^^ (⟨(r >>> 24).setWidth 8⟩ : UInt8).toBitVec) = 0#8 := by simp
  rw [this]
  have h0 : crcTable[(0#8).toNat]? = some 0#32 := by decide +kernel
  rw [h0]; simp

theorem crcBuf_eq (r : BitVec 32) :
    crcBuf r = [⟨(r >>> 24).setWidth 8⟩, ⟨((r <<< 8) >>> 24).setWidth 8⟩, ⟨(((r <<< 8) <<< 8) >>> 24).setWidth 8⟩,
      ⟨((((r <<< 8) <<< 8) <<< 8) >>> 24).setWidth 8⟩] := by
  have e : ∀ a b : BitVec 8, a = b → (⟨a⟩ : UInt8) = ⟨b⟩ := by intros; congr
  unfold crcBuf
  have k1 : ∀ i : Fin 8, (0xff000000#32).getLsbD (24 + i.val) = true := by decide +kernel
  have k2 : ∀ i : Fin 8, (0x00ff0000#32).getLsbD (16 + i.val) = true := by decide +kernel
  have k3 : ∀ i : Fin 8, (0x0000ff00#32).getLsbD (8 + i.val) = true := by decide +kernel
  have k4 : ∀ i : Fin 8, (0x000000ff#32).getLsbD i.val = true := by decide +kernel
  congr 1
  · apply e; apply BitVec.eq_of_getLsbD_eq; intro i hi; have k : _ = true := k1 ⟨i, hi⟩
    simp only [BitVec.getLsbD_setWidth, BitVec.getLsbD_ushiftRight, BitVec.getLsbD_and]
    rw [k, Bool.and_true]
  congr 1
  · apply e; apply BitVec.eq_of_getLsbD_eq; intro i hi; have k : _ = true := k2 ⟨i, hi⟩
    simp only [BitVec.getLsbD_setWidth, BitVec.getLsbD_ushiftRight, BitVec.getLsbD_and, BitVec.getLsbD_shiftLeft]
    rw [k, show 24 + i - 8 = 16 + i by omega]
    simp [show 24 + i < 32 by omega, show ¬ 24 + i < 8 by omega]
  congr 1
  · apply e; apply BitVec.eq_of_getLsbD_eq; intro i hi; have k : _ = true := k3 ⟨i, hi⟩
    simp only [BitVec.getLsbD_setWidth, BitVec.getLsbD_ushiftRight, BitVec.getLsbD_and, BitVec.getLsbD_shiftLeft]
    rw [k, show 24 + i - 8 = 16 + i by omega, show 16 + i - 8 = 8 + i by omega]
    simp [show 24 + i < 32 by omega, show ¬ 24 + i < 8 by omega, show 16 + i < 32 by omega, show ¬ 16 + i < 8 by omega]
  congr 1
  · apply e; apply BitVec.eq_of_getLsbD_eq; intro i hi; have k : _ = true := k4 ⟨i, hi⟩
    simp only [BitVec.getLsbD_setWidth, BitVec.getLsbD_ushiftRight, BitVec.getLsbD_and, BitVec.getLsbD_shiftLeft]
    rw [k, show 24 + i - 8 = 16 + i by omega, show 16 + i - 8 = 8 + i by omega, show 8 + i - 8 = i by omega]
    simp [show 24 + i < 32 by omega, show ¬ 24 + i < 8 by omega, show 16 + i < 32 by omega, show ¬ 16 + i < 8 by omega,
      show 8 + i < 32 by omega, show ¬ 8 + i < 8 by omega]

theorem crc_residue (r : BitVec 32) : (crcBuf r).foldl crcByte r = 0#32 := by
  rw [crcBuf_eq]
  simp only [List.foldl]
  rw [crcByte_top, crcByte_top, crcByte_top, crcByte_top]
  rw [← BitVec.shiftLeft_add, ← BitVec.shiftLeft_add, ← BitVec.shiftLeft_add, BitVec.shiftLeft_eq_zero (by decide)]

end Verif.Ts
