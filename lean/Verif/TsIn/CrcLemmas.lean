import Verif.TsIn.WriteModel
import Verif.Ts.CrcProps
/-
The CRC with its bytes in the other order: the routine of the TS writer is the one of ISO/IEC 13818-1.
-/
namespace Verif.TsIn
open Verif

/-- Bytes of a register in the other order. -/
def bswap (r : BitVec 32) : BitVec 32 := (r.setWidth 8).setWidth 32 <<< 24 ||| ((r >>> 8).setWidth 8).setWidth 32 <<< 16 |||
  ((r >>> 16).setWidth 8).setWidth 32 <<< 8 ||| ((r >>> 24).setWidth 8).setWidth 32

/-- Where a bit goes. -/
def bpos (i : Nat) : Nat := if i < 8 then i + 24 else if i < 16 then i + 8 else if i < 24 then i - 8 else i - 24

theorem bswap_get (r : BitVec 32) (i : Nat) (h : i < 32) : (bswap r).getLsbD i = r.getLsbD (bpos i) := by
  unfold bswap bpos
  simp only [BitVec.getLsbD_or, BitVec.getLsbD_shiftLeft, BitVec.getLsbD_setWidth, BitVec.getLsbD_ushiftRight]
  by_cases h1 : i < 8
  · simp [h1, h, show i < 24 by omega, show i < 16 by omega, Nat.add_comm]
  by_cases h2 : i < 16
  · simp [h1, h2, h, show i < 24 by omega, show i - 8 < 32 by omega, show i - 8 < 8 by omega, show 16 + (i - 8) = i + 8 by omega]
  by_cases h3 : i < 24
  · simp [h1, h2, h3, h, show ¬ i - 8 < 8 by omega, show i - 16 < 8 by omega, show i - 16 < 32 by omega, show 8 + (i - 16) = i - 8 by omega]
  · simp [h1, h2, h3, h, show ¬ i - 8 < 8 by omega, show ¬ i - 16 < 8 by omega, show i - 24 < 8 by omega, show i - 24 < 32 by omega]

theorem bswap_xor (a b : BitVec 32) : bswap (a ^^^ b) = bswap a ^^^ bswap b := by
  apply BitVec.eq_of_getLsbD_eq
  intro i hi
  rw [BitVec.getLsbD_xor, bswap_get _ _ hi, bswap_get _ _ hi, bswap_get _ _ hi, BitVec.getLsbD_xor]

theorem bswap_shift (a : BitVec 32) : bswap (a <<< 8) = bswap a >>> 8 := by
  apply BitVec.eq_of_getLsbD_eq
  intro i hi
  rw [BitVec.getLsbD_ushiftRight, bswap_get _ _ hi, BitVec.getLsbD_shiftLeft]
  by_cases h : 8 + i < 32
  · rw [bswap_get _ _ h]
    unfold bpos
    by_cases h1 : i < 8
    · simp [h1, show ¬ 8 + i < 8 by omega, show 8 + i < 16 by omega, show i + 24 < 32 by omega, show 8 + i + 8 = i + 24 - 8 by omega]
    by_cases h2 : i < 16
    · simp [h1, h2, show ¬ 8 + i < 8 by omega, show ¬ 8 + i < 16 by omega, show 8 + i < 24 by omega, show i + 8 < 32 by omega]
    · simp [h1, h2, show ¬ 8 + i < 8 by omega, show ¬ 8 + i < 16 by omega, show ¬ 8 + i < 24 by omega, show i < 24 by omega, show i - 8 < 32 by omega,
        show ¬ i - 8 < 8 by omega, show 8 + i - 24 = i - 8 - 8 by omega]
  · rw [BitVec.getLsbD_of_ge (bswap a) (8 + i) (by omega)]
    unfold bpos
    simp [show ¬ i < 8 by omega, show ¬ i < 16 by omega, show ¬ i < 24 by omega, show i - 24 < 8 by omega]

theorem ieee_all : ∀ i : BitVec 8, crcTableIeee[i.toNat]? = (Ts.crcTable[i.toNat]?).map bswap := by decide +kernel

theorem bswap_low (a : BitVec 32) : (bswap a).setWidth 8 = (a >>> 24).setWidth 8 := by
  apply BitVec.eq_of_getLsbD_eq
  intro i hi
  rw [BitVec.getLsbD_setWidth, BitVec.getLsbD_setWidth, bswap_get _ _ (by omega), BitVec.getLsbD_ushiftRight]
  simp [bpos, hi, Nat.add_comm]

theorem index_low (crc : BitVec 32) (b : UInt8) : ((crc ^^^ b.toBitVec.setWidth 32) &&& 0xff#32).toNat = (crc.setWidth 8 ^^^ b.toBitVec).toNat := by
  have : ((crc ^^^ b.toBitVec.setWidth 32) &&& 0xff#32) = (crc.setWidth 8 ^^^ b.toBitVec).setWidth 32 := by
    ext i hi
    have h2 : ∀ i : Fin 32, (0xff#32).getLsbD i.val = decide (i.val < 8) := by decide +kernel
    have h3 := h2 ⟨i, hi⟩
    rw [← BitVec.getLsbD_eq_getElem, ← BitVec.getLsbD_eq_getElem, BitVec.getLsbD_and, h3]
    by_cases h : i < 8
    · simp [h, hi]
    · simp [h, hi, BitVec.getLsbD_of_ge b.toBitVec i (by omega)]
  rw [this, BitVec.toNat_setWidth]
  have := (crc.setWidth 8 ^^^ b.toBitVec).isLt
  exact Nat.mod_eq_of_lt (by omega)

/-- The table access of `crcStep` is in range. -/
theorem ieee_get (crc : BitVec 32) (b : UInt8) : ((crc ^^^ b.toBitVec.setWidth 32) &&& 0xff#32).toNat < crcTableIeee.length := by
  rw [index_low, show crcTableIeee.length = 256 by decide +kernel]
  exact (crc.setWidth 8 ^^^ b.toBitVec).isLt

theorem crcStep_eq (crc : BitVec 32) (b : UInt8) : crcStep (bswap crc) b = bswap (Ts.crcByte crc b) := by
  unfold crcStep Ts.crcByte
  rw [index_low, Ts.index_eq, bswap_low, ieee_all, bswap_xor, bswap_shift, Ts.table_all]
  simp only [Option.map_some, Option.getD_some]
  rw [BitVec.xor_comm]

theorem crcIeee_eq (d : Bytes) : crcIeee d = bswap (Ts.crc32 d) := by
  unfold crcIeee Ts.crc32
  have h0 : 0xffffffff#32 = bswap 0xffffffff#32 := by decide +kernel
  have : ∀ (d : Bytes) (r : BitVec 32), d.foldl crcStep (bswap r) = bswap (d.foldl Ts.crcByte r) := by
    intro d
    induction d with
    | nil => intro r; rfl
    | cons a l ih => intro r; rw [List.foldl_cons, List.foldl_cons, crcStep_eq, ih]
  rw [h0, this, ← h0]

theorem bswap_byte (r : BitVec 32) (k : Nat) (hc : k = 8 ∨ k = 16 ∨ k = 24) : (bswap r >>> k).setWidth 8 = ((r <<< k : BitVec 32) >>> 24).setWidth 8 := by
  apply BitVec.eq_of_getLsbD_eq
  intro i hi
  rw [BitVec.getLsbD_setWidth, BitVec.getLsbD_setWidth, BitVec.getLsbD_ushiftRight, BitVec.getLsbD_ushiftRight, BitVec.getLsbD_shiftLeft, bswap_get _ _ (by omega)]
  unfold bpos
  rcases hc with rfl | rfl | rfl
  · simp [hi, show 24 + i < 32 by omega, show ¬ 8 + i < 8 by omega, show 8 + i < 16 by omega, show ¬ 24 + i < 8 by omega, show 8 + i + 8 = 24 + i - 8 by omega]
  · simp [hi, show 24 + i < 32 by omega, show ¬ 16 + i < 8 by omega, show ¬ 16 + i < 16 by omega, show 16 + i < 24 by omega, show ¬ 24 + i < 16 by omega,
      show 16 + i - 8 = 24 + i - 16 by omega]
  · simp [hi, show 24 + i < 32 by omega, show ¬ 24 + i < 8 by omega, show ¬ 24 + i < 16 by omega, show ¬ 24 + i < 24 by omega]

theorem crcBytes_eq (r : BitVec 32) : crcBytes (bswap r) = Ts.crcBuf r := by
  rw [Ts.crcBuf_eq]
  unfold crcBytes
  rw [bswap_byte r 8 (by simp), bswap_byte r 16 (by simp), bswap_byte r 24 (by simp), bswap_low]
  simp only [← BitVec.shiftLeft_add]

/-- A section with the CRC that the writer puts after it checks. -/
theorem ieee_checks (d : Bytes) : Ts.Spec.crc (d ++ crcBytes (crcIeee d)) = 0#32 := by
  rw [crcIeee_eq, crcBytes_eq]
  exact Ts.C21_crc_checks d

end Verif.TsIn
