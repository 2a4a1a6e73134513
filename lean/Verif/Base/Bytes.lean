/-
Byte-string helpers shared by the models: big- and little-endian encodings of naturals.
These are the specification of network byte order used all over the code base
(`ngx_rtmp_rmemcpy`, `pp[3] = *p++` sequences, `htonl`, ...).
-/
namespace Verif

abbrev Bytes := List UInt8

/-- `k`-byte big-endian encoding of `n` (higher bits are cut off, as C stores do). -/
def beEnc : Nat → Nat → Bytes
  | 0, _ => []
  | k+1, n => UInt8.ofNat (n / 256 ^ k) :: beEnc k n

/-- Big-endian decoding. -/
def beDec (bs : Bytes) : Nat := bs.foldl (fun a b => a * 256 + b.toNat) 0

/-- `k`-byte little-endian encoding. -/
def leEnc : Nat → Nat → Bytes
  | 0, _ => []
  | k+1, n => UInt8.ofNat n :: leEnc k (n / 256)

/-- Little-endian decoding. -/
def leDec : Bytes → Nat
  | [] => 0
  | b :: bs => b.toNat + 256 * leDec bs

theorem beEnc_length (k n : Nat) : (beEnc k n).length = k := by
  induction k with
  | zero => rfl
  | succ k ih => simp [beEnc, ih]

theorem leEnc_length (k n : Nat) : (leEnc k n).length = k := by
  induction k generalizing n with
  | zero => rfl
  | succ k ih => simp [leEnc, ih]

theorem foldl_be_acc (bs : Bytes) (a : Nat) :
    bs.foldl (fun a b => a * 256 + b.toNat) a = a * 256 ^ bs.length + beDec bs := by
  induction bs generalizing a with
  | nil => simp [beDec]
  | cons b bs ih =>
    simp only [beDec, List.foldl_cons, List.length_cons]
    rw [ih, ih (0 * 256 + b.toNat)]
    simp only [Nat.pow_succ, Nat.zero_mul, Nat.zero_add]
    rw [Nat.add_mul, Nat.mul_assoc, Nat.mul_comm 256, Nat.add_assoc]

theorem beDec_cons (b : UInt8) (bs : Bytes) :
    beDec (b :: bs) = b.toNat * 256 ^ bs.length + beDec bs := by
  show List.foldl _ _ _ = _
  rw [List.foldl_cons, foldl_be_acc]; simp

theorem beDec_lt (bs : Bytes) : beDec bs < 256 ^ bs.length := by
  induction bs with
  | nil => simp [beDec]
  | cons b bs ih =>
    rw [beDec_cons, List.length_cons, Nat.pow_succ]
    have := b.toNat_lt
    have h : b.toNat * 256 ^ bs.length + 256 ^ bs.length ≤ 256 * 256 ^ bs.length := by
      rw [← Nat.succ_mul]; exact Nat.mul_le_mul_right _ this
    omega

theorem beDec_beEnc (k n : Nat) : beDec (beEnc k n) = n % 256 ^ k := by
  induction k with
  | zero => simp [beEnc, beDec, Nat.mod_one]
  | succ k ih =>
    have e : n % 256 ^ (k + 1) = n % 256 ^ k + 256 ^ k * (n / 256 ^ k % 256) := by
      rw [Nat.pow_succ, Nat.mod_mul]
    rw [beEnc, beDec_cons, beEnc_length, ih, UInt8.toNat_ofNat', e]
    simp only [Nat.reducePow]
    rw [Nat.mul_comm, Nat.add_comm]

theorem beDec_beEnc_of_lt {k n : Nat} (h : n < 256 ^ k) : beDec (beEnc k n) = n := by
  rw [beDec_beEnc, Nat.mod_eq_of_lt h]

theorem leDec_leEnc (k n : Nat) : leDec (leEnc k n) = n % 256 ^ k := by
  induction k generalizing n with
  | zero => simp [leEnc, leDec, Nat.mod_one]
  | succ k ih =>
    have e : n % 256 ^ (k + 1) = n % 256 + 256 * (n / 256 % 256 ^ k) := by
      rw [Nat.pow_succ, Nat.mul_comm, Nat.mod_mul]
    rw [leEnc, leDec, ih, UInt8.toNat_ofNat', e]

theorem leDec_leEnc_of_lt {k n : Nat} (h : n < 256 ^ k) : leDec (leEnc k n) = n := by
  rw [leDec_leEnc, Nat.mod_eq_of_lt h]

theorem leDec_lt (bs : Bytes) : leDec bs < 256 ^ bs.length := by
  induction bs with
  | nil => simp [leDec]
  | cons b bs ih =>
    rw [leDec, List.length_cons, Nat.pow_succ]
    have := b.toNat_lt
    omega

theorem beEnc_beDec (bs : Bytes) : beEnc bs.length (beDec bs) = bs := by
  induction bs with
  | nil => rfl
  | cons b bs ih =>
    have hlt := beDec_lt bs
    have hpos : 0 < 256 ^ bs.length := Nat.pow_pos (by omega)
    rw [List.length_cons, beEnc, beDec_cons]
    congr 1
    · rw [Nat.mul_comm, Nat.mul_add_div hpos, Nat.div_eq_of_lt hlt, Nat.add_zero]
      exact UInt8.ofNat_toNat
    · have : ∀ k, k ≤ bs.length → beEnc k (b.toNat * 256 ^ bs.length + beDec bs) = beEnc k (beDec bs) := by
        intro k hk
        induction k with
        | zero => rfl
        | succ k ihk =>
          simp only [beEnc]
          rw [ihk (by omega)]
          congr 1
          obtain ⟨j, hj⟩ : ∃ j, bs.length = k + 1 + j := ⟨bs.length - (k+1), by omega⟩
          have hkpos : 0 < 256 ^ k := Nat.pow_pos (by omega)
          have e : b.toNat * 256 ^ bs.length = 256 ^ k * (b.toNat * 256 ^ j * 256) := by
            rw [hj, Nat.pow_add, Nat.pow_add]; 
            rw [Nat.pow_one]; ac_rfl
          rw [e, Nat.mul_add_div hkpos]
          apply UInt8.toNat_inj.mp
          simp only [UInt8.toNat_ofNat']
          omega
      rw [this _ (Nat.le_refl _), ih]

end Verif
