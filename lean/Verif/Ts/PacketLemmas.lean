import Verif.Ts.PacketModel
import Verif.Ts.PacketSpec
/-
Single packets written by the packetiser are read back by the demultiplexer.
-/
namespace Verif.Ts
open Verif

theorem or_shift (a k b : Nat) (h : b < 2 ^ k) : a <<< k ||| b = a * 2 ^ k + b := by
  rw [← Nat.shiftLeft_add_eq_or_of_lt h, Nat.shiftLeft_eq]

theorem readPcr_writePcr (p : Nat) : Spec.readPcr (writePcr p) = some (p % 2 ^ 33, 0) := by
  unfold writePcr Spec.readPcr
  simp only [or_shift p 7 0x7e (by decide), Nat.shiftRight_eq_div_pow, UInt8.toNat_ofNat']
  rw [if_pos (by omega)]
  congr 2
  · omega
  · have : (0 : UInt8).toNat = 0 := rfl
    omega

theorem writePts_eq (fb t : Nat) :
    writePts fb t = [UInt8.ofNat (fb * 16 + t / 2 ^ 30 % 8 * 2 + 1), UInt8.ofNat ((t / 2 ^ 15 % 2 ^ 15 * 2 + 1) / 256),
      UInt8.ofNat (t / 2 ^ 15 % 2 ^ 15 * 2 + 1), UInt8.ofNat ((t % 2 ^ 15 * 2 + 1) / 256), UInt8.ofNat (t % 2 ^ 15 * 2 + 1)] := by
  have e7 : ∀ x : Nat, x &&& 7 = x % 8 := fun x => Nat.and_two_pow_sub_one_eq_mod x 3
  have e15 : ∀ x : Nat, x &&& 0x7fff = x % 2 ^ 15 := fun x => Nat.and_two_pow_sub_one_eq_mod x 15
  have o1 : ∀ x : Nat, x <<< 1 ||| 1 = x * 2 + 1 := fun x => or_shift x 1 1 (by decide)
  unfold writePts
  simp only [e7, e15, o1, Nat.shiftRight_eq_div_pow, Nat.or_assoc]
  rw [or_shift fb 4 _ (by omega)]
  simp [Nat.add_assoc]

theorem readTs_writePts (fb t : Nat) (h : fb < 16) : Spec.readTs fb (writePts fb t) = some (t % 2 ^ 33) := by
  rw [writePts_eq]
  unfold Spec.readTs
  simp only [UInt8.toNat_ofNat']
  rw [if_pos (by omega)]
  congr 1
  omega

/-! ### Header bytes -/

theorem b1_first : ∀ x : Fin 32, ((UInt8.ofNat x.val) ||| 0x40).toNat = 64 + x.val := by decide +kernel
theorem b3_plain : ∀ x : Fin 16, (UInt8.ofNat (0x10 ||| x.val)).toNat = 16 + x.val ∧
    (UInt8.ofNat (0x10 ||| x.val)) &&& 0x20 = 0 := by decide +kernel
theorem b3_af : ∀ x : Fin 16, (UInt8.ofNat (0x10 ||| x.val) ||| 0x20).toNat = 48 + x.val ∧
    (UInt8.ofNat (0x10 ||| x.val) ||| 0x20) &&& 0x20 ≠ 0 := by decide +kernel

/-- What the demultiplexer must see. -/
def expPkt (live : Bool) (f : Frame) (cc : Nat) (first : Bool) (payload : Bytes) : Spec.Pkt :=
  ⟨first, f.pid, cc % 16, first && f.key, if first && f.key then some (pcrOf live f.dts % 2 ^ 33, 0) else none, payload⟩

/-- Payload bytes in the packet head. -/
def prePes (f : Frame) (first : Bool) (len : Nat) : Bytes := if first then pesHeader f len else []

theorem readPkt_plain (s a p c : UInt8) (rest : Bytes) (pusi : Bool) (pid cc : Nat) (hl : rest.length = 184)
    (hs : s = 0x47) (ha : a.toNat = (if pusi then 64 else 0) + pid / 256) (hp : p.toNat = pid % 256)
    (hpid : pid < 8192) (hc : c.toNat = 16 + cc % 16) :
    Spec.readPkt (s :: a :: p :: c :: rest) = some ⟨pusi, pid, cc % 16, false, none, rest⟩ := by
  unfold Spec.readPkt; dsimp only
  have h1 : a.toNat / 128 = 0 ∧ a.toNat / 32 % 2 = 0 ∧ a.toNat % 32 * 256 + p.toNat = pid := by
    cases pusi <;> simp at ha <;> omega
  have h2 : (decide (a.toNat / 64 % 2 = 1)) = pusi := by
    cases pusi <;> simp at ha <;> simp <;> omega
  rw [if_pos ⟨by simp [hl], hs, h1.1, h1.2.1, by omega⟩]
  simp only [h1.2.2, h2]
  rw [if_pos (by omega)]
  congr 2; omega

theorem readPkt_af (s a p c l : UInt8) (r : Bytes) (pusi : Bool) (pid cc : Nat) (hl : r.length = 183)
    (hs : s = 0x47) (ha : a.toNat = (if pusi then 64 else 0) + pid / 256) (hp : p.toNat = pid % 256)
    (hpid : pid < 8192) (hc : c.toNat = 48 + cc % 16) (hle : l.toNat ≤ 182) (rai : Bool) (pcr) (payload : Bytes)
    (haf : Spec.readAdaptation (r.take l.toNat) = some (rai, pcr)) (hpl : r.drop l.toNat = payload) :
    Spec.readPkt (s :: a :: p :: c :: l :: r) = some ⟨pusi, pid, cc % 16, rai, pcr, payload⟩ := by
  unfold Spec.readPkt; dsimp only
  have h1 : a.toNat / 128 = 0 ∧ a.toNat / 32 % 2 = 0 ∧ a.toNat % 32 * 256 + p.toNat = pid := by
    cases pusi <;> simp at ha <;> omega
  have h2 : (decide (a.toNat / 64 % 2 = 1)) = pusi := by
    cases pusi <;> simp at ha <;> simp <;> omega
  rw [if_pos ⟨by simp [hl], hs, h1.1, h1.2.1, by omega⟩]
  simp only [h1.2.2, h2]
  rw [if_neg (by omega), if_pos (by omega), if_pos hle, haf, hpl]
  simp only [Option.map_some]
  congr 2; omega

theorem byte1 (pid : Nat) (first : Bool) (h : pid < 8192) :
    (if first then UInt8.ofNat (pid >>> 8) ||| 0x40 else UInt8.ofNat (pid >>> 8)).toNat
      = (if first then 64 else 0) + pid / 256 := by
  rw [Nat.shiftRight_eq_div_pow]
  have := b1_first ⟨pid / 2 ^ 8, by omega⟩
  cases first
  · simp; omega
  · simpa using this

theorem byte2 (pid : Nat) : (UInt8.ofNat pid).toNat = pid % 256 := by simp

theorem and15 (cc : Nat) : cc &&& 0x0f = cc % 16 := Nat.and_two_pow_sub_one_eq_mod cc 4

/-- The bytes of a packet head for a frame without adaptation field. -/
theorem head_plain (live f cc first len) (hk : (first && f.key) = false) :
    packetHead live f cc first len =
      (0x47 : UInt8) :: (if first then UInt8.ofNat (f.pid >>> 8) ||| 0x40 else UInt8.ofNat (f.pid >>> 8)) :: UInt8.ofNat f.pid
        :: UInt8.ofNat (0x10 ||| (cc % 16)) :: prePes f first len := by
  unfold packetHead prePes
  rw [hk, and15]
  cases first
  · simp
  · simp at hk; simp [hk]

theorem head_af (live f cc first len) (hk : (first && f.key) = true) :
    packetHead live f cc first len =
      (0x47 : UInt8) :: (if first then UInt8.ofNat (f.pid >>> 8) ||| 0x40 else UInt8.ofNat (f.pid >>> 8)) :: UInt8.ofNat f.pid
        :: (UInt8.ofNat (0x10 ||| (cc % 16)) ||| 0x20) :: 7 :: 0x50 :: (writePcr (pcrOf live f.dts) ++ prePes f first len) := by
  unfold packetHead prePes
  rw [hk, and15]
  simp at hk
  simp [hk]

theorem readAf_pcr (pcr n : Nat) (t : Bytes) (l : Nat) (hl : l = 7 + n) :
    Spec.readAdaptation ((0x50 :: (writePcr pcr ++ List.replicate n 0xff ++ t)).take l) = some (true, some (pcr % 2 ^ 33, 0)) := by
  have e : (0x50 :: (writePcr pcr ++ List.replicate n 0xff ++ t)).take l = 0x50 :: (writePcr pcr ++ List.replicate n 0xff) := by
    rw [← List.cons_append, List.take_append_of_le_length (by simp [writePcr]; omega)]
    rw [List.take_of_length_le (by simp [writePcr]; omega)]
  rw [e]
  unfold Spec.readAdaptation; dsimp only
  rw [if_neg (by decide), if_pos (Or.inr rfl)]
  have h6 : (writePcr pcr).length = 6 := rfl
  rw [List.drop_append_of_le_length (by omega), List.take_append_of_le_length (by omega), List.take_of_length_le (by omega),
    List.drop_of_length_le (by omega), readPcr_writePcr]
  rw [if_pos (by simp)]
  rfl

theorem pkt_full (live f cc first len) (body : Bytes) (hpid : f.pid < 8192)
    (hl : (packetHead live f cc first len).length + body.length = 188) :
    Spec.readPkt (packetHead live f cc first len ++ body) = some (expPkt live f cc first (prePes f first len ++ body)) := by
  unfold expPkt
  cases hk : (first && f.key)
  · rw [head_plain _ _ _ _ _ hk] at hl ⊢
    simp only [List.cons_append, List.length_cons] at hl ⊢
    rw [readPkt_plain _ _ _ _ _ first f.pid cc (by simp; omega) rfl (byte1 _ _ hpid) (byte2 _) hpid
      (b3_plain ⟨cc % 16, by omega⟩).1]
    simp
  · rw [head_af _ _ _ _ _ hk] at hl ⊢
    simp only [List.cons_append, List.length_cons, List.append_assoc, List.length_append] at hl ⊢
    have h6 : (writePcr (pcrOf live f.dts)).length = 6 := rfl
    rw [readPkt_af _ _ _ _ _ _ first f.pid cc (by simp; omega) rfl (byte1 _ _ hpid) (byte2 _) hpid
      (b3_af ⟨cc % 16, by omega⟩).1 (by decide) true _ (prePes f first len ++ body) (by
        have := readAf_pcr (pcrOf live f.dts) 0 (prePes f first len ++ body) 7 rfl
        simpa using this)
      (by rfl)]
    simp

theorem readAf_stuffing (n : Nat) (t : Bytes) (hn : 0 < n) :
    Spec.readAdaptation (((if n ≥ 2 then 0 :: List.replicate (n - 2) 0xff else [] : Bytes) ++ t).take (n - 1)) = some (false, none)
    ∧ ((if n ≥ 2 then 0 :: List.replicate (n - 2) 0xff else [] : Bytes) ++ t).drop (n - 1) = t := by
  by_cases h : n ≥ 2
  · rw [if_pos h]
    have hlen : ((0 : UInt8) :: List.replicate (n - 2) 0xff).length = n - 1 := by simp; omega
    rw [List.take_append_of_le_length (by omega), List.take_of_length_le (by omega), List.drop_append_of_le_length (by omega),
      List.drop_of_length_le (by omega)]
    constructor
    · unfold Spec.readAdaptation; dsimp only
      rw [if_pos (Or.inl rfl), if_pos (by simp)]
      rfl
    · rfl
  · rw [if_neg h]
    have : n = 1 := by omega
    subst this
    exact ⟨rfl, rfl⟩

theorem stuff_plain (a b c d : UInt8) (rest : Bytes) (n : Nat) (h : d &&& 0x20 = 0) :
    stuff (a :: b :: c :: d :: rest) n = a :: b :: c :: (d ||| 0x20) :: (stuffing n ++ rest) := by
  simp [stuff, h]

theorem stuff_af (a b c d l : UInt8) (r : Bytes) (n : Nat) (h : d &&& 0x20 ≠ 0) :
    stuff (a :: b :: c :: d :: l :: r) n
      = a :: b :: c :: d :: (l + UInt8.ofNat n) :: (r.take l.toNat ++ List.replicate n 0xff ++ r.drop l.toNat) := by
  simp [stuff, h]

theorem pkt_stuffed (live f cc first len) (n : Nat) (data : Bytes) (hpid : f.pid < 8192) (hn : 0 < n) (hd : 0 < data.length)
    (hl : (packetHead live f cc first len).length + n + data.length = 188) :
    Spec.readPkt (stuff (packetHead live f cc first len) n ++ data)
      = some (expPkt live f cc first (prePes f first len ++ data)) := by
  unfold expPkt
  cases hk : (first && f.key)
  · rw [head_plain _ _ _ _ _ hk] at hl ⊢
    simp only [List.length_cons] at hl
    have hb := b3_plain ⟨cc % 16, by omega⟩
    rw [stuff_plain _ _ _ _ _ _ hb.2]
    unfold stuffing
    simp only [List.cons_append, List.append_assoc]
    have hn1 : (UInt8.ofNat (n - 1)).toNat = n - 1 := by simp; omega
    have haf := readAf_stuffing n (prePes f first len ++ data) hn
    rw [readPkt_af _ _ _ _ _ _ first f.pid cc (by split <;> simp <;> omega) rfl (byte1 _ _ hpid) (byte2 _) hpid
      (b3_af ⟨cc % 16, by omega⟩).1 (by omega) false none (prePes f first len ++ data) (by rw [hn1]; exact haf.1)
      (by rw [hn1]; exact haf.2)]
    simp
  · rw [head_af _ _ _ _ _ hk] at hl ⊢
    have h6 : (writePcr (pcrOf live f.dts)).length = 6 := rfl
    simp only [List.length_cons, List.length_append] at hl
    have hb := b3_af ⟨cc % 16, by omega⟩
    rw [stuff_af _ _ _ _ _ _ _ hb.2]
    have h7 : (7 : UInt8).toNat = 7 := rfl
    rw [h7]
    have ht : (0x50 :: (writePcr (pcrOf live f.dts) ++ prePes f first len)).take 7 = 0x50 :: writePcr (pcrOf live f.dts) := by
      rw [← List.cons_append, List.take_append_of_le_length (by simp [h6]), List.take_of_length_le (by simp [h6])]
    have hdr : (0x50 :: (writePcr (pcrOf live f.dts) ++ prePes f first len)).drop 7 = prePes f first len := by
      rw [← List.cons_append, List.drop_append_of_le_length (by simp [h6]), List.drop_of_length_le (by simp [h6])]
      rfl
    rw [ht, hdr]
    have hn7 : ((7 : UInt8) + UInt8.ofNat n).toNat = 7 + n := by
      rw [UInt8.toNat_add]; simp; omega
    simp only [List.cons_append, List.append_assoc]
    rw [readPkt_af _ _ _ _ _ _ first f.pid cc (by simp; omega) rfl (byte1 _ _ hpid) (byte2 _) hpid
      hb.1 (by omega) true _ (prePes f first len ++ data) (by
        have := readAf_pcr (pcrOf live f.dts) n (prePes f first len ++ data) (7 + n) rfl
        rw [hn7]
        simpa [List.append_assoc] using this)
      (by
        rw [hn7, ← List.append_assoc, ← List.cons_append, List.drop_append_of_le_length (by simp; omega),
          List.drop_of_length_le (by simp; omega)]
        rfl)]
    simp

end Verif.Ts
