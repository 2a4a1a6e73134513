import Verif.TsIn.PacketizeLemmas
/-
Tables and PES packets that are written.
-/
namespace Verif.TsIn
open Verif

/-! ### Tables -/

theorem or80 : ∀ x : Fin 16, ((0x80 : UInt8) ||| UInt8.ofNat x.val).toNat = 128 + x.val := by decide +kernel

theorem section_read (table len : Nat) (body pad : Bytes) (ht : table < 256) (hl : len = body.length + 4) (hm : len ≤ 1021) :
    Spec.readSection (sectionData table len body ++ pad) = some (table, body) := by
  have e1 := or80 ⟨len / 256, by omega⟩
  dsimp only at e1
  have hcrc := ieee_checks ([UInt8.ofNat table, 0x80 ||| UInt8.ofNat (len / 256), UInt8.ofNat len] ++ body)
  unfold sectionData
  dsimp only
  generalize crcIeee _ = crc at hcrc ⊢
  obtain ⟨x, hx⟩ : ∃ x, crcBytes crc = x := ⟨_, rfl⟩
  have hxl : x.length = 4 := by rw [← hx]; rfl
  rw [hx] at hcrc ⊢
  obtain ⟨a, ha⟩ : ∃ a, (0x80 : UInt8) ||| UInt8.ofNat (len / 256) = a := ⟨_, rfl⟩
  rw [ha] at hcrc e1 ⊢
  have h2 : a.toNat % 16 * 256 + (UInt8.ofNat len).toNat = len := by rw [e1, ofNat_toNat]; omega
  have h3 : (UInt8.ofNat table).toNat = table := by rw [ofNat_toNat]; omega
  simp only [List.cons_append, List.nil_append, Spec.readSection, UInt8.toNat_zero, List.drop_zero]
  rw [h2, h3]
  have h4 : (body ++ (x ++ pad)).take len = body ++ x := by
    rw [← List.append_assoc, List.take_append_of_le_length (by simp only [List.length_append]; omega), List.take_of_length_le (by simp only [List.length_append]; omega)]
  have h5 : (body ++ (x ++ pad)).take (len - 4) = body := by rw [List.take_append_of_le_length (by omega), List.take_of_length_le (by omega)]
  simp only [List.append_assoc] at hcrc ⊢
  rw [h4, h5, if_pos ⟨by omega, by omega, hm, by simp only [List.length_append]; omega, by simpa using hcrc⟩]

theorem two_bytes (n : Nat) (h : n < 65536) : (UInt8.ofNat (n / 256)).toNat * 256 + (UInt8.ofNat n).toNat = n := by
  rw [ofNat_toNat, ofNat_toNat]
  omega

theorem pid_bytes (n : Nat) (h : n < 8192) : (UInt8.ofNat (n / 256)).toNat % 32 * 256 + (UInt8.ofNat n).toNat = n := by
  rw [ofNat_toNat, ofNat_toNat]
  omega

theorem programs_read (l : List Prog) (h : ∀ p ∈ l, p.number < 65536 ∧ p.pid < 8192) : Spec.readPrograms (l.flatMap progData) = some (l.map fun p => (p.number, p.pid)) := by
  induction l with
  | nil => rfl
  | cons p l ih =>
    obtain ⟨h1, h2⟩ := h p (by simp)
    simp only [List.flatMap_cons, progData, List.cons_append, List.nil_append, Spec.readPrograms]
    rw [ih (fun q hq => h q (by simp [hq])), two_bytes _ h1, pid_bytes _ h2]
    rfl

theorem progs_length (l : List Prog) : (l.flatMap progData).length = l.length * 4 := by
  induction l with
  | nil => rfl
  | cons p l ih => simp only [List.flatMap_cons, List.length_append, ih, List.length_cons]; simp [progData]; omega

theorem streams_read (l : List Es) (h : ∀ e ∈ l, e.type < 256 ∧ e.pid < 8192) (n : Nat) (hn : l.length ≤ n) :
    Spec.readStreams n (l.flatMap esData) = some (l.map fun e => (e.type, e.pid)) := by
  induction l generalizing n with
  | nil => cases n <;> rfl
  | cons p l ih =>
    obtain ⟨h1, h2⟩ := h p (by simp)
    obtain ⟨n, rfl⟩ : ∃ k, n = k + 1 := ⟨n - 1, by simp at hn; omega⟩
    simp only [List.flatMap_cons, esData, List.cons_append, List.nil_append, Spec.readStreams]
    rw [if_pos (by simp), pid_bytes _ h2, show (UInt8.ofNat p.type).toNat = p.type by rw [ofNat_toNat]; omega,
      show (0 : UInt8).toNat % 16 * 256 + (0 : UInt8).toNat = 0 from rfl, List.drop_zero, ih (fun q hq => h q (by simp [hq])) n (by simp at hn; omega)]
    rfl

theorem streams_length (l : List Es) : (l.flatMap esData).length = 5 * l.length := by
  induction l with
  | nil => rfl
  | cons p l ih => simp only [List.flatMap_cons, List.length_append, ih, List.length_cons]; simp [esData]; omega

/-! ### PES packets -/

theorem or01 : ∀ x : Fin 256, ((0x01 : UInt8) ||| UInt8.ofNat x.val).toNat = x.val / 2 * 2 + 1 := by decide +kernel

theorem or0e (fb : UInt8) (h : fb = 0x21 ∨ fb = 0x31 ∨ fb = 0x11) : ∀ x : Fin 16, (fb ||| (UInt8.ofNat x.val &&& 0x0e)).toNat = fb.toNat + x.val / 2 * 2 := by
  rcases h with rfl | rfl | rfl <;> decide +kernel

theorem ofNat_mod (n : Nat) : UInt8.ofNat n = UInt8.ofNat (n % 256) := by
  apply UInt8.toNat_inj.1
  rw [ofNat_toNat, ofNat_toNat]
  omega

theorem stamp_low (t : Nat) : (t / 2 ^ 7 % 256 * 256 + (t * 2 % 256 / 2 * 2 + 1)) / 2 = t % 2 ^ 15 := by
  have h1 : t * 2 % 256 / 2 = t % 128 := by omega
  obtain ⟨x, hx⟩ : ∃ x, t * 2 % 256 / 2 = x := ⟨_, rfl⟩
  simp only [hx] at h1 ⊢
  omega

theorem stamp_sum (t : Nat) : t / 2 ^ 30 * 2 ^ 30 + t / 2 ^ 15 % 2 ^ 15 * 2 ^ 15 + t % 2 ^ 15 = t := by
  have : t / 2 ^ 30 = t / 2 ^ 15 / 2 ^ 15 := by simp only [Nat.div_div_eq_div_mul]
  rw [this]
  omega

theorem stamp_read (fb : UInt8) (h : fb = 0x21 ∨ fb = 0x31 ∨ fb = 0x11) (t : Nat) (ht : t < 2 ^ 33) : Ts.Spec.readTs (fb.toNat / 16) (stamp fb t) = some t := by
  have e1 := or0e fb h ⟨t / 2 ^ 29, by omega⟩
  have e2 := or01 ⟨t / 2 ^ 14 % 256, by omega⟩
  have e3 := or01 ⟨t * 2 % 256, by omega⟩
  dsimp only at e1 e2 e3
  rw [← ofNat_mod] at e2 e3
  have hf : fb.toNat % 16 = 1 := by rcases h with rfl | rfl | rfl <;> rfl
  have hd : t / 2 ^ 29 / 2 = t / 2 ^ 7 / 256 / 256 / 128 := by simp only [Nat.div_div_eq_div_mul]
  have hd2 : t / 2 ^ 22 = t / 2 ^ 7 / 256 / 128 := by simp only [Nat.div_div_eq_div_mul]
  have hd3 : t / 2 ^ 14 = t / 2 ^ 7 / 128 := by simp only [Nat.div_div_eq_div_mul]
  have hlt : t / 2 ^ 29 / 2 < 8 := by omega
  have k1 : (fb.toNat + t / 2 ^ 29 / 2 * 2) / 16 = fb.toNat / 16 := by omega
  have k2 : (fb.toNat + t / 2 ^ 29 / 2 * 2) / 2 % 8 = t / 2 ^ 30 := by
    rw [show t / 2 ^ 30 = t / 2 ^ 29 / 2 by simp only [Nat.div_div_eq_div_mul]]
    omega
  have k3 : (t / 2 ^ 22 % 256 * 256 + (t / 2 ^ 14 % 256 / 2 * 2 + 1)) / 2 = t / 2 ^ 15 % 2 ^ 15 := by
    rw [show t / 2 ^ 22 = t / 2 ^ 15 / 128 by simp only [Nat.div_div_eq_div_mul]]
    have : t / 2 ^ 14 % 256 / 2 = t / 2 ^ 15 % 128 := by
      rw [show t / 2 ^ 15 = t / 2 ^ 14 / 2 by simp only [Nat.div_div_eq_div_mul]]
      omega
    rw [this]
    omega
  have k4 := stamp_low t
  unfold stamp
  simp only [Ts.Spec.readTs]
  rw [e1, e2, e3, ofNat_toNat, ofNat_toNat, if_pos ⟨k1, by omega, by omega, by omega⟩, k2, k3, k4, stamp_sum]

/-- The times in a PES packet of a stream: none without optional header. -/
def stampsOf (e : Es) : Option (Nat × Nat) := if e.sid ∈ Spec.bare then none else some (e.pts, e.dts)

theorem optData_bare (e : Es) : optData e = if e.sid ∈ Spec.bare then [] else if e.pts = e.dts then [0x80, 0x80, 5] ++ stamp 0x21 e.pts
    else [0x80, 0xc0, 10] ++ stamp 0x31 e.pts ++ stamp 0x11 e.dts := by
  unfold optData
  by_cases h : e.sid ∈ Spec.bare
  · rw [if_pos h, if_pos]
    simp only [Spec.bare, List.mem_cons, List.not_mem_nil, or_false] at h
    simp only [Bool.or_eq_true, decide_eq_true_eq]
    omega
  · rw [if_neg h, if_neg]
    simp only [Spec.bare, List.mem_cons, List.not_mem_nil, or_false, not_or] at h
    simp only [Bool.or_eq_true, decide_eq_true_eq, not_or]
    omega

theorem opt_read (e : Es) (data : Bytes) (hb : e.sid ∉ Spec.bare) (hp : e.pts < 2 ^ 33) (hd : e.dts < 2 ^ 33) :
    ∃ fx fl hl r, optData e ++ data = fx :: fl :: hl :: r ∧ fx.toNat / 64 = 2 ∧ hl.toNat ≤ r.length ∧ r.drop hl.toNat = data ∧
      Spec.readStamps fl (r.take hl.toNat) = some (some (e.pts, e.dts)) := by
  rw [optData_bare, if_neg hb]
  have hs : ∀ f t, (stamp f t).length = 5 := fun f t => rfl
  by_cases h : e.pts = e.dts
  · rw [if_pos h]
    refine ⟨0x80, 0x80, 5, stamp 0x21 e.pts ++ data, rfl, rfl, by simp [hs], ?_, ?_⟩
    · exact List.drop_left' (hs _ _)
    · rw [show (5 : UInt8).toNat = 5 from rfl, List.take_left' (hs _ _)]
      have := stamp_read 0x21 (by simp) e.pts hp
      simp only [Spec.readStamps]
      rw [if_neg (by decide), if_pos (by decide), List.take_of_length_le (by rw [hs]; omega)]
      rw [show (33 : UInt8).toNat / 16 = 2 from rfl] at this
      rw [this, ← h]
      rfl
  · rw [if_neg h]
    refine ⟨0x80, 0xc0, 10, stamp 0x31 e.pts ++ stamp 0x11 e.dts ++ data, rfl, rfl, by simp only [List.length_append, hs]; rw [show (10 : UInt8).toNat = 10 from rfl]; omega, ?_, ?_⟩
    · exact List.drop_left' (by simp [hs])
    · rw [show (10 : UInt8).toNat = 10 from rfl, List.take_left' (by simp [hs])]
      have h1 := stamp_read 0x31 (by simp) e.pts hp
      have h2 := stamp_read 0x11 (by simp) e.dts hd
      rw [show (49 : UInt8).toNat / 16 = 3 from rfl] at h1
      rw [show (17 : UInt8).toNat / 16 = 1 from rfl] at h2
      simp only [Spec.readStamps]
      rw [if_neg (by decide), if_neg (by decide), if_pos (by decide), List.take_left' (hs _ _), List.drop_left' (hs _ _), List.take_of_length_le (by rw [hs]; omega), h1, h2]
      rfl

/-- Whether the length of a PES packet is given. -/
def boundedOf (e : Es) (data : Nat) : Bool := decide ((optData e).length + data ≠ 0 ∧ (optData e).length + data ≤ 0xffff)

theorem pes_read (e : Es) (data : Bytes) (hs : e.sid < 256) (hp : e.pts < 2 ^ 33) (hd : e.dts < 2 ^ 33) :
    Spec.readPes (pesData e data.length ++ data) = some ⟨e.sid, boundedOf e data.length, stampsOf e, data⟩ := by
  unfold pesData
  dsimp only
  obtain ⟨l1, l0, h1, h2⟩ : ∃ l1 l0 : UInt8, (if (optData e).length + data.length ≤ 0xffff then [UInt8.ofNat (((optData e).length + data.length) / 256), UInt8.ofNat ((optData e).length + data.length)] else [0, 0]) = [l1, l0] ∧
      l1.toNat * 256 + l0.toNat = if (optData e).length + data.length ≤ 0xffff then (optData e).length + data.length else 0 := by
    by_cases h : (optData e).length + data.length ≤ 0xffff
    · simp only [if_pos h]
      exact ⟨_, _, rfl, two_bytes _ (by omega)⟩
    · simp only [if_neg h]
      exact ⟨_, _, rfl, rfl⟩
  rw [h1]
  simp only [List.cons_append, List.nil_append, Spec.readPes]
  have h3 : (UInt8.ofNat e.sid).toNat = e.sid := by rw [ofNat_toNat]; omega
  have h4 : decide (l1.toNat * 256 + l0.toNat ≠ 0) = boundedOf e data.length := by
    rw [h2]
    unfold boundedOf
    congr 1
    split <;> simp <;> omega
  rw [h4, h3, if_pos ⟨trivial, trivial, trivial, by rw [h2, List.length_append]; split <;> omega⟩]
  by_cases hb : e.sid ∈ Spec.bare
  · rw [if_pos hb]
    unfold stampsOf
    rw [if_pos hb, optData_bare, if_pos hb]
    rfl
  · rw [if_neg hb]
    obtain ⟨fx, fl, hl, r, g1, g2, g3, g4, g5⟩ := opt_read e data hb hp hd
    rw [g1]
    dsimp only
    rw [if_pos ⟨g2, g3⟩, g4, g5]
    unfold stampsOf
    rw [if_neg hb]
    rfl

end Verif.TsIn
