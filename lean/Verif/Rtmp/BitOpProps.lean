import Verif.Rtmp.BitOpModel
/-
C30: the bit reader is exact and safe; Exp-Golomb reading inverts Exp-Golomb coding.
-/
namespace Verif.BitOp

/-! ### Specification -/

/-- The bits of a byte, most significant first. -/
def byteBits (b : UInt8) : List Bool :=
  [b.toNat.testBit 7, b.toNat.testBit 6, b.toNat.testBit 5, b.toNat.testBit 4,
   b.toNat.testBit 3, b.toNat.testBit 2, b.toNat.testBit 1, b.toNat.testBit 0]

/-- The bits of a byte string in reading order. -/
def bitsOf (bs : Bytes) : List Bool := bs.flatMap byteBits

/-- Value of a bit string read as a big-endian number. -/
def bitVal (l : List Bool) : Nat := l.foldl (fun a b => 2 * a + b.toNat) 0

/-- What a reader still has in front of it. -/
def Reader.remaining (br : Reader) : List Bool := (bitsOf br.data).drop br.offs

/-- `k`-bit big-endian representation of `m`. -/
def bitEnc : Nat → Nat → List Bool
  | 0, _ => []
  | k+1, m => m.testBit k :: bitEnc k m

/-- Exp-Golomb code of `k` (ITU-T H.264, 9.1): `len` zeros followed by the `len+1` bits of `k+1`. -/
def golombCode (k : Nat) : List Bool :=
  List.replicate (k+1).log2 false ++ bitEnc ((k+1).log2 + 1) (k+1)

/-! ### Lemmas -/

theorem bitVal_acc (l : List Bool) (a : Nat) :
    l.foldl (fun a b => 2 * a + b.toNat) a = a * 2 ^ l.length + bitVal l := by
  induction l generalizing a with
  | nil => simp [bitVal]
  | cons b l ih =>
    simp only [bitVal, List.foldl_cons, List.length_cons]
    rw [ih, ih (2 * 0 + b.toNat), Nat.pow_succ]
    simp only [Nat.mul_zero, Nat.zero_add, Nat.add_mul]
    rw [Nat.mul_comm 2 a, Nat.mul_assoc, Nat.mul_comm 2, Nat.add_assoc]

theorem bitVal_append (l m : List Bool) : bitVal (l ++ m) = bitVal l * 2 ^ m.length + bitVal m := by
  show List.foldl _ _ _ = _
  rw [List.foldl_append, bitVal_acc]; rfl

theorem bitVal_lt (l : List Bool) : bitVal l < 2 ^ l.length := by
  induction l with
  | nil => simp [bitVal]
  | cons b l ih =>
    have : bitVal (b :: l) = b.toNat * 2 ^ l.length + bitVal l := by
      have := bitVal_append [b] l
      simpa [bitVal] using this
    rw [this, List.length_cons, Nat.pow_succ]
    cases b <;> simp <;> omega

theorem byteBits_length (b : UInt8) : (byteBits b).length = 8 := rfl

theorem bitsOf_length (bs : Bytes) : (bitsOf bs).length = 8 * bs.length := by
  induction bs with
  | nil => rfl
  | cons b bs ih => simp only [bitsOf, List.flatMap_cons, List.length_append, List.length_cons,
      byteBits_length] at *; omega

theorem remaining_length (br : Reader) :
    br.remaining.length = 8 * br.data.length - br.offs.val := by
  simp [Reader.remaining, bitsOf_length]

set_option maxRecDepth 10000 in
theorem step_bits_fin : ∀ (b : Fin 256) (o : Fin 8) (d : Fin 9), o.val + d.val ≤ 8 →
    ((b.val >>> (8 - o.val - d.val)) &&& (0xff >>> (8 - d.val))) =
      bitVal (((byteBits (UInt8.ofNat b.val)).drop o).take d) := by
  decide +kernel

theorem step_bits (b : UInt8) (o d : Nat) (h : o + d ≤ 8) (ho : o < 8) :
    ((b.toNat >>> (8 - o - d)) &&& (0xff >>> (8 - d))) = bitVal (((byteBits b).drop o).take d) := by
  have := step_bits_fin ⟨b.toNat, b.toNat_lt⟩ ⟨o, ho⟩ ⟨d, by omega⟩ h
  simpa using this

theorem remaining_cons (b : UInt8) (rest : Bytes) (o : Fin 8) (e : Bool) :
    (Reader.mk (b :: rest) o e).remaining = (byteBits b).drop o ++ bitsOf rest := by
  have : o.val ≤ (byteBits b).length := by rw [byteBits_length]; omega
  simp only [Reader.remaining, bitsOf, List.flatMap_cons]
  rw [List.drop_append_of_le_length this]

/-- The full functional behaviour of the read loop. -/
theorem readLoop_spec (br : Reader) (v n : Nat) (hv : v < 2 ^ 64) :
    (n ≤ br.remaining.length →
      (readLoop br v n).1 = (v * 2 ^ n + bitVal (br.remaining.take n)) % 2 ^ 64 ∧
      (readLoop br v n).2.remaining = br.remaining.drop n ∧
      (readLoop br v n).2.err = br.err) ∧
    (br.remaining.length < n →
      (readLoop br v n).1 = 0 ∧ (readLoop br v n).2.remaining = [] ∧
      (readLoop br v n).2.err = true) := by
  induction n using Nat.strongRecOn generalizing br v with
  | _ n ih =>
  unfold readLoop
  by_cases hn : n = 0
  · subst hn
    simp [bitVal, Nat.mod_eq_of_lt hv]
  simp only [hn, ↓reduceDIte]
  obtain ⟨data, o, e⟩ := br
  cases data with
  | nil => 
    have : (Reader.mk [] o e).remaining = [] := by simp [Reader.remaining, bitsOf]
    rw [this]
    simp [Reader.remaining, bitsOf]
    omega
  | cons b rest =>
    rw [remaining_cons]
    have ho := o.isLt
    simp only
    generalize hd : (if o.val + n > 8 then 8 - o.val else n) = d
    have hd1 : 0 < d ∧ d ≤ n ∧ o.val + d ≤ 8 := by split at hd <;> omega
    have hd2 : o.val + d < 8 → d = n := by split at hd <;> omega
    generalize hv' : ((v <<< d) + ((b.toNat >>> (8 - o.val - d)) &&& (0xff >>> (8 - d)))) % 2 ^ 64 = v'
    have hvlt : v' < 2 ^ 64 := by rw [← hv']; exact Nat.mod_lt _ (by omega)
    rw [step_bits b o d hd1.2.2 ho, Nat.shiftLeft_eq] at hv'
    have hlen : ((byteBits b).drop o).length = 8 - o.val := by simp [byteBits_length]
    -- arithmetic of one step followed by the rest
    have hcomb : ∀ (R : List Bool), R.length = n - d →
        (v' * 2 ^ (n - d) + bitVal R) % 2 ^ 64 =
        (v * 2 ^ n + bitVal (((byteBits b).drop o).take d ++ R)) % 2 ^ 64 := by
      intro R hR
      rw [bitVal_append, hR, ← hv']
      rw [Nat.add_mod, Nat.mod_mul_mod, ← Nat.add_mod]
      congr 1
      have : v * 2 ^ n = v * 2 ^ d * 2 ^ (n - d) := by
        rw [Nat.mul_assoc, ← Nat.pow_add]; congr 2; omega
      rw [this, Nat.add_mul]; omega
    by_cases h8 : o.val + d = 8
    · simp only [h8, ↓reduceIte]
      have := ih (n - d) (by omega) { data := rest, offs := 0, err := e } v' hvlt
      have hr : (Reader.mk rest 0 e).remaining = bitsOf rest := by simp [Reader.remaining]
      rw [hr] at this
      have hdl : d = ((byteBits b).drop o).length := by omega
      constructor
      · intro hle
        simp only [List.length_append, hlen] at hle
        have t := this.1 (by omega)
        refine ⟨?_, ?_, t.2.2⟩
        · rw [t.1, hcomb _ (by rw [List.length_take]; omega)]
          have e1 : ((byteBits b).drop o).take d = (byteBits b).drop o :=
            List.take_of_length_le (by omega)
          have e2 : ((byteBits b).drop o ++ bitsOf rest).take n =
              (byteBits b).drop o ++ (bitsOf rest).take (n - d) := by
            rw [List.take_append, List.take_of_length_le (by omega)]
            congr 2; omega
          rw [e1, e2]
        · rw [t.2.1, List.drop_append, List.drop_of_length_le (l := (byteBits b).drop o) (by omega),
            List.nil_append]
          congr 1; omega
      · intro hlt
        simp only [List.length_append, hlen] at hlt
        exact this.2 (by omega)
    · simp only [h8, ↓reduceIte]
      have hdn : d = n := hd2 (by omega)
      have := ih (n - d) (by omega) { data := b :: rest, offs := Fin.ofNat 8 (o.val + d), err := e } v' hvlt
      rw [remaining_cons] at this
      simp only [Fin.val_ofNat, Nat.mod_eq_of_lt (show o.val + d < 8 by omega)] at this
      constructor
      · intro hle
        have t := this.1 (by omega)
        refine ⟨?_, ?_, t.2.2⟩
        · rw [t.1]
          have := hcomb [] (by simp; omega)
          rw [show n - d = 0 by omega] at this ⊢
          rw [List.take_zero]
          rw [show bitVal [] = 0 from rfl] at this ⊢
          rw [this, List.append_nil, List.take_append_of_le_length (by omega), hdn]
        · rw [t.2.1, show n - d = 0 by omega, List.drop_zero,
            List.drop_append_of_le_length (by omega), List.drop_drop, hdn]
      · intro hlt
        simp only [List.length_append, hlen] at hlt
        omega

/-! ### Property theorems -/

/-- C30 (success): with at least `n` bits left, `read n` returns them as a big-endian number (modulo the
64-bit result type), advances by exactly `n` bits and does not touch the error flag. -/
theorem C30_read_exact (br : Reader) (n : Nat) (h : n ≤ br.remaining.length) :
    (read br n).1 = bitVal (br.remaining.take n) % 2 ^ 64 ∧
    (read br n).2.remaining = br.remaining.drop n ∧
    (read br n).2.err = br.err := by
  have := (readLoop_spec br 0 n (by omega)).1 h
  simpa [read] using this

example : (read (init [0xa5, 0x3c]) 12).1 = 0xa53 ∧
    12 ≤ (init [0xa5, 0x3c]).remaining.length := by decide +kernel

/-- C30 (success, up to 64 bits): the number is exact. -/
theorem C30_read_exact64 (br : Reader) (n : Nat) (h : n ≤ br.remaining.length) (h64 : n ≤ 64) :
    (read br n).1 = bitVal (br.remaining.take n) := by
  rw [(C30_read_exact br n h).1]
  apply Nat.mod_eq_of_lt
  have := bitVal_lt (br.remaining.take n)
  have hl : (br.remaining.take n).length ≤ 64 := by rw [List.length_take]; omega
  exact Nat.lt_of_lt_of_le this (Nat.pow_le_pow_right (by omega) hl)

example : (read (init [0xff, 0xff]) 16).1 = bitVal ((init [0xff, 0xff]).remaining.take 16) :=
  C30_read_exact64 _ _ (by decide) (by decide)

/-- C30 (failure): with fewer than `n` bits left the result is 0, the error flag is set, and the
reader sits at the end of the data. The model consumes `data` only, so nothing outside is read. -/
theorem C30_read_past_end (br : Reader) (n : Nat) (h : br.remaining.length < n) :
    (read br n).1 = 0 ∧ (read br n).2.err = true ∧ (read br n).2.remaining = [] := by
  have := (readLoop_spec br 0 n (by omega)).2 h
  exact ⟨this.1, this.2.2, this.2.1⟩

example : (init [0xa5]).remaining.length < 9 := by decide

/-- C30 (sticky error): once in error, every later read keeps the error flag. -/
theorem C30_error_sticky (br : Reader) (n : Nat) (h : br.err = true) : (read br n).2.err = true := by
  by_cases hn : n ≤ br.remaining.length
  · rw [(C30_read_exact br n hn).2.2, h]
  · exact (C30_read_past_end br n (by omega)).2.1

example : (read (read (init [0xa5]) 9).2 3).2.err = true :=
  C30_error_sticky _ _ (by decide +kernel)

/-- Reads compose: a sequence of reads returns the consecutive fields of the bit string. -/
def readMany (br : Reader) : List Nat → List Nat × Reader
  | [] => ([], br)
  | n :: ns => let r := read br n; let rs := readMany r.2 ns; (r.1 :: rs.1, rs.2)

/-- Specification of field extraction on the plain bit string. -/
def fields (bits : List Bool) : List Nat → List Nat
  | [] => []
  | n :: ns => bitVal (bits.take n) :: fields (bits.drop n) ns

/-- C30 (sequences): any sequence of read sizes (each at most 64 bits, together within the data) returns
exactly the consecutive bit fields, independent of byte alignment. -/
theorem C30_read_sequence (br : Reader) (ns : List Nat) (h64 : ∀ n ∈ ns, n ≤ 64)
    (h : ns.sum ≤ br.remaining.length) :
    (readMany br ns).1 = fields br.remaining ns ∧
    (readMany br ns).2.remaining = br.remaining.drop ns.sum ∧
    (readMany br ns).2.err = br.err := by
  induction ns generalizing br with
  | nil => simp [readMany, fields]
  | cons n ns ih =>
    simp only [List.sum_cons] at h
    have hx := C30_read_exact br n (by omega)
    have hx64 := C30_read_exact64 br n (by omega) (h64 n (by simp))
    have t := ih (read br n).2 (fun m hm => h64 m (by simp [hm]))
      (by rw [hx.2.1, List.length_drop]; omega)
    simp only [readMany, fields, List.sum_cons]
    refine ⟨?_, ?_, ?_⟩
    · rw [hx64, t.1, hx.2.1]
    · rw [t.2.1, hx.2.1, List.drop_drop]
    · rw [t.2.2, hx.2.2]

example : (readMany (init [0x67, 0x42, 0xc0]) [3, 5, 8, 1, 7]).1 = [3, 7, 0x42, 1, 0x40] := by decide +kernel

/-! #### Exp-Golomb -/

theorem bitEnc_length (k m : Nat) : (bitEnc k m).length = k := by
  induction k with
  | zero => rfl
  | succ k ih => simp [bitEnc, ih]

theorem bitVal_bitEnc (k m : Nat) : bitVal (bitEnc k m) = m % 2 ^ k := by
  induction k with
  | zero => simp [bitEnc, bitVal, Nat.mod_one]
  | succ k ih =>
    have : bitVal (bitEnc (k+1) m) = (m.testBit k).toNat * 2 ^ k + bitVal (bitEnc k m) := by
      have := bitVal_append [m.testBit k] (bitEnc k m)
      rw [bitEnc_length] at this
      simpa [bitVal, bitEnc] using this
    rw [this, ih, Nat.pow_succ, Nat.mod_mul, Nat.toNat_testBit]
    rw [Nat.mul_comm, Nat.add_comm]

theorem read_one (br : Reader) (x : Bool) (l : List Bool) (h : br.remaining = x :: l) :
    (read br 1).1 = x.toNat ∧ (read br 1).2.remaining = l ∧ (read br 1).2.err = br.err := by
  have := C30_read_exact br 1 (by rw [h]; simp)
  rw [h] at this
  refine ⟨?_, by simpa using this.2.1, this.2.2⟩
  rw [this.1]; cases x <;> rfl

theorem zerosLoop_spec (fuel z n : Nat) (br : Reader) (l : List Bool) (he : br.err = false)
    (h : br.remaining = List.replicate z false ++ true :: l) (hf : z < fuel) :
    (zerosLoop fuel br n).1 = n + z ∧ (zerosLoop fuel br n).2.remaining = l ∧
    (zerosLoop fuel br n).2.err = false := by
  induction z generalizing fuel br n with
  | zero =>
    obtain ⟨fuel, rfl⟩ : ∃ f, fuel = f + 1 := ⟨fuel - 1, by omega⟩
    have := read_one br true l (by simpa using h)
    simp [zerosLoop, this, he]
  | succ z ih =>
    obtain ⟨fuel, rfl⟩ : ∃ f, fuel = f + 1 := ⟨fuel - 1, by omega⟩
    have := read_one br false (List.replicate z false ++ true :: l)
      (by rw [h, List.replicate_succ]; rfl)
    have t := ih fuel (n + 1) (read br 1).2 (by rw [this.2.2, he]) this.2.1 (by omega)
    simp only [zerosLoop]
    rw [if_pos ⟨this.1, by rw [this.2.2, he]⟩]
    refine ⟨by rw [t.1]; omega, t.2.1, t.2.2⟩

/-- C30 (Exp-Golomb round trip): whenever the bits ahead are the Exp-Golomb code of `k` (for any `k` that
fits the 64-bit result, i.e. `k < 2^64 - 1`), reading returns `k` and stops right after the code; no
undefined shift happens. -/
theorem C30_golomb_roundtrip (br : Reader) (k : Nat) (l : List Bool) (he : br.err = false)
    (hk : k + 1 < 2 ^ 64) (h : br.remaining = golombCode k ++ l) :
    ∃ br', readGolomb br = some (k, br') ∧ br'.remaining = l ∧ br'.err = false := by
  have hne : k + 1 ≠ 0 := by omega
  generalize hz : (k+1).log2 = z at *
  have hlo : 2 ^ z ≤ k + 1 := by rw [← hz]; exact Nat.log2_self_le hne
  have hhi : k + 1 < 2 ^ (z + 1) := by rw [← hz]; exact Nat.lt_log2_self
  have hz64 : z < 64 := by
    have : 2 ^ z < 2 ^ 64 := by omega
    exact (Nat.pow_lt_pow_iff_right (by omega)).mp this
  have hdiv : (k + 1) / 2 ^ z = 1 := by
    rw [Nat.div_eq_iff (Nat.pow_pos (by omega))]
    rw [Nat.pow_succ] at hhi
    omega
  have htop : (k+1).testBit z = true := by
    have := Nat.toNat_testBit (k+1) z
    rw [hdiv] at this
    cases hb : (k+1).testBit z
    · rw [hb] at this; simp at this
    · rfl
  have h' : br.remaining = List.replicate z false ++ true :: (bitEnc z (k+1) ++ l) := by
    rw [h, golombCode, hz, bitEnc, htop]; simp
  have hfuel : z < 8 * br.data.length + 1 := by
    have := remaining_length br
    rw [h'] at this
    simp only [List.length_append, List.length_replicate, List.length_cons] at this
    omega
  have t := zerosLoop_spec (8 * br.data.length + 1) z 0 br _ he h' hfuel
  simp only [readGolomb]
  rw [t.1, Nat.zero_add]
  rw [if_neg (by omega)]
  have r := C30_read_exact (zerosLoop (8 * br.data.length + 1) br 0).2 z
    (by rw [t.2.1, List.length_append, bitEnc_length]; omega)
  have r64 := C30_read_exact64 (zerosLoop (8 * br.data.length + 1) br 0).2 z
    (by rw [t.2.1, List.length_append, bitEnc_length]; omega) (by omega)
  refine ⟨_, ?_, by rw [r.2.1, t.2.1, List.drop_append_of_le_length (by rw [bitEnc_length]; omega),
    List.drop_of_length_le (by rw [bitEnc_length]; omega), List.nil_append], by rw [r.2.2, t.2.2]⟩
  apply congrArg some
  refine Prod.ext ?_ rfl
  simp only
  rw [r64, t.2.1, List.take_append_of_le_length (by rw [bitEnc_length]; omega),
    List.take_of_length_le (by rw [bitEnc_length]; omega), bitVal_bitEnc, Nat.shiftLeft_eq, Nat.one_mul]
  have hmod : (k + 1) % 2 ^ z = k + 1 - 2 ^ z := by
    have := Nat.div_add_mod (k+1) (2^z)
    rw [hdiv] at this
    omega
  rw [hmod]
  have : (2 ^ z + (k + 1 - 2 ^ z) + 2 ^ 64 - 1) = k + 2 ^ 64 := by
    generalize 2 ^ z = w at *
    omega
  rw [this, Nat.add_mod_right, Nat.mod_eq_of_lt (by omega)]

example : (init [0x26, 0x80]).remaining =
      golombCode 3 ++ [true, true, false, true, false, false, false, false, false, false, false] ∧
    (readGolomb (init [0x26, 0x80])).map (·.1) = some 3 := by decide +kernel

/-- C30 (violation): eight zero bytes followed by a byte with a one bit make the Exp-Golomb reader
shift by 64 — undefined behaviour in `ngx_rtmp_bitop.c:62`. -/
theorem C30_golomb_shift_violation :
    readGolomb (init [0, 0, 0, 0, 0, 0, 0, 0, 0x80]) = none := by decide +kernel

end Verif.BitOp
