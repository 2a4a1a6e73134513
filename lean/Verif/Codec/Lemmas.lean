import Verif.Codec.Model
import Verif.Codec.Spec
/-
C72: what a reader gets from given bits, and which bits it can have had.
-/
namespace Verif.Codec
open Verif Verif.BitOp

/-- The reader takes just these bits and returns this. -/
def Gets {α : Type} (p : Rd α) (b : List Bool) (a : α) : Prop :=
  ∀ s l, s.br.err = false → s.br.remaining = b ++ l → ∃ s', p s = some (a, s') ∧ s'.br.remaining = l ∧ s'.br.err = false

theorem Gets.pure {α : Type} (a : α) : Gets (Pure.pure a : Rd α) [] a := fun s l h1 h2 => ⟨s, rfl, by simpa using h2, h1⟩

theorem Gets.bind {α β : Type} {p : Rd α} {f : α → Rd β} {b c : List Bool} {a : α} {r : β} (h1 : Gets p b a) (h2 : Gets (f a) c r) : Gets (p >>= f) (b ++ c) r := by
  intro s l e1 e2
  rw [List.append_assoc] at e2
  obtain ⟨s1, a1, a2, a3⟩ := h1 s _ e1 e2
  obtain ⟨s2, b1, b2, b3⟩ := h2 s1 _ a3 a2
  refine ⟨s2, ?_, b2, b3⟩
  show StateT.bind p f s = _
  unfold StateT.bind
  rw [a1]
  exact b1

theorem Gets.bind' {α β : Type} {p : Rd α} {f : α → Rd β} {b c d : List Bool} {a : α} {r : β} (h1 : Gets p b a) (h2 : Gets (f a) c r) (h : d = b ++ c) : Gets (p >>= f) d r :=
  h ▸ h1.bind h2

theorem gets_u (n v : Nat) (hn : n ≤ 64) (hv : v < 2 ^ n) : Gets (u n) (bitEnc n v) v := by
  intro s l e1 e2
  have hl : n ≤ s.br.remaining.length := by rw [e2, List.length_append, bitEnc_length]; omega
  have a := C30_read_exact s.br n hl
  have b := C30_read_exact64 s.br n hl hn
  rw [e2, List.take_append_of_le_length (by rw [bitEnc_length]; omega), List.take_of_length_le (by rw [bitEnc_length]; omega), bitVal_bitEnc, Nat.mod_eq_of_lt hv] at b
  refine ⟨{ br := (read s.br n).2, calls := s.calls + 1 }, ?_, ?_, ?_⟩
  · unfold u
    dsimp only
    rw [b]
  · dsimp only
    rw [a.2.1, e2, List.drop_left' (bitEnc_length n v)]
  · dsimp only
    rw [a.2.2, e1]

theorem gets_u_any (n : Nat) (b : List Bool) (hb : b.length = n) : ∃ v, Gets (u n) b v := by
  refine ⟨bitVal b % 2 ^ 64, ?_⟩
  intro s l e1 e2
  have a := C30_read_exact s.br n (by rw [e2, List.length_append]; omega)
  rw [e2, List.take_left' hb, List.drop_left' hb] at a
  refine ⟨{ br := (read s.br n).2, calls := s.calls + 1 }, ?_, a.2.1, by dsimp only; rw [a.2.2, e1]⟩
  unfold u
  dsimp only
  rw [a.1]

theorem gets_ue (k : Nat) (hk : k + 1 < 2 ^ 64) : Gets ue (golombCode k) k := by
  intro s l e1 e2
  obtain ⟨br', h1, h2, h3⟩ := C30_golomb_roundtrip s.br k l e1 hk e2
  refine ⟨{ br := br', calls := s.calls + 1 }, ?_, h2, h3⟩
  unfold ue
  rw [h1]
  rfl

theorem bitEnc_one (f : Bool) : bitEnc 1 f.toNat = [f] := by cases f <;> rfl

theorem gets_flag (f : Bool) : Gets (u 1) [f] f.toNat := by
  rw [← bitEnc_one]
  exact gets_u 1 _ (by omega) (by cases f <;> decide)

theorem gets_times {p : Rd Nat} : ∀ (l : List (List Bool)), (∀ b ∈ l, ∃ v, Gets p b v) → Gets (times p l.length) l.flatten () := by
  intro l
  induction l with
  | nil => intro _; exact Gets.pure ()
  | cons b l ih =>
    intro h
    obtain ⟨v, hv⟩ := h b (by simp)
    exact hv.bind (ih fun b hb => h b (by simp [hb]))

/-! ### The reader for transport streams -/

set_option maxRecDepth 10000 in
theorem ts_bits_fin : ∀ (b : Fin 256) (o : Fin 8) (d : Fin 9), o.val + d.val ≤ 8 →
    ((b.val &&& (0xff >>> o.val)) >>> (8 - o.val - d.val)) = ((b.val >>> (8 - o.val - d.val)) &&& (0xff >>> (8 - d.val))) := by
  decide +kernel

theorem or_shift (v x d : Nat) (h : x < 2 ^ d) : v <<< d ||| x = v <<< d + x := by
  rw [Nat.shiftLeft_eq, Nat.mul_comm]
  exact (Nat.two_pow_add_eq_or_of_lt h v).symm

theorem and_small (x d : Nat) (hd : d ≤ 8) : x &&& (0xff >>> (8 - d)) < 2 ^ d := by
  have : (0xff : Nat) >>> (8 - d) = 2 ^ d - 1 := by
    have : ∀ d : Fin 9, (0xff : Nat) >>> (8 - d.val) = 2 ^ d.val - 1 := by decide
    exact this ⟨d, by omega⟩
  rw [this, Nat.and_two_pow_sub_one_eq_mod]
  exact Nat.mod_lt _ (Nat.two_pow_pos d)

/-- It does the same as the other as long as there are bits. -/
theorem tsLoop_eq (br : Reader) (v n : Nat) (h : n ≤ br.remaining.length) : tsLoop br v n = readLoop br v n := by
  induction n using Nat.strongRecOn generalizing br v with
  | _ n ih =>
  unfold tsLoop readLoop
  by_cases hn : n = 0
  · simp [hn]
  simp only [hn, ↓reduceDIte]
  obtain ⟨data, o, e⟩ := br
  cases data with
  | nil =>
    simp [Reader.remaining, bitsOf] at h
    exact absurd h hn
  | cons b rest =>
    rw [remaining_cons] at h
    have ho := o.isLt
    simp only
    have hd : (if o.val + n > 8 then 8 - o.val else n) = min (8 - o.val) n := by split <;> omega
    rw [hd]
    generalize hk : min (8 - o.val) n = k
    have hk1 : 0 < k ∧ k ≤ n ∧ o.val + k ≤ 8 := by omega
    have hlen : ((byteBits b).drop o).length = 8 - o.val := by simp [byteBits_length]
    rw [List.length_append, hlen] at h
    have hv := ts_bits_fin ⟨b.toNat, b.toNat_lt⟩ o ⟨k, by omega⟩ (by dsimp only; omega)
    dsimp only at hv
    rw [hv, or_shift _ _ _ (and_small _ _ (by omega))]
    split
    · exact ih _ (by omega) _ _ (by simp only [Reader.remaining, Fin.val_zero, List.drop_zero]; omega)
    · apply ih _ (by omega)
      omega

theorem tsRead_eq (br : Reader) (n : Nat) (he : br.err = false) (h : n ≤ br.remaining.length) : tsRead br n = BitOp.read br n := by
  unfold tsRead BitOp.read
  rw [if_neg (by simp [he]), tsLoop_eq br 0 n h]

/-- At the end of the data there is an error. -/
theorem tsLoop_end (br : Reader) (v n : Nat) (h : br.remaining.length < n) : (tsLoop br v n).2.err = true := by
  induction n using Nat.strongRecOn generalizing br v with
  | _ n ih =>
  unfold tsLoop
  simp only [show n ≠ 0 by omega, ↓reduceDIte]
  obtain ⟨data, o, e⟩ := br
  cases data with
  | nil => rfl
  | cons b rest =>
    rw [remaining_cons] at h
    have ho := o.isLt
    simp only
    generalize hk : min (8 - o.val) n = k
    have hlen : ((byteBits b).drop o).length = 8 - o.val := by simp [byteBits_length]
    rw [List.length_append, hlen] at h
    split
    · exact ih _ (by omega) _ _ (by simp only [Reader.remaining, Fin.val_zero, List.drop_zero]; omega)
    · omega

theorem tsRead_end (br : Reader) (n : Nat) (h : br.remaining.length < n) : (tsRead br n).2.err = true := by
  unfold tsRead
  split
  · assumption
  · exact tsLoop_end br 0 n h

theorem tsRead_err {br : Reader} {n : Nat} (h : br.err = true) : (tsRead br n).2.err = true := by
  unfold tsRead
  rw [if_pos h]
  exact h

theorem gets_tu (n v : Nat) (hn : n ≤ 64) (hv : v < 2 ^ n) : Gets (tu n) (bitEnc n v) v := by
  intro s l e1 e2
  obtain ⟨s', h1, h2⟩ := gets_u n v hn hv s l e1 e2
  refine ⟨s', ?_, h2⟩
  unfold tu
  unfold u at h1
  rw [tsRead_eq s.br n e1 (by rw [e2, List.length_append, bitEnc_length]; omega)]
  exact h1

theorem gets_tflag (f : Bool) : Gets (tu 1) [f] f.toNat := by
  rw [← bitEnc_one]
  exact gets_tu 1 _ (by omega) (by cases f <;> decide)

theorem tsZeros_spec (fuel z n : Nat) (br : Reader) (l : List Bool) (he : br.err = false)
    (h : br.remaining = List.replicate z false ++ true :: l) (hf : z < fuel) :
    (tsZeros fuel br n).1 = some (n + z) ∧ (tsZeros fuel br n).2.remaining = l ∧
    (tsZeros fuel br n).2.err = false := by
  induction z generalizing fuel br n with
  | zero =>
    obtain ⟨fuel, rfl⟩ : ∃ f, fuel = f + 1 := ⟨fuel - 1, by omega⟩
    have := read_one br true l (by simpa using h)
    have e := tsRead_eq br 1 he (by rw [h]; simp)
    simp [tsZeros, e, this, he]
  | succ z ih =>
    obtain ⟨fuel, rfl⟩ : ∃ f, fuel = f + 1 := ⟨fuel - 1, by omega⟩
    have := read_one br false (List.replicate z false ++ true :: l)
      (by rw [h, List.replicate_succ]; rfl)
    have e := tsRead_eq br 1 he (by rw [h]; simp; omega)
    have t := ih fuel (n + 1) (read br 1).2 (by rw [this.2.2, he]) this.2.1 (by omega)
    simp only [tsZeros]
    have h0 : (BitOp.read br 1).1 = 0 := this.1
    rw [e, if_pos h0, if_neg (by rw [this.2.2, he]; simp)]
    refine ⟨by rw [t.1]; congr 1; omega, t.2.1, t.2.2⟩

/-- Zeros, a one and as many bits: what the code number is. -/
theorem golomb_split (k : Nat) : ∃ z, golombCode k = List.replicate z false ++ true :: bitEnc z (k + 1) ∧ 2 ^ z ≤ k + 1 ∧ k + 1 < 2 ^ (z + 1) := by
  have hne : k + 1 ≠ 0 := by omega
  refine ⟨(k + 1).log2, ?_, Nat.log2_self_le hne, Nat.lt_log2_self⟩
  have hlo := Nat.log2_self_le hne
  have hhi : k + 1 < 2 ^ ((k + 1).log2 + 1) := Nat.lt_log2_self
  unfold golombCode
  generalize (k + 1).log2 = z at *
  have hdiv : (k + 1) / 2 ^ z = 1 := by
    rw [Nat.div_eq_iff (Nat.pow_pos (by omega))]
    rw [Nat.pow_succ] at hhi
    omega
  have htop : (k+1).testBit z = true := by
    have := Nat.toNat_testBit (k+1) z
    rw [hdiv] at this
    cases hb : (k+1).testBit z
    · rw [hb] at this; simp at this
    · rfl
  rw [bitEnc, htop]

theorem gets_tue (k : Nat) (hk : k + 1 < 2 ^ 64) : Gets tue (golombCode k) k := by
  intro s l e1 e2
  obtain ⟨z, hz, hlo, hhi⟩ := golomb_split k
  have hz64 : z < 64 := by
    have : 2 ^ z < 2 ^ 64 := by omega
    exact (Nat.pow_lt_pow_iff_right (by omega)).mp this
  rw [hz] at e2
  have e2' : s.br.remaining = List.replicate z false ++ true :: (bitEnc z (k + 1) ++ l) := by rw [e2]; simp
  have hfuel : z < 8 * s.br.data.length + 1 := by
    have := remaining_length s.br
    rw [e2'] at this
    simp only [List.length_append, List.length_replicate, List.length_cons] at this
    omega
  obtain ⟨t1, t2, t3⟩ := tsZeros_spec _ z 0 s.br _ e1 e2' hfuel
  generalize ht : tsZeros (8 * s.br.data.length + 1) s.br 0 = t at t1 t2 t3
  obtain ⟨t', br⟩ := t
  dsimp only at t1 t2 t3
  subst t1
  have hl : z ≤ br.remaining.length := by rw [t2, List.length_append, bitEnc_length]; omega
  have r := C30_read_exact br z hl
  have r64 := C30_read_exact64 br z hl (by omega)
  rw [t2, List.take_left' (bitEnc_length _ _), bitVal_bitEnc] at r64
  rw [t2, List.drop_left' (bitEnc_length _ _)] at r
  have hmod : (k + 1) % 2 ^ z = k + 1 - 2 ^ z := by
    rw [Nat.pow_succ] at hhi
    rw [Nat.mod_eq_sub_mod hlo, Nat.mod_eq_of_lt (by omega)]
  refine ⟨{ br := (read br z).2, calls := s.calls + 1 }, ?_, r.2.1, by dsimp only; rw [r.2.2, t3]⟩
  unfold tue tsGolomb
  rw [if_neg (by simp [e1]), ht]
  dsimp only
  rw [Nat.zero_add, if_neg (by omega), tsRead_eq br z t3 hl, r64, hmod]
  simp only [Option.map_some, Option.some.injEq, Prod.mk.injEq, and_true]
  have : 2 ^ z - 1 + (k + 1 - 2 ^ z) = k := by
    have := Nat.two_pow_pos z
    omega
  rw [this, Nat.mod_eq_of_lt (by omega)]

end Verif.Codec
