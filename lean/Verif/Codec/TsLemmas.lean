import Verif.Codec.AvcLemmas
/-
C72: the reader for transport streams takes sequence parameter sets, and nothing else.
-/
namespace Verif.Codec
open Verif Verif.BitOp

/-! ### From bits to what is read -/

theorem gets_noLists : ∀ n, Gets (noLists n) (List.replicate n [false]).flatten true := by
  intro n
  induction n with
  | zero => exact Gets.pure true
  | succ n ih =>
    rw [List.replicate_succ, List.flatten_cons]
    exact Gets.bind (gets_tflag false) ih

theorem gets_tsep (c : Spec.Chroma) : ∃ v, Gets (onlyIf (c.format == 3) (tu 1) 0) (if c.format = 3 then [c.separate] else []) v := by
  unfold onlyIf
  by_cases h : c.format = 3
  · rw [if_pos (by simpa using h), if_pos h]
    exact ⟨_, gets_tflag _⟩
  · rw [if_neg (by simpa using h), if_neg h]
    exact ⟨0, Gets.pure 0⟩

theorem gets_tsChroma (c : Spec.Chroma) (h1 : c.format + 1 < 2 ^ 64) (h2 : c.luma + 1 < 2 ^ 64) (h3 : c.chroma + 1 < 2 ^ 64)
    (hl : ∀ ls, c.lists = some ls → ls.length = (if c.format = 3 then 12 else 8) ∧ ∀ l ∈ ls, l = none) : Gets tsChroma c.bits true := by
  unfold tsChroma Spec.Chroma.bits
  rw [List.append_assoc, List.append_assoc, List.append_assoc, List.append_assoc]
  apply (gets_tue _ h1).bind
  obtain ⟨v, hsep⟩ := gets_tsep c
  apply hsep.bind
  apply (gets_tue _ h2).bind
  apply (gets_tue _ h3).bind
  apply (gets_tflag _).bind
  cases hls : c.lists with
  | none =>
    apply Gets.bind' (gets_tflag false) ?_ (List.append_nil _).symm
    exact Gets.pure true
  | some ls =>
    obtain ⟨g1, g2⟩ := hl ls hls
    dsimp only
    rw [flags_none ls g2, g1]
    exact Gets.bind' (gets_tflag true) (gets_noLists _) rfl

/-- One can shift 1 by so much and 4 more: the sum wraps. -/
def Shifts (k : Nat) : Prop := k ≤ 26 ∨ 2 ^ 64 - 4 ≤ k

theorem gets_shiftInt (k : Nat) (hk : k + 1 < 2 ^ 64) (h : Shifts k) : Gets shiftInt (golombCode k) () := by
  unfold Shifts at h
  unfold shiftInt
  apply Gets.bind' (gets_tue k hk) ?_ (List.append_nil _).symm
  rw [if_neg (by omega)]
  exact Gets.pure ()

theorem gets_tsPoc (p : Spec.Poc) (h : ∀ k ∈ (match p with | .lsb k => [k] | .offsets _ n t rs => [Spec.codeNum n, Spec.codeNum t, rs.length] ++ rs.map Spec.codeNum | .output t => [t]), k + 1 < 2 ^ 64)
    (h2 : ∀ t, p = .output t → 2 ≤ t) (h3 : ∀ k, p = .lsb k → Shifts k) : Gets tsPoc p.bits () := by
  unfold tsPoc
  cases p with
  | lsb k =>
    apply (gets_tue 0 (by decide)).bind
    rw [if_pos rfl]
    exact gets_shiftInt k (h _ (by simp)) (h3 k rfl)
  | offsets z n t rs =>
    simp only [Spec.Poc.bits]
    rw [List.append_assoc, List.append_assoc, List.append_assoc, List.append_assoc]
    apply (gets_tue 1 (by decide)).bind
    rw [if_neg (by decide), if_pos rfl]
    apply (gets_tflag z).bind
    apply (gets_tue (Spec.codeNum n) (h _ (by simp))).bind
    apply (gets_tue (Spec.codeNum t) (h _ (by simp))).bind
    apply (gets_tue rs.length (h _ (by simp))).bind
    exact gets_refs tue gets_tue rs (fun r hr => h _ (by simp; exact .inr (.inr (.inr ⟨r, hr, rfl⟩))))
  | output t =>
    have := h2 t rfl
    apply Gets.bind' (gets_tue t (h _ (by simp))) ?_ (List.append_nil _).symm
    rw [if_neg (by omega), if_neg (by omega)]
    exact Gets.pure ()

theorem gets_tsCrop (c : Option (Nat × Nat × Nat × Nat)) (h : ∀ k ∈ (match c with | none => [] | some (l, r, t, b) => [l, r, t, b]), k + 1 < 2 ^ 64) :
    Gets tsCrop (Spec.cropBits c) (cropOf c) := by
  unfold tsCrop
  cases c with
  | none =>
    apply Gets.bind' (gets_tflag false) ?_ (List.append_nil _).symm
    exact Gets.pure _
  | some x =>
    obtain ⟨l, r, t, b⟩ := x
    dsimp only at h
    simp only [Spec.cropBits, List.append_assoc]
    apply (gets_tflag true).bind
    rw [if_neg (by decide)]
    apply (gets_tue l (h _ (by simp))).bind
    apply (gets_tue r (h _ (by simp))).bind
    apply (gets_tue t (h _ (by simp))).bind
    exact Gets.bind' (gets_tue b (h _ (by simp))) (Gets.pure _) (List.append_nil _).symm

/-- Sets that can be read: numbers of 64 bits, exponents that can be shifted by, and no list -/
def Readable (s : Spec.Sps) : Prop := s.profile < 256 ∧ s.constraints < 256 ∧ s.level < 256 ∧ (∀ k ∈ s.codes, k + 1 < 2 ^ 64) ∧ Shifts s.frameNum ∧ (∀ k, s.poc = .lsb k → Shifts k) ∧
  (∀ t, s.poc = .output t → 2 ≤ t) ∧ (s.high.isSome = true ↔ s.profile ∈ tsHigh) ∧
  ∀ c, s.high = some c → ∀ ls, c.lists = some ls → ls.length = (if c.format = 3 then 12 else 8) ∧ ∀ l ∈ ls, l = none

/-- What is made of a set -/
def avcOf (s : Spec.Sps) : Avc :=
  { profile := s.profile, constraints := s.constraints, level := s.level, refFrames := s.refFrames, widthMbs := s.width + 1, heightUnits := s.height + 1
    frameMbsOnly := s.frameMbsOnly.toNat, crop := cropOf s.crop, width := size64 (s.width + 1) ((cropOf s.crop).1 + (cropOf s.crop).2.1)
    height := size64 ((2 - s.frameMbsOnly.toNat) * (s.height + 1)) ((cropOf s.crop).2.2.1 + (cropOf s.crop).2.2.2) }

theorem gets_end {α : Type} (a : α) : Gets (do let s ← get; if s.br.err then pure none else pure (some a) : Rd (Option α)) [] (some a) := by
  intro s l h1 h2
  refine ⟨s, ?_, by simpa using h2, h1⟩
  show StateT.bind StateT.get _ s = _
  simp only [StateT.bind, StateT.get]
  show (if s.br.err = true then (pure none : Rd (Option α)) else pure (some a)) s = _
  rw [if_neg (by simp [h1])]
  rfl

theorem gets_tsMb (s : Spec.Sps) : ∃ v, Gets (onlyIf (s.frameMbsOnly.toNat == 0) (tu 1) 0) (if s.frameMbsOnly then [] else [s.mbaff]) v := by
  cases s.frameMbsOnly with
  | true => exact ⟨0, Gets.pure 0⟩
  | false => exact ⟨_, gets_tflag _⟩

theorem gets_tsAvc (s : Spec.Sps) (hr : Readable s) (hdr : Nat) (h1 : hdr < 256) (h2 : hdr % 32 = 7) : Gets tsAvc (bitEnc 8 hdr ++ s.bits) (some (avcOf s)) := by
  obtain ⟨o1, o2, o3, o4, o7, o8, o9, o5, o6⟩ := hr
  unfold tsAvc Spec.Sps.bits
  unfold Spec.Sps.codes at o4
  simp only [List.append_assoc]
  apply (gets_tu 8 _ (by omega) h1).bind
  rw [if_neg (by omega)]
  apply (gets_tu 8 _ (by omega) o1).bind
  apply (gets_tu 8 _ (by omega) o2).bind
  apply (gets_tu 8 _ (by omega) o3).bind
  apply (gets_tue s.id (o4 _ (by simp))).bind
  have hch : Gets (onlyIf (tsHigh.contains s.profile) tsChroma true) (Spec.highBits s.high) true := by
    unfold onlyIf
    cases hh : s.high with
    | none =>
      rw [hh] at o5
      rw [if_neg]
      · exact Gets.pure true
      · intro g
        simpa using o5.2 (by simpa using g)
    | some ch =>
      rw [hh] at o5
      have := o5.1 rfl
      rw [if_pos (by simpa using this)]
      apply gets_tsChroma
      · exact o4 _ (by simp [hh])
      · exact o4 _ (by simp [hh])
      · exact o4 _ (by simp [hh])
      · exact o6 ch hh
  apply hch.bind
  rw [if_pos rfl]
  unfold tsRest
  apply (gets_shiftInt s.frameNum (o4 _ (by simp)) o7).bind
  refine (gets_tsPoc s.poc (fun k hk => o4 k ?_) o9 o8).bind ?_
  · simp only [List.mem_append]
    exact .inl (.inr hk)
  apply (gets_tue s.refFrames (o4 _ (by simp))).bind
  apply (gets_tflag s.gaps).bind
  apply (gets_tue s.width (o4 _ (by simp))).bind
  apply (gets_tue s.height (o4 _ (by simp))).bind
  apply (gets_tflag s.frameMbsOnly).bind
  obtain ⟨v, hmb⟩ := gets_tsMb s
  apply hmb.bind
  apply (gets_tflag s.direct).bind
  refine Gets.bind' (gets_tsCrop s.crop (fun k hk => o4 k ?_)) (gets_end _) (List.append_nil _).symm
  simp only [List.mem_append]
  exact .inr hk

/-! ### From what is read to bits -/

/-- If there was no error, the reader took bits of which this is true. -/
def Took {α : Type} (p : Rd α) (R : α → List Bool → Prop) : Prop :=
  ∀ s a s', p s = some (a, s') → s'.br.err = false → s.br.err = false ∧ ∃ b, s.br.remaining = b ++ s'.br.remaining ∧ R a b

theorem Took.pure {α : Type} (a : α) : Took (Pure.pure a : Rd α) (fun x b => x = a ∧ b = []) := by
  intro s x s' h he
  have : some (a, s) = some (x, s') := h
  injection this with this
  injection this with h1 h2
  subst h1 h2
  exact ⟨he, [], rfl, rfl, rfl⟩

theorem Took.bind {α β : Type} {p : Rd α} {f : α → Rd β} {R : α → List Bool → Prop} {S : α → β → List Bool → Prop} (h1 : Took p R) (h2 : ∀ a, Took (f a) (S a)) :
    Took (p >>= f) (fun c b => ∃ a b1 b2, b = b1 ++ b2 ∧ R a b1 ∧ S a c b2) := by
  intro s c s' h he
  have h : (p s).bind (fun x => f x.1 x.2) = some (c, s') := h
  obtain ⟨⟨a, s1⟩, g1, g2⟩ := Option.bind_eq_some_iff.1 h
  obtain ⟨e1, b2, e2, e3⟩ := h2 a s1 c s' g2 he
  obtain ⟨d1, b1, d2, d3⟩ := h1 s a s1 g1 e1
  exact ⟨d1, b1 ++ b2, by rw [d2, e2, List.append_assoc], a, b1, b2, rfl, d3, e3⟩

theorem Took.mono {α : Type} {p : Rd α} {R S : α → List Bool → Prop} (h : Took p R) (g : ∀ a b, R a b → S a b) : Took p S := by
  intro s a s' h1 h2
  obtain ⟨e1, b, e2, e3⟩ := h s a s' h1 h2
  exact ⟨e1, b, e2, g a b e3⟩

theorem bitEnc_bitVal : ∀ (l : List Bool), bitEnc l.length (bitVal l) = l := by
  have key : ∀ (l m : List Bool), l.length = m.length → bitVal l = bitVal m → l = m := by
    intro l
    induction l with
    | nil => intro m h _; cases m with | nil => rfl | cons => simp at h
    | cons x l ih =>
      intro m h hv
      cases m with
      | nil => simp at h
      | cons y m =>
        have hl : l.length = m.length := by simpa using h
        have e1 := bitVal_append [x] l
        have e2 := bitVal_append [y] m
        have f1 := bitVal_lt l
        have f2 := bitVal_lt m
        rw [List.singleton_append] at e1 e2
        rw [e1, e2, hl] at hv
        rw [hl] at f1
        have hx : bitVal [x] = x.toNat := by cases x <;> rfl
        have hy : bitVal [y] = y.toNat := by cases y <;> rfl
        rw [hx, hy] at hv
        have : x = y := by
          cases x <;> cases y <;> simp at hv ⊢ <;> omega
        subst this
        rw [ih m hl (by omega)]
  intro l
  apply key _ _ (bitEnc_length _ _)
  rw [bitVal_bitEnc, Nat.mod_eq_of_lt (bitVal_lt l)]

theorem took_tu (n : Nat) (hn : n ≤ 64) : Took (tu n) (fun v b => b = bitEnc n v ∧ v < 2 ^ n) := by
  intro s a s' h he
  unfold tu at h
  injection h with h
  injection h with h1 h2
  subst h1 h2
  dsimp only at he ⊢
  have e1 : s.br.err = false := by
    cases g : s.br.err with
    | false => rfl
    | true => rw [tsRead_err g] at he; cases he
  have e2 : n ≤ s.br.remaining.length := by
    apply Nat.le_of_not_lt
    intro g
    rw [tsRead_end _ _ g] at he
    cases he
  have r := C30_read_exact s.br n e2
  have r64 := C30_read_exact64 s.br n e2 hn
  rw [tsRead_eq _ _ e1 e2, r.2.1, r64]
  have hl : (s.br.remaining.take n).length = n := by rw [List.length_take]; omega
  refine ⟨e1, s.br.remaining.take n, (List.take_append_drop _ _).symm, ?_, ?_⟩
  · have := bitEnc_bitVal (s.br.remaining.take n)
    rw [hl] at this
    exact this.symm
  · have := bitVal_lt (s.br.remaining.take n)
    rwa [hl] at this

theorem tsZeros_took : ∀ (fuel n m : Nat) (br br' : Reader), tsZeros fuel br n = (some m, br') → br'.err = false →
    br.err = false ∧ n ≤ m ∧ br.remaining = List.replicate (m - n) false ++ true :: br'.remaining := by
  intro fuel
  induction fuel with
  | zero => intro n m br br' h; cases h
  | succ fuel ih =>
    intro n m br br' h he
    simp only [tsZeros] at h
    have key : ∀ r, tsRead br 1 = r → r.2.err = false → br.err = false ∧ ∃ x l, br.remaining = x :: l ∧ r.1 = x.toNat ∧ r.2.remaining = l := by
      intro r hr hre
      subst hr
      have e1 : br.err = false := by
        cases g : br.err with
        | false => rfl
        | true => rw [tsRead_err g] at hre; cases hre
      have e2 : 1 ≤ br.remaining.length := by
        apply Nat.le_of_not_lt
        intro g
        rw [tsRead_end _ _ g] at hre
        cases hre
      cases hb : br.remaining with
      | nil => rw [hb] at e2; simp at e2
      | cons x l =>
        have := read_one br x l hb
        rw [tsRead_eq _ _ e1 e2]
        exact ⟨e1, x, l, rfl, this.1, this.2.1⟩
    generalize hr : tsRead br 1 = r at h
    by_cases h0 : r.1 = 0
    · rw [if_pos h0] at h
      split at h
      · cases h
      rename_i h1
      obtain ⟨k1, x, l, k2, k3, k4⟩ := key r hr (by simpa using h1)
      obtain ⟨j1, j2, j3⟩ := ih (n + 1) m r.2 br' h he
      refine ⟨k1, by omega, ?_⟩
      have hx : x = false := by
        cases x with
        | false => rfl
        | true => rw [h0] at k3; cases k3
      rw [k2, hx, ← k4, j3, show m - n = (m - (n + 1)) + 1 by omega, List.replicate_succ, List.cons_append]
    · rw [if_neg h0] at h
      injection h with h1 h2
      injection h1 with h1
      subst h1 h2
      obtain ⟨k1, x, l, k2, k3, k4⟩ := key r hr he
      refine ⟨k1, by omega, ?_⟩
      have hx : x = true := by
        cases x with
        | false => exact absurd k3 h0
        | true => rfl
      rw [k2, hx, ← k4]
      simp

theorem log2_at (z v : Nat) (h : v < 2 ^ z) : (2 ^ z + v).log2 = z := by
  have h1 : 2 ^ z + v ≠ 0 := by have := Nat.two_pow_pos z; omega
  have hlo := Nat.log2_self_le h1
  have hhi : 2 ^ z + v < 2 ^ ((2 ^ z + v).log2 + 1) := Nat.lt_log2_self
  generalize (2 ^ z + v).log2 = y at *
  have a : 2 ^ z < 2 ^ (y + 1) := by omega
  have b : 2 ^ y < 2 ^ (z + 1) := by rw [Nat.pow_succ]; omega
  have a := (Nat.pow_lt_pow_iff_right (by omega : 1 < 2)).1 a
  have b := (Nat.pow_lt_pow_iff_right (by omega : 1 < 2)).1 b
  omega

theorem bitEnc_low : ∀ (z v w : Nat), z ≤ w → bitEnc z (2 ^ w + v) = bitEnc z v := by
  intro z
  induction z with
  | zero => intro v w _; rfl
  | succ z ih =>
    intro v w h
    rw [bitEnc, bitEnc, ih v w (by omega), Nat.testBit_two_pow_add_gt (by omega)]

theorem golomb_of (z v : Nat) (h : v < 2 ^ z) : golombCode (2 ^ z - 1 + v) = List.replicate z false ++ true :: bitEnc z v := by
  have h1 : 2 ^ z - 1 + v + 1 = 2 ^ z + v := by have := Nat.two_pow_pos z; omega
  unfold golombCode
  rw [h1, log2_at z v h, bitEnc, bitEnc_low z v z (by omega)]
  congr 2
  have := Nat.testBit_two_pow_add_eq v z
  rw [this, Nat.testBit_lt_two_pow h]
  rfl

theorem took_tue : Took tue (fun k b => b = golombCode k ∧ k + 1 < 2 ^ 64) := by
  intro s a s' h he
  unfold tue at h
  obtain ⟨⟨k, br⟩, g1, g2⟩ := Option.map_eq_some_iff.1 h
  injection g2 with g2 g3
  subst g2 g3
  dsimp only at he ⊢
  unfold tsGolomb at g1
  split at g1
  · rename_i e
    injection g1 with g1
    injection g1 with g1 g2
    subst g2
    rw [e] at he
    cases he
  rename_i e1
  have e1 : s.br.err = false := by simpa using e1
  split at g1
  · rename_i br2 hz
    injection g1 with g1
    injection g1 with g1 g2
    subst g2
    exfalso
    -- the loop gave up: there was an error, or it had no more turns
    have key : ∀ (fuel n : Nat) (br br' : Reader), tsZeros fuel br n = (none, br') → br.remaining.length < fuel → br.err = false → br'.err = true := by
      intro fuel
      induction fuel with
      | zero => intro n br br' _ hf; omega
      | succ fuel ih =>
        intro n br br' h hf hb
        simp only [tsZeros] at h
        split at h
        · split at h
          · rename_i hh
            injection h with _ h
            rw [← h]
            exact hh
          · rename_i h0 hh
            have h2 : 1 ≤ br.remaining.length := by
              apply Nat.le_of_not_lt
              intro g
              exact hh (tsRead_end _ _ g)
            have r := C30_read_exact br 1 h2
            rw [tsRead_eq _ _ hb h2] at h hh
            exact ih _ _ _ h (by rw [r.2.1, List.length_drop]; omega) (by simpa using hh)
        · injection h with h
          cases h
    have := key _ _ _ _ hz (by rw [remaining_length]; omega) e1
    rw [this] at he
    cases he
  · rename_i z br2 hz
    split at g1
    · cases g1
    rename_i hz64
    injection g1 with g1
    injection g1 with g1 g2
    subst g2
    have hbr2 : br2.err = false := by
      cases g : br2.err with
      | false => rfl
      | true => rw [tsRead_err g] at he; cases he
    obtain ⟨-, -, hb⟩ := tsZeros_took _ _ _ _ _ hz hbr2
    have hl : z ≤ br2.remaining.length := by
      apply Nat.le_of_not_lt
      intro g
      rw [tsRead_end _ _ g] at he
      cases he
    have r := C30_read_exact br2 z hl
    have r64 := C30_read_exact64 br2 z hl (by omega)
    rw [tsRead_eq _ _ hbr2 hl] at g1 ⊢
    rw [r64] at g1
    have hlen : (br2.remaining.take z).length = z := by rw [List.length_take]; omega
    have hlt := bitVal_lt (br2.remaining.take z)
    rw [hlen] at hlt
    have hbe := bitEnc_bitVal (br2.remaining.take z)
    rw [hlen] at hbe
    have hp : 2 ^ z ≤ 2 ^ 63 := Nat.pow_le_pow_right (by omega) (by omega)
    rw [Nat.mod_eq_of_lt (by omega)] at g1
    refine ⟨e1, golombCode k, ?_, rfl, by omega⟩
    rw [← g1, golomb_of z _ hlt, hbe, r.2.1, hb, Nat.sub_zero, List.append_assoc, List.cons_append, List.take_append_drop]

end Verif.Codec
