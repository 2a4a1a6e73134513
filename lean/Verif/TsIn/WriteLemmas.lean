import Verif.TsIn.CrcLemmas
import Verif.TsIn.WriteSpec
/-
Packets that are written.
-/
namespace Verif.TsIn
open Verif

/-- The last buffer of a chain is not empty. -/
def Ends (c : List Bytes) : Prop := ∃ b, c.getLast? = some b ∧ b ≠ []

/-- It is. -/
def Hollow (c : List Bytes) : Prop := c.getLast? = some []

theorem ends_cons {b a : Bytes} {r : List Bytes} : Ends (b :: a :: r) ↔ Ends (a :: r) := by unfold Ends; simp [List.getLast?_cons_cons]
theorem hollow_cons {b a : Bytes} {r : List Bytes} : Hollow (b :: a :: r) ↔ Hollow (a :: r) := by unfold Hollow; simp [List.getLast?_cons_cons]

theorem ends_pos {c : List Bytes} (h : Ends c) : 0 < c.flatten.length := by
  obtain ⟨b, h1, h2⟩ := h
  obtain ⟨l, rfl⟩ := List.getLast?_eq_some_iff.1 h1
  have := List.length_pos_iff.2 h2
  simp only [List.flatten_append, List.flatten_cons, List.flatten_nil, List.append_nil, List.length_append]
  omega

/-! ### Filling a packet -/

theorem fill_all (c : List Bytes) (room : Nat) (h : Ends c) (hl : c.flatten.length ≤ room) : fill room c = (c.flatten, room - c.flatten.length, []) := by
  induction c generalizing room with
  | nil => obtain ⟨b, h1, -⟩ := h; simp at h1
  | cons b r ih =>
    have hp := ends_pos h
    simp only [List.flatten_cons, List.length_append] at hl hp ⊢
    unfold fill
    rw [if_neg (by omega), if_pos (by omega)]
    cases r with
    | nil => simp
    | cons a r =>
      rw [if_neg (by simp)]
      dsimp only
      rw [ih (room - b.length) (ends_cons.1 h) (by omega)]
      rw [Nat.sub_sub]

theorem fill_part (c : List Bytes) (room : Nat) (hl : room < c.flatten.length) :
    ∃ rest, fill room c = (c.flatten.take room, 0, rest) ∧ rest.flatten = c.flatten.drop room ∧ (Ends c → Ends rest) ∧ (Hollow c → Hollow rest) ∧ rest ≠ [] := by
  induction c generalizing room with
  | nil => simp at hl
  | cons b r ih =>
    simp only [List.flatten_cons, List.length_append] at hl ⊢
    unfold fill
    by_cases h0 : room = 0
    · subst h0
      rw [if_pos rfl]
      exact ⟨_, by simp, by simp, id, id, by simp⟩
    rw [if_neg h0]
    by_cases h1 : b.length ≤ room
    · rw [if_pos h1]
      cases r with
      | nil => simp at hl; omega
      | cons a r =>
        obtain ⟨rest, g1, g2, g3, g4, g5⟩ := ih (room - b.length) (by omega)
        rw [if_neg (by simp)]
        dsimp only
        rw [g1]
        refine ⟨rest, ?_, ?_, fun h => g3 (ends_cons.1 h), fun h => g4 (hollow_cons.1 h), g5⟩
        · rw [List.take_append, List.take_of_length_le h1]
        · rw [g2, List.drop_append, List.drop_of_length_le h1, List.nil_append]
    · rw [if_neg h1]
      refine ⟨b.drop room :: r, ?_, ?_, ?_, ?_, by simp⟩
      · rw [List.take_append_of_le_length (by omega)]
      · rw [List.flatten_cons, List.drop_append_of_le_length (by omega)]
      · intro h
        cases r with
        | nil =>
          refine ⟨b.drop room, rfl, ?_⟩
          intro x
          have := congrArg List.length x
          rw [List.length_drop] at this
          simp at this
          omega
        | cons a r => exact ends_cons.2 (ends_cons.1 h)
      · intro h
        cases r with
        | nil => unfold Hollow at h; simp at h; rw [h] at h1; simp at h1
        | cons a r => exact hollow_cons.2 (hollow_cons.1 h)

theorem fill_hollow (c : List Bytes) (room : Nat) (h : Hollow c) (hl : c.flatten.length = room) :
    ∃ rest, fill room c = (c.flatten, 0, rest) ∧ rest.flatten = [] ∧ Hollow rest := by
  induction c generalizing room with
  | nil => simp [Hollow] at h
  | cons b r ih =>
    simp only [List.flatten_cons, List.length_append] at hl ⊢
    unfold fill
    by_cases h0 : room = 0
    · subst h0
      rw [if_pos rfl]
      have e1 : b = [] := List.length_eq_zero_iff.1 (by omega)
      have e2 : r.flatten = [] := List.length_eq_zero_iff.1 (by omega)
      exact ⟨_, by simp only [e1, e2, List.append_nil], by simp only [List.flatten_cons, e1, e2, List.append_nil], h⟩
    rw [if_neg h0, if_pos (by omega)]
    cases r with
    | nil =>
      unfold Hollow at h
      simp at h
      subst h
      simp at hl
      omega
    | cons a r =>
      obtain ⟨rest, g1, g2, g3⟩ := ih (room - b.length) (hollow_cons.1 h) (by omega)
      rw [if_neg (by simp)]
      dsimp only
      rw [g1]
      exact ⟨rest, rfl, g2, g3⟩

/-! ### Bytes of a packet -/

theorem or64 : ∀ x : Fin 32, ((0x40 : UInt8) ||| UInt8.ofNat x.val).toNat = 64 + x.val ∧ ((0x00 : UInt8) ||| UInt8.ofNat x.val).toNat = x.val := by decide +kernel
theorem or16 : ∀ x : Fin 16, ((0x10 : UInt8) ||| UInt8.ofNat x.val).toNat = 16 + x.val ∧ ((0x10 : UInt8) ||| UInt8.ofNat x.val ||| 0x20).toNat = 48 + x.val := by
  decide +kernel
theorem or128 : ∀ x : Fin 2, ∀ y : Fin 2, (UInt8.ofNat (x.val * 128) ||| UInt8.ofNat y.val).toNat = x.val * 128 + y.val := by decide +kernel

theorem ofNat_toNat (n : Nat) : (UInt8.ofNat n).toNat = n % 256 := by simp

theorem byte1 (pid : Nat) (first : Bool) (h : pid < 8192) :
    ((if first then (0x40 : UInt8) else 0x00) ||| UInt8.ofNat (pid / 256)).toNat = (if first then 64 else 0) + pid / 256 := by
  have := or64 ⟨pid / 256, by omega⟩
  cases first
  · simpa using this.2
  · simpa using this.1

theorem pcr_base (q : Nat) (h : q < 2 ^ 33) :
    q / 2 ^ 25 % 256 * 2 ^ 25 + q / 2 ^ 17 % 256 * 2 ^ 17 + q / 2 ^ 9 % 256 * 2 ^ 9 + q / 2 % 256 * 2 + q % 2 = q := by
  have e1 : q / 2 ^ 9 = q / 2 / 256 := by rw [Nat.div_div_eq_div_mul]
  have e2 : q / 2 ^ 17 = q / 2 / 256 / 256 := by rw [Nat.div_div_eq_div_mul, Nat.div_div_eq_div_mul]
  have e3 : q / 2 ^ 25 = q / 2 / 256 / 256 / 256 := by rw [Nat.div_div_eq_div_mul, Nat.div_div_eq_div_mul, Nat.div_div_eq_div_mul]
  rw [e1, e2, e3]
  omega

theorem pcr_ext (q e : Nat) (h : e < 300) : (q % 2 * 128 + e / 256) % 2 * 256 + e % 256 = e := by
  have h1 : (q % 2 * 128 + e / 256) % 2 = e / 256 := by
    obtain ⟨x, hx⟩ : ∃ x, q % 2 = x := ⟨_, rfl⟩
    rw [hx]
    omega
  rw [h1]
  omega

theorem pcr_read (v : Nat) (h : v < 2 ^ 33 * 300) : ∃ b0 b1 b2 b3 b4 b5, pcrBytes v = [b0, b1, b2, b3, b4, b5] ∧ b4.toNat % 2 * 256 + b5.toNat < 300 ∧
    Spec.readPcr [b0, b1, b2, b3, b4, b5] = some v := by
  refine ⟨_, _, _, _, _, _, rfl, ?_⟩
  obtain ⟨q, hq⟩ : ∃ q, q = v / 300 := ⟨_, rfl⟩
  obtain ⟨e, he⟩ : ∃ e, e = v % 300 := ⟨_, rfl⟩
  have hb : (UInt8.ofNat (v / 300 * 128) ||| UInt8.ofNat (v % 300 / 256 % 2)).toNat = v / 300 % 2 * 128 + v % 300 / 256 := by
    rw [show UInt8.ofNat (v / 300 * 128) = UInt8.ofNat (v / 300 % 2 * 128) by
      apply UInt8.toNat_inj.1; rw [ofNat_toNat, ofNat_toNat]; omega]
    have := or128 ⟨v / 300 % 2, by omega⟩ ⟨v % 300 / 256 % 2, by omega⟩
    dsimp only at this
    rw [this]
    omega
  have hq' : q < 2 ^ 33 := by omega
  have hv : v = q * 300 + e := by omega
  have he' : e < 300 := by omega
  simp only [Spec.readPcr]
  rw [hb]
  simp only [ofNat_toNat, ← hq, ← he]
  have h1 := pcr_base q hq'
  have h2 : (q % 2 * 128 + e / 256) / 128 = q % 2 := by clear hb hq he hv; omega
  have h3 := pcr_ext q e he'
  rw [h2, h3, h1, hv]
  exact ⟨he', rfl⟩

theorem adaptation_read (h : WHead) (n : Nat) (hp : ∀ v, h.pcr = some v → v < 2 ^ 33 * 300) :
    Spec.exactAdaptation (adaptation h ++ List.replicate n 0xff) = some (h.rand, h.pcr) := by
  obtain ⟨pid, cont, rand, pcr, stuff⟩ := h
  cases pcr with
  | none => cases rand <;> simp [adaptation, Spec.exactAdaptation]
  | some v =>
    obtain ⟨b0, b1, b2, b3, b4, b5, h1, h2, h3⟩ := pcr_read v (hp v rfl)
    simp only [adaptation, h1]
    cases rand
    · simp [Spec.exactAdaptation, h2, h3]
    · simp [Spec.exactAdaptation, h2, h3, show (64 : UInt8) ||| 16 = 80 by decide]

theorem adaptation_length (h : WHead) : (adaptation h).length = if h.pcr.isSome then 7 else 1 := by
  unfold adaptation
  cases h.pcr <;> rfl

theorem exact_plain (h : WHead) (first : Bool) (data : Bytes) (hpid : h.pid < 8192) (hc : h.cont < 16) (hl : data.length = 184) :
    Spec.exactPkt ([0x47, (if first then 0x40 else 0x00) ||| UInt8.ofNat (h.pid / 256), UInt8.ofNat h.pid] ++ [0x10 ||| UInt8.ofNat h.cont] ++ data) =
      some ⟨first, h.pid, h.cont, false, none, data⟩ := by
  have e1 := byte1 h.pid first hpid
  have e3 := (or16 ⟨h.cont, hc⟩).1
  dsimp only at e3
  simp only [List.cons_append, List.nil_append, Spec.exactPkt]
  generalize ((if first then (0x40 : UInt8) else 0x00) ||| UInt8.ofNat (h.pid / 256)) = a at e1
  generalize ((0x10 : UInt8) ||| UInt8.ofNat h.cont) = c at e3
  rw [if_pos ⟨by simp [hl], trivial, by rw [e1]; split <;> omega, by rw [e1]; split <;> omega, by omega⟩, if_pos (by omega)]
  congr 2
  · rw [e1]; cases first <;> simp <;> omega
  · rw [e1, ofNat_toNat]; cases first <;> simp <;> omega
  · omega

theorem exact_af (h : WHead) (first : Bool) (n : Nat) (data : Bytes) (hpid : h.pid < 8192) (hc : h.cont < 16) (hp : ∀ v, h.pcr = some v → v < 2 ^ 33 * 300)
    (hl : (adaptation h).length + n + data.length = 183) (hd : 0 < data.length) :
    Spec.exactPkt ([0x47, (if first then 0x40 else 0x00) ||| UInt8.ofNat (h.pid / 256), UInt8.ofNat h.pid] ++
        [0x10 ||| UInt8.ofNat h.cont ||| 0x20, UInt8.ofNat ((adaptation h).length + n)] ++ adaptation h ++ List.replicate n 0xff ++ data) =
      some ⟨first, h.pid, h.cont, h.rand, h.pcr, data⟩ := by
  have e1 := byte1 h.pid first hpid
  have e3 := (or16 ⟨h.cont, hc⟩).2
  dsimp only at e3
  have e4 : (UInt8.ofNat ((adaptation h).length + n)).toNat = (adaptation h).length + n := by rw [ofNat_toNat]; omega
  have ha := adaptation_read h n hp
  obtain ⟨af, haf⟩ : ∃ af, adaptation h ++ List.replicate n 0xff = af := ⟨_, rfl⟩
  have hn : (adaptation h).length + n = af.length := by rw [← haf]; simp
  rw [haf] at ha
  rw [show ([0x47, (if first then 0x40 else 0x00) ||| UInt8.ofNat (h.pid / 256), UInt8.ofNat h.pid] ++
        [0x10 ||| UInt8.ofNat h.cont ||| 0x20, UInt8.ofNat ((adaptation h).length + n)] ++ adaptation h ++ List.replicate n 0xff ++ data : Bytes) =
      0x47 :: ((if first then 0x40 else 0x00) ||| UInt8.ofNat (h.pid / 256)) :: UInt8.ofNat h.pid :: (0x10 ||| UInt8.ofNat h.cont ||| 0x20) ::
        UInt8.ofNat ((adaptation h).length + n) :: (af ++ data) by rw [← haf]; simp]
  rw [hn] at e4 hl ⊢
  generalize UInt8.ofNat af.length = l at e4
  simp only [Spec.exactPkt]
  generalize ((if first then (0x40 : UInt8) else 0x00) ||| UInt8.ofNat (h.pid / 256)) = a at e1
  generalize ((0x10 : UInt8) ||| UInt8.ofNat h.cont ||| 0x20) = c at e3
  rw [if_pos ⟨by simp; omega, trivial, by rw [e1]; split <;> omega, by rw [e1]; split <;> omega, by omega⟩, if_neg (by omega), if_pos (by omega), if_pos (by omega), e4,
    List.take_left, List.drop_left, ha]
  simp only [Option.map_some]
  congr 2
  · rw [e1]; cases first <;> simp <;> omega
  · rw [e1, ofNat_toNat]; cases first <;> simp <;> omega
  · omega

end Verif.TsIn
