import Verif.Multiport.Model
import Verif.Multiport.Spec
import Verif.Json.Mem
/-
Numbers and their texts; what the functions do to an address that can be read.
-/
namespace Verif.Multiport
open Url (Digits decimal)

theorem byte (P : UInt8 → Prop) (h : ∀ k : Fin 256, P (UInt8.ofNat k.val)) (b : UInt8) : P b := by
  have := h ⟨b.toNat, b.toNat_lt⟩
  simpa using this

theorem low_iff : ∀ b : UInt8, (low b = 117 ↔ b = 117 ∨ b = 85) ∧ (low b = 110 ↔ b = 110 ∨ b = 78) ∧ (low b = 105 ↔ b = 105 ∨ b = 73) ∧ (low b = 120 ↔ b = 120 ∨ b = 88) ∧ (low b = 58 ↔ b = 58) :=
  byte _ (by decide +kernel)

theorem unix_iff (t : Bytes) : (5 ≤ t.length ∧ (t.take 5).map low = [117, 110, 105, 120, 58]) ↔ Unix t := by
  constructor
  · rintro ⟨_, h⟩
    match t, h with
    | a :: b :: c :: d :: e :: p, h =>
      simp only [List.take_succ_cons, List.take_zero, List.map_cons, List.map_nil, List.cons.injEq, and_true] at h
      obtain ⟨h1, h2, h3, h4, h5⟩ := h
      have := (low_iff e).2.2.2.2.1 h5
      subst this
      exact ⟨a, b, c, d, p, rfl, (low_iff a).1.1 h1, (low_iff b).2.1.1 h2, (low_iff c).2.2.1.1 h3, (low_iff d).2.2.2.1.1 h4⟩
  · rintro ⟨a, b, c, d, p, rfl, h1, h2, h3, h4⟩
    refine ⟨by simp, ?_⟩
    simp only [List.take_succ_cons, List.take_zero, List.map_cons, List.map_nil]
    rw [(low_iff a).1.2 h1, (low_iff b).2.1.2 h2, (low_iff c).2.2.1.2 h3, (low_iff d).2.2.2.1.2 h4]
    rfl

theorem digit_toNat (d : Nat) (h : d < 10) : (UInt8.ofNat (48 + d)).toNat = 48 + d := by
  simp only [UInt8.toNat_ofNat']; omega

theorem digit_range (d : Nat) (h : d < 10) : 48 ≤ UInt8.ofNat (48 + d) ∧ UInt8.ofNat (48 + d) ≤ 57 := by
  rw [UInt8.le_iff_toNat_le, UInt8.le_iff_toNat_le, digit_toNat d h]
  exact ⟨by show 48 ≤ 48 + d; omega, by show 48 + d ≤ 57; omega⟩

theorem decGo_digits : ∀ f n, n < f → Digits (Json.decGo f n) ∧ decimal (Json.decGo f n) = n
  | 0, _, h => absurd h (Nat.not_lt_zero _)
  | f + 1, n, h => by
    rw [Json.decGo]
    split
    · rename_i hn
      refine ⟨⟨by simp, fun b hb => ?_⟩, ?_⟩
      · rw [List.mem_singleton.1 hb]; exact digit_range n hn
      · show 0 * 10 + ((UInt8.ofNat (48 + n)).toNat - 48) = n
        rw [digit_toNat n hn]; omega
    · rename_i hn
      obtain ⟨⟨_, h1⟩, h2⟩ := decGo_digits f (n / 10) (by omega)
      have hd : n % 10 < 10 := Nat.mod_lt _ (by omega)
      refine ⟨⟨by simp, fun b hb => ?_⟩, ?_⟩
      · rcases List.mem_append.1 hb with hb | hb
        · exact h1 b hb
        · rw [List.mem_singleton.1 hb]; exact digit_range _ hd
      · unfold decimal at h2 ⊢
        rw [List.foldl_append, h2]
        show n / 10 * 10 + ((UInt8.ofNat (48 + n % 10)).toNat - 48) = n
        rw [digit_toNat _ hd]; omega

theorem dec_digits (n : Nat) : Digits (Json.dec n) := (decGo_digits (n + 1) n (by omega)).1
theorem dec_value (n : Nat) : decimal (Json.dec n) = n := (decGo_digits (n + 1) n (by omega)).2

theorem decimal_lt : ∀ (ds : Bytes) (v : Nat), (∀ b ∈ ds, 48 ≤ b ∧ b ≤ 57) → ds.foldl (fun v b => v * 10 + (b.toNat - 48)) v < (v + 1) * 10 ^ ds.length
  | [], v, _ => by simp
  | b :: ds, v, h => by
    rw [List.foldl_cons]
    have h1 := decimal_lt ds (v * 10 + (b.toNat - 48)) (fun c hc => h c (List.mem_cons_of_mem _ hc))
    have h2 : b.toNat ≤ 57 := UInt8.le_iff_toNat_le.1 (h b (by simp)).2
    refine Nat.lt_of_lt_of_le h1 ?_
    rw [List.length_cons, Nat.pow_succ, Nat.mul_comm (10 ^ ds.length) 10, ← Nat.mul_assoc]
    exact Nat.mul_le_mul_right _ (by omega)

/-- Adding a slot makes the text at most two digits longer. -/
theorem dec_grow {ds : Bytes} (h : Digits ds) (slot : Nat) (hs : slot ≤ 127) : (Json.dec (decimal ds + slot)).length ≤ ds.length + 2 := by
  have h1 := decimal_lt ds 0 h.2
  have hl : 1 ≤ ds.length := List.length_pos_iff.2 h.1
  have hp : 10 ≤ 10 ^ ds.length := by
    calc 10 = 10 ^ 1 := rfl
      _ ≤ 10 ^ ds.length := Nat.pow_le_pow_right (by omega) hl
  refine Json.decGo_length (ds.length + 1) _ _ ?_
  have e : 10 ^ (ds.length + 1 + 1) = 10 ^ ds.length * 10 * 10 := by rw [Nat.pow_succ, Nat.pow_succ]
  rw [e]
  unfold decimal
  omega

theorem atoi_iff (ds : Bytes) (n : Nat) : Url.atoi ds = some n ↔ Digits ds ∧ decimal ds = n ∧ n ≤ Url.maxInt := by
  unfold Url.atoi
  by_cases h : ds = []
  · subst h; simp [Digits]
  · rw [if_neg h, Url.atoiLoop_spec ds 0 n (Nat.zero_le _)]
    exact ⟨fun ⟨a, b⟩ => ⟨⟨h, a⟩, b⟩, fun ⟨a, b⟩ => ⟨a.2, b⟩⟩

/-- What is done to the port -/
theorem shift_iff {mp addr ds t : Bytes} {slot : Nat} (hm : mp = addr ++ ds) (hs : slot ≤ 127) :
    shift mp addr ds slot = some (some t) ↔ Digits ds ∧ 1 ≤ decimal ds ∧ decimal ds + slot ≤ 65408 ∧ t = addr ++ Json.dec (decimal ds + slot) := by
  unfold shift
  have hM : (65408 : Nat) ≤ Url.maxInt := by decide
  cases ha : Url.atoi ds with
  | none =>
    constructor
    · intro h; cases h
    · rintro ⟨h1, h2, h3, _⟩
      rw [(atoi_iff ds (decimal ds)).2 ⟨h1, rfl, by omega⟩] at ha; cases ha
  | some n =>
    obtain ⟨h1, h2, h3⟩ := (atoi_iff ds n).1 ha
    subst h2
    dsimp only
    by_cases c1 : decimal ds < 1
    · rw [if_pos c1]
      exact ⟨fun h => (by cases h), fun h => absurd h.2.1 (by omega)⟩
    · rw [if_neg c1]
      by_cases c2 : Url.maxInt < decimal ds + slot
      · rw [if_pos c2]
        exact ⟨fun h => (by cases h), fun h => absurd h.2.2.1 (by omega)⟩
      · rw [if_neg c2]
        by_cases c3 : 65408 < decimal ds + slot
        · rw [if_pos c3]
          exact ⟨fun h => (by cases h), fun h => absurd h.2.2.1 (by omega)⟩
        · rw [if_neg c3]
          have : snprintf (mp.length + 3) (addr ++ Json.dec (decimal ds + slot)) = addr ++ Json.dec (decimal ds + slot) := by
            unfold snprintf
            refine List.take_of_length_le ?_
            have := dec_grow h1 slot hs
            rw [hm, List.length_append, List.length_append]; omega
          rw [this, Option.some.injEq, Option.some.injEq]
          exact ⟨fun h => ⟨h1, by omega, by omega, h.symm⟩, fun h => h.2.2.2.symm⟩

theorem colon_not_digit {ds : Bytes} (h : Digits ds) : (58 : UInt8) ∉ ds := by
  intro hm
  exact absurd (h.2 58 hm).2 (by decide)

theorem bracket_not_digit {ds : Bytes} (h : Digits ds) : ds.head? ≠ some 91 := by
  intro hm
  exact absurd (h.2 91 (List.mem_of_mem_head? hm)).2 (by decide)

/-- What stands before the port -/
def before : Option Bytes → Bytes
  | none => []
  | some h => h ++ [58]

/-- An address that can be read can be read in one way. -/
theorem reads_unique {t : Bytes} {h h' : Option Bytes} {n n' : Nat} (r : Reads t h n) (r' : Reads t h' n') : h = h' ∧ n = n' := by
  obtain ⟨ds, d, v, hm⟩ := r
  obtain ⟨ds', d', v', hm'⟩ := r'
  subst v; subst v'
  have key : ∀ {g : Bytes} {es fs : Bytes}, g ++ 58 :: es = fs → Digits fs → False := by
    intro g es fs e d
    exact colon_not_digit d (e ▸ by simp)
  have key2 : ∀ {g g' es es' : Bytes}, Digits es → Digits es' → g ++ 58 :: es = g' ++ 58 :: es' → g = g' ∧ es = es' := by
    intro g g' es es' d d' e
    have e2 := congrArg List.reverse e
    simp only [List.reverse_append, List.reverse_cons, List.append_assoc, List.singleton_append] at e2
    have n1 : (58 : UInt8) ∉ es.reverse := fun h => colon_not_digit d (List.mem_reverse.1 h)
    have n2 : (58 : UInt8) ∉ es'.reverse := fun h => colon_not_digit d' (List.mem_reverse.1 h)
    have a1 : Url.strlchr 58 (es.reverse ++ 58 :: g.reverse) = some (es.reverse, g.reverse) := Url.strlchr_some.2 ⟨n1, rfl⟩
    have a2 : Url.strlchr 58 (es'.reverse ++ 58 :: g'.reverse) = some (es'.reverse, g'.reverse) := Url.strlchr_some.2 ⟨n2, rfl⟩
    rw [e2, a2] at a1
    injection a1 with a1
    injection a1 with b1 b2
    exact ⟨(List.reverse_inj.1 b2).symm, (List.reverse_inj.1 b1).symm⟩
  cases h with
  | none =>
    cases h' with
    | none =>
      have hm : t = ds := hm
      have hm' : t = ds' := hm'
      subst hm; subst hm'; exact ⟨rfl, rfl⟩
    | some g => exact absurd (key (hm'.2.symm.trans hm) d) id
  | some g =>
    cases h' with
    | none => exact absurd (key (hm.2.symm.trans hm') d') id
    | some g' =>
      obtain ⟨e1, e2⟩ := key2 d d' (hm.2.symm.trans hm'.2)
      rw [e1, e2]; exact ⟨rfl, rfl⟩

/-- The port of an address that is not a path -/
theorem getPort_iff {mp t : Bytes} {slot : Nat} (hu : ¬ Unix mp) (hs : slot ≤ 127) :
    getPort mp slot = some (some t) ↔ ∃ h n, Reads mp h n ∧ 1 ≤ n ∧ n + slot ≤ 65408 ∧ t = before h ++ Json.dec (n + slot) := by
  unfold getPort
  rw [if_neg (by omega), if_neg (fun h => hu ((unix_iff mp).1 h))]
  have hn : ((slot : Int)).toNat = slot := by simp
  rw [hn]
  by_cases hb : mp.head? = some 91
  · rw [if_pos hb]
    unfold inet6Port
    constructor
    · intro he
      split at he
      · cases he
      · cases he
      · rename_i a c ds hc
        split at he
        · rename_i hcc
          subst hcc
          obtain ⟨h1, h2⟩ := Url.strlchr_some.1 hc
          have hm : mp = (a ++ [93, 58]) ++ ds := by rw [h2]; simp
          obtain ⟨k1, k2, k3, k4⟩ := (shift_iff hm hs).1 he
          cases a with
          | nil => rw [h2] at hb; exact absurd hb (by simp)
          | cons x a =>
            rw [h2] at hb
            have hx : x = 91 := by simpa using hb
            subst hx
            refine ⟨some (91 :: a ++ [93]), decimal ds, ⟨ds, k1, rfl, Or.inr ⟨a, rfl, fun h => h1 (List.mem_cons_of_mem _ h)⟩, by rw [h2]; simp⟩, k2, k3, ?_⟩
            rw [k4]; simp [before]
        · cases he
    · rintro ⟨h, n, ⟨ds, d, v, hm⟩, h1, h2, h3⟩
      subst v
      cases h with
      | none =>
        have hm : mp = ds := hm
        rw [hm] at hb
        exact absurd hb (bracket_not_digit d)
      | some g =>
        obtain ⟨hh, hm⟩ := hm
        rcases hh with hh | ⟨a, rfl, ha⟩
        · exfalso
          cases g with
          | nil => rw [hm] at hb; exact absurd hb (by simp)
          | cons x g => rw [hm] at hb; exact hh.2 (by simpa using hb)
        · have hm2 : mp = (91 :: a) ++ 93 :: (58 :: ds) := by rw [hm]; simp
          have hc := Url.strlchr_some.2 ⟨show (93 : UInt8) ∉ 91 :: a by simpa using ha, hm2⟩
          rw [hc]
          dsimp only
          rw [if_pos rfl, shift_iff (by rw [hm2]; simp) hs]
          exact ⟨d, h1, h2, by rw [h3]; simp [before]⟩
  · rw [if_neg hb]
    unfold inetPort
    constructor
    · intro he
      split at he
      · rename_i hc
        obtain ⟨k1, k2, k3, k4⟩ := (shift_iff (List.nil_append mp).symm hs).1 he
        exact ⟨none, decimal mp, ⟨mp, k1, rfl, rfl⟩, k2, k3, k4⟩
      · rename_i a ds hc
        split at he
        · cases he
        · obtain ⟨h1, h2⟩ := Url.strlchr_some.1 hc
          obtain ⟨k1, k2, k3, k4⟩ := (shift_iff (by rw [h2]; simp) hs).1 he
          refine ⟨some a, decimal ds, ⟨ds, k1, rfl, Or.inl ⟨h1, fun h => hb ?_⟩, h2⟩, k2, k3, k4⟩
          rw [h2]
          cases a with
          | nil => cases h
          | cons x a => simpa using h
    · rintro ⟨h, n, ⟨ds, d, v, hm⟩, h1, h2, h3⟩
      subst v
      cases h with
      | none =>
        have hm : mp = ds := hm
        subst hm
        rw [Url.strlchr_none.2 (colon_not_digit d)]
        exact (shift_iff (List.nil_append mp).symm hs).2 ⟨d, h1, h2, h3⟩
      | some g =>
        obtain ⟨hh, hm⟩ := hm
        rcases hh with hh | ⟨a, rfl, ha⟩
        · rw [Url.strlchr_some.2 ⟨hh.1, hm⟩]
          dsimp only
          rw [if_neg d.1, shift_iff (by rw [hm]; simp) hs]
          exact ⟨d, h1, h2, h3⟩
        · exact absurd (by rw [hm]; simp) hb

theorem reads_before {mp : Bytes} {h : Option Bytes} {n : Nat} (r : Reads mp h n) (m : Nat) : Reads (before h ++ Json.dec m) h m := by
  obtain ⟨ds, d, v, hm⟩ := r
  refine ⟨Json.dec m, dec_digits m, dec_value m, ?_⟩
  cases h with
  | none => rfl
  | some g => exact ⟨hm.1, by simp [before]⟩

end Verif.Multiport
