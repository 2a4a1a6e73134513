import Verif.Json.Model
/-
The text that printing comes to, and that the reader reads it. Helper lemmas.
-/
namespace Verif.Json

def escOf (b : UInt8) : Bytes :=
  if 31 < b ∧ b ≠ 0x22 ∧ b ≠ 0x5c then [b] else match short b with
    | some c => [0x5c, c]
    | none => 0x5c :: uText b

def strText (s : Bytes) : Bytes := 0x22 :: (cstr s).flatMap escOf ++ [0x22]

def sep (fmt : Bool) (last : Bool) : Bytes := if last then [] else if fmt then [0x2c, 0x20] else [0x2c]

def open' (fmt : Bool) : Bytes := if fmt then [0x7b, 0x0a] else [0x7b]
def colon (fmt : Bool) : Bytes := if fmt then [0x3a, 0x09] else [0x3a]
def ind (fmt : Bool) (d : Nat) : Bytes := if fmt then tabs d else []
def endl (fmt last : Bool) : Bytes := (if last then [] else [0x2c]) ++ (if fmt then [0x0a] else [])

mutual
def text (big : Int → Bytes) (fmt : Bool) (d : Nat) : Val → Bytes
  | .null => nullW
  | .bool true => trueW
  | .bool false => falseW
  | .num n => numText big n
  | .str s => strText s
  | .arr l => 0x5b :: textItems big fmt (d + 1) l ++ [0x5d]
  | .obj l => open' fmt ++ textMembers big fmt (d + 1) l ++ ind fmt d ++ [0x7d]

def textItems (big : Int → Bytes) (fmt : Bool) (d : Nat) : List Val → Bytes
  | [] => []
  | v :: l => text big fmt d v ++ sep fmt l.isEmpty ++ textItems big fmt d l

def textMembers (big : Int → Bytes) (fmt : Bool) (d : Nat) : List (Bytes × Val) → Bytes
  | [] => []
  | (k, v) :: l => ind fmt d ++ strText k ++ colon fmt ++ text big fmt d v ++ endl fmt l.isEmpty ++ textMembers big fmt d l
end

mutual
/-- Strings have no zeros, numbers are of fifteen digits at most. -/
def Plain : Val → Bool
  | .null => true
  | .bool _ => true
  | .num n => decide (n.natAbs < 10 ^ 15)
  | .str s => !s.contains 0
  | .arr l => PlainItems l
  | .obj l => PlainMembers l

def PlainItems : List Val → Bool
  | [] => true
  | v :: l => Plain v && PlainItems l

def PlainMembers : List (Bytes × Val) → Bool
  | [] => true
  | (k, v) :: l => !k.contains 0 && Plain v && PlainMembers l
end

mutual
def need : Val → Nat
  | .arr l => 1 + needItems l
  | .obj l => 1 + needMembers l
  | _ => 1

def needItems : List Val → Nat
  | [] => 0
  | v :: l => 1 + max (need v) (needItems l)

def needMembers : List (Bytes × Val) → Nat
  | [] => 0
  | (_, v) :: l => 1 + max (need v) (needMembers l)
end

theorem byteAll {P : UInt8 → Bool} (h : ((List.range 256).all fun n => P (UInt8.ofNat n)) = true) (b : UInt8) : P b = true := by
  have := List.all_eq_true.1 h b.toNat (List.mem_range.2 (UInt8.toNat_lt b))
  simpa using this

/-! Strings -/

theorem cstr_plain {s : Bytes} (h : s.contains 0 = false) : cstr s = s := by
  unfold cstr
  induction s with
  | nil => rfl
  | cons b s ih =>
    simp only [List.contains_cons, Bool.or_eq_false_iff] at h
    have hb : (b != 0) = true := by
      have h1 := h.1
      simp only [beq_eq_false_iff_ne, ne_eq] at h1
      simpa using fun h => h1 h.symm
    rw [List.takeWhile_cons, if_pos hb, ih h.2]

theorem cstr_nonzero (s : Bytes) : ∀ b ∈ cstr s, b ≠ 0 := by
  intro b hb
  have : (cstr s).all (· != 0) = true := List.all_takeWhile
  simpa using List.all_eq_true.1 this b hb

theorem short_facts (b : UInt8) : (match short b with
    | some c => decide (unescape c = some b ∧ c ≠ 0x75 ∧ c ≠ 0 ∧ (b ≤ 31 ∨ b = 0x22 ∨ b = 0x5c))
    | none => decide (b ≠ 0x22 ∧ b ≠ 0x5c ∧ (b ≤ 31 → hexVal (hexDigit (b.toNat / 16)) = some (b.toNat / 16) ∧ hexVal (hexDigit (b.toNat % 16)) = some (b.toNat % 16) ∧
        hexDigit (b.toNat / 16) ≠ 0 ∧ hexDigit (b.toNat % 16) ≠ 0))) = true := by
  refine byteAll (P := fun b => (match short b with
    | some c => decide (unescape c = some b ∧ c ≠ 0x75 ∧ c ≠ 0 ∧ (b ≤ 31 ∨ b = 0x22 ∨ b = 0x5c))
    | none => decide (b ≠ 0x22 ∧ b ≠ 0x5c ∧ (b ≤ 31 → hexVal (hexDigit (b.toNat / 16)) = some (b.toNat / 16) ∧ hexVal (hexDigit (b.toNat % 16)) = some (b.toNat % 16) ∧
        hexDigit (b.toNat / 16) ≠ 0 ∧ hexDigit (b.toNat % 16) ≠ 0)))) ?_ b
  decide +kernel

theorem readStr_esc (b : UInt8) (X : Bytes) : readStr (escOf b ++ X) = (readStr X).map fun y => (b :: y.1, y.2) := by
  unfold escOf
  by_cases h : 31 < b ∧ b ≠ 0x22 ∧ b ≠ 0x5c
  · rw [if_pos h]
    obtain ⟨h1, h2, h3⟩ := h
    have h4 : ¬ b < 0x20 := by
      rw [UInt8.lt_iff_toNat_lt] at h1 ⊢
      have : (31 : UInt8).toNat = 31 := rfl
      have : (0x20 : UInt8).toNat = 32 := rfl
      omega
    rw [List.cons_append, List.nil_append, readStr.eq_def]
    simp only [if_neg h2, if_neg h3, if_neg h4]
  · rw [if_neg h]
    have hf := short_facts b
    cases hs : short b with
    | some c =>
      rw [hs] at hf
      obtain ⟨h1, h2, -, -⟩ := of_decide_eq_true hf
      simp only [List.cons_append, List.nil_append]
      rw [readStr.eq_def]
      simp only [reduceIte, show ¬ ((0x5c : UInt8) = 0x22) from by decide]
      split
      · exact absurd (by assumption) (by simp [h2])
      · rename_i heq
        rw [List.cons_eq_cons] at heq
        rw [← heq.1, ← heq.2, h1]
        rfl
      · exact absurd (by assumption) (by simp)
    | none =>
      rw [hs] at hf
      obtain ⟨h1, h2, h3⟩ := of_decide_eq_true hf
      have hb : b ≤ 31 := by
        rw [UInt8.le_iff_toNat_le]
        by_cases h31 : 31 < b
        · exact absurd ⟨h31, h1, h2⟩ h
        · rw [UInt8.lt_iff_toNat_lt] at h31
          omega
      obtain ⟨h4, h5, -, -⟩ := h3 hb
      have hn : b.toNat ≤ 31 := by simpa [UInt8.le_iff_toNat_le] using hb
      have h0 : hexVal 0x30 = some 0 := by decide
      simp only [uText, List.cons_append, List.nil_append]
      rw [readStr.eq_def]
      simp only [reduceIte, h4, h5, h0, Option.bind_some, show ¬ ((0x5c : UInt8) = 0x22) from by decide]
      have e : ((0 * 16 + 0) * 16 + b.toNat / 16) * 16 + b.toNat % 16 = b.toNat := by omega
      rw [e, if_neg (by omega)]
      have eu : utf8 b.toNat = [b] := by
        unfold utf8
        rw [if_pos (by omega)]
        simp
      rw [eu]
      rfl

theorem readStr_text (s r : Bytes) : readStr (s.flatMap escOf ++ 0x22 :: r) = some (s, r) := by
  induction s with
  | nil => rw [List.flatMap_nil, List.nil_append, readStr.eq_def]; rfl
  | cons b s ih => rw [List.flatMap_cons, List.append_assoc, readStr_esc, ih]; rfl

/-! Numbers -/

def Stop (r : Bytes) : Prop := (∀ b, r.head? = some b → digit b = none) ∧ whole r = true

theorem readDigits_stop {r : Bytes} (h : Stop r) (n : Nat) : readDigits n r = (n, r) := by
  cases r with
  | nil => rfl
  | cons b r => rw [readDigits, h.1 b rfl]

theorem digit_of {n : Nat} (h : n < 10) : digit (UInt8.ofNat (48 + n)) = some n := by
  have : (UInt8.ofNat (48 + n)).toNat = 48 + n := by
    rw [UInt8.toNat_ofNat']; omega
  unfold digit
  rw [this, if_pos (by omega)]
  congr 1
  omega

theorem decGo_read : ∀ (f n : Nat), n < f → n ≠ 0 → ∃ b t d, decGo f n = b :: t ∧ digit b = some d ∧ d ≠ 0 ∧ ∀ r, readDigits d (t ++ r) = readDigits n r
  | 0, _, h, _ => absurd h (by omega)
  | f + 1, n, h, h0 => by
    unfold decGo
    by_cases hn : n < 10
    · rw [if_pos hn]
      exact ⟨_, [], n, rfl, digit_of hn, h0, fun _ => rfl⟩
    · rw [if_neg hn]
      obtain ⟨b, t, d, e, hb, hd, hr⟩ := decGo_read f (n / 10) (by omega) (by omega)
      refine ⟨b, t ++ [UInt8.ofNat (48 + n % 10)], d, by rw [e]; rfl, hb, hd, fun r => ?_⟩
      rw [List.append_assoc, hr, List.cons_append, List.nil_append, readDigits, digit_of (by omega)]
      show readDigits (n / 10 * 10 + n % 10) r = _
      congr 1
      omega

theorem dec_zero : dec 0 = [0x30] := rfl

theorem readInt_dec (n : Nat) {r : Bytes} (h : Stop r) : readInt (dec n ++ r) = some (n, r) := by
  by_cases h0 : n = 0
  · subst h0
    rw [dec_zero]
    rw [List.cons_append, List.nil_append, readInt.eq_def]
    simp only [show digit 0x30 = some 0 from rfl, Option.bind_some, if_true]
    cases r with
    | nil => rfl
    | cons b r => simp [h.1 b rfl]
  · obtain ⟨b, t, d, e, hb, hd, hr⟩ := decGo_read (n + 1) n (by omega) h0
    unfold dec
    rw [e, List.cons_append, readInt.eq_def]
    simp only [hb, Option.bind_some, if_neg hd, hr, readDigits_stop h]

theorem dec_head (n : Nat) : ∃ b t d, dec n = b :: t ∧ digit b = some d := by
  by_cases h0 : n = 0
  · exact ⟨0x30, [], 0, by rw [h0]; rfl, rfl⟩
  · obtain ⟨b, t, d, e, hb, -, -⟩ := decGo_read (n + 1) n (by omega) h0
    exact ⟨b, t, d, e, hb⟩

theorem numHead (b : UInt8) (h : (digit b).isSome = true ∨ b = 0x2d) : isWs b = false ∧ b ≠ 0x22 ∧ b ≠ 0x5b ∧ b ≠ 0x7b ∧ b ≠ 0x6e ∧ b ≠ 0x74 ∧ b ≠ 0x66 := by
  have := byteAll (P := fun b => decide (((digit b).isSome = true ∨ b = 0x2d) → isWs b = false ∧ b ≠ 0x22 ∧ b ≠ 0x5b ∧ b ≠ 0x7b ∧ b ≠ 0x6e ∧ b ≠ 0x74 ∧ b ≠ 0x66)) (by decide +kernel) b
  exact of_decide_eq_true this h

theorem digit_minus (b : UInt8) (h : (digit b).isSome = true) : b ≠ 0x2d := by
  rintro rfl
  exact absurd h (by decide)

theorem readNum_text (big : Int → Bytes) {n : Int} (hn : n.natAbs < 10 ^ 15) {r : Bytes} (h : Stop r) : readNum (numText big n ++ r) = some (n, r) := by
  unfold numText
  rw [if_pos hn]
  by_cases h0 : n < 0
  · rw [if_pos h0]
    simp only [List.cons_append, readNum, readInt_dec _ h, Option.bind_some, h.2, if_true]
    congr 2
    omega
  · rw [if_neg h0]
    obtain ⟨b, t, d, e, hb⟩ := dec_head n.natAbs
    have hm := digit_minus b (by rw [hb]; rfl)
    unfold readNum
    split
    · rename_i heq
      rw [e, List.cons_append, List.cons_eq_cons] at heq
      exact absurd heq.1 hm
    · rw [readInt_dec _ h]
      simp only [Option.bind_some, h.2, if_true]
      congr 2
      omega

theorem numText_head (big : Int → Bytes) {n : Int} (hn : n.natAbs < 10 ^ 15) : ∃ b t, numText big n = b :: t ∧ ((digit b).isSome = true ∨ b = 0x2d) := by
  unfold numText
  rw [if_pos hn]
  by_cases h0 : n < 0
  · rw [if_pos h0]; exact ⟨_, _, rfl, .inr rfl⟩
  · rw [if_neg h0]
    obtain ⟨b, t, d, e, hb⟩ := dec_head n.natAbs
    exact ⟨b, t, e, .inl (by rw [hb]; rfl)⟩

/-! Values -/

theorem skip_ws {b : UInt8} (h : isWs b = true) (l : Bytes) : skip (b :: l) = skip l := by simp [skip, h]
theorem skip_no {b : UInt8} (h : isWs b = false) (l : Bytes) : skip (b :: l) = b :: l := by simp [skip, h]

theorem skip_all : ∀ (w l : Bytes), (∀ b ∈ w, isWs b = true) → skip (w ++ l) = skip l
  | [], _, _ => rfl
  | b :: w, l, h => by
    rw [List.cons_append, skip_ws (h b (by simp)), skip_all w l fun c hc => h c (by simp [hc])]

theorem readVal_skip (n : Nat) {l m : Bytes} (h : skip l = skip m) : readVal n l = readVal n m := by
  cases n with
  | zero => rfl
  | succ n => rw [readVal, readVal, h]

theorem readMembers_skip (n : Nat) {l m : Bytes} (h : skip l = skip m) : readMembers n l = readMembers n m := by
  cases n with
  | zero => rfl
  | succ n => rw [readMembers, readMembers, h]

theorem readItems_skip (n : Nat) {l m : Bytes} (h : skip l = skip m) : readItems n l = readItems n m := by
  cases n with
  | zero => rfl
  | succ n => rw [readItems, readItems, readVal_skip n h]

theorem ind_ws (fmt : Bool) (d : Nat) : ∀ b ∈ ind fmt d, isWs b = true := by
  intro b hb
  unfold ind tabs at hb
  split at hb
  · rw [List.eq_of_mem_replicate hb]; rfl
  · cases hb

theorem stop_cons {b : UInt8} (h : digit b = none) (h2 : whole [b] = true) (r : Bytes) : Stop (b :: r) := by
  refine ⟨fun c hc => ?_, h2⟩
  simp only [List.head?_cons, Option.some.injEq] at hc
  rw [← hc, h]

/-- The first byte of a value: not whitespace, not an end -/
theorem text_head (big : Int → Bytes) (fmt : Bool) (d : Nat) (v : Val) (h : Plain v = true) : ∃ b t, text big fmt d v = b :: t ∧ isWs b = false ∧ b ≠ 0x5d ∧ b ≠ 0x7d := by
  cases v with
  | null => exact ⟨_, _, rfl, by decide⟩
  | bool b => cases b <;> exact ⟨_, _, rfl, by decide⟩
  | num n =>
    obtain ⟨b, t, e, hb⟩ := numText_head big (of_decide_eq_true h)
    refine ⟨b, t, by rw [text, e], (numHead b hb).1, ?_, ?_⟩ <;>
    · rintro rfl; revert hb; decide
  | str s => exact ⟨_, _, rfl, by decide⟩
  | arr l => exact ⟨0x5b, _, by rw [text]; rfl, by decide⟩
  | obj l => cases fmt <;> exact ⟨0x7b, _, by rw [text]; rfl, by decide⟩

mutual
theorem readVal_text (big : Int → Bytes) (fmt : Bool) : ∀ (v : Val), Plain v = true → ∀ (n d : Nat) (r : Bytes), need v ≤ n → Stop r →
    readVal n (text big fmt d v ++ r) = some (v, r)
  | .null, _, n + 1, d, r, _, _ => by simp [readVal, text, nullW, skip, isWs, word]
  | .bool true, _, n + 1, d, r, _, _ => by simp [readVal, text, trueW, skip, isWs, word]
  | .bool false, _, n + 1, d, r, _, _ => by simp [readVal, text, falseW, skip, isWs, word]
  | .num x, h, n + 1, d, r, _, hs => by
    have hx := of_decide_eq_true h
    obtain ⟨b, t, e, hb⟩ := numText_head big hx
    obtain ⟨h1, h2, h3, h4, h5, h6, h7⟩ := numHead b hb
    have hr := readNum_text big hx hs
    rw [text]
    rw [e, List.cons_append] at hr ⊢
    rw [readVal, skip_no h1]
    simp only [h2, h3, h4, h5, h6, h7, if_false, hr]
    rfl
  | .str s, h, n + 1, d, r, _, _ => by
    have hc := cstr_plain (s := s) (by simpa [Plain] using h)
    rw [text, strText, hc, List.cons_append, List.cons_append, List.append_assoc, readVal, skip_no (by decide)]
    simp only [if_true, List.cons_append, List.nil_append, readStr_text]
    rfl
  | .arr l, _, 0, _, _, hn, _ => absurd hn (by rw [need]; omega)
  | .obj l, _, 0, _, _, hn, _ => absurd hn (by rw [need]; omega)
  | .arr l, h, n + 1, d, r, hn, _ => by
    rw [need] at hn
    rw [text, List.cons_append, List.cons_append, List.append_assoc, readVal, skip_no (by decide)]
    simp only [show ¬ ((0x5b : UInt8) = 0x22) from by decide, if_false, if_true]
    cases l with
    | nil =>
      rw [textItems]
      simp only [List.nil_append, List.cons_append, skip_no (show isWs 0x5d = false from rfl), List.head?_cons, List.tail_cons, if_true]
    | cons v l =>
      rw [Plain] at h
      have hi := readItems_text big fmt (v :: l) h (by simp) n (d + 1) r (by omega)
      rw [List.cons_append, List.nil_append, if_neg, hi]
      · rfl
      · rw [PlainItems, Bool.and_eq_true] at h
        obtain ⟨b, t, e, h1, h2, h3⟩ := text_head big fmt (d + 1) v h.1
        rw [textItems, e]
        simp only [List.cons_append, skip_no h1, List.head?_cons]
        simpa using h2
  | .obj l, h, n + 1, d, r, hn, _ => by
    rw [need] at hn
    have hsk : ∀ X, skip (open' fmt ++ X) = 0x7b :: ((if fmt then [0x0a] else []) ++ X) := by
      intro X
      cases fmt <;> exact skip_no (by decide) _
    have hws : ∀ X, skip ((if fmt then [0x0a] else []) ++ X) = skip X := by
      intro X
      cases fmt
      · rfl
      · exact skip_ws (by decide) _
    rw [text, List.append_assoc, List.append_assoc, List.append_assoc, readVal, hsk]
    simp only [show ¬ ((0x7b : UInt8) = 0x22) from by decide, show ¬ ((0x7b : UInt8) = 0x5b) from by decide, if_false, if_true]
    rw [readMembers_skip n (hws _), hws]
    cases l with
    | nil =>
      rw [textMembers, List.nil_append, skip_all _ _ (ind_ws fmt d)]
      simp only [List.nil_append, List.cons_append, skip_no (show isWs 0x7d = false from rfl), List.head?_cons, List.tail_cons, if_true]
    | cons kv l =>
      rw [Plain] at h
      have hi := readMembers_text big fmt (kv :: l) h (by simp) n (d + 1) (ind fmt d) r (ind_ws fmt d) (by omega)
      rw [List.cons_append, List.nil_append, if_neg, hi]
      · rfl
      · obtain ⟨k, v⟩ := kv
        simp only [textMembers, strText, List.append_assoc, List.cons_append]
        rw [skip_all _ _ (ind_ws fmt _), skip_no (by decide)]
        simp

theorem readItems_text (big : Int → Bytes) (fmt : Bool) : ∀ (l : List Val), PlainItems l = true → l ≠ [] → ∀ (n d : Nat) (r : Bytes), needItems l ≤ n →
    readItems n (textItems big fmt d l ++ 0x5d :: r) = some (l, r)
  | v :: l, h, _, 0, d, r, hn => absurd hn (by rw [needItems]; omega)
  | v :: l, h, _, n + 1, d, r, hn => by
    rw [needItems] at hn
    rw [PlainItems, Bool.and_eq_true] at h
    rw [readItems, textItems, List.append_assoc, List.append_assoc]
    cases l with
    | nil =>
      rw [readVal_text big fmt v h.1 n d _ (by omega)]
      · simp [sep, textItems, skip_no (show isWs 0x5d = false from rfl)]
      · exact stop_cons (by decide) (by decide) r
    | cons w l =>
      have e : ∃ x, sep fmt (w :: l).isEmpty = 0x2c :: x ∧ ∀ b ∈ x, isWs b = true := by
        cases fmt
        · exact ⟨[], rfl, by simp⟩
        · exact ⟨[0x20], rfl, by simp [isWs]⟩
      obtain ⟨x, e, hx⟩ := e
      rw [e, List.cons_append, readVal_text big fmt v h.1 n d _ (by omega)]
      · simp only [Option.bind_some, skip_no (show isWs 0x2c = false from rfl), if_true]
        rw [readItems_skip n (skip_all x _ hx), readItems_text big fmt (w :: l) h.2 (by simp) n d r (by omega)]
        rfl
      · exact stop_cons (by decide) (by decide) _

theorem readMembers_text (big : Int → Bytes) (fmt : Bool) : ∀ (l : List (Bytes × Val)), PlainMembers l = true → l ≠ [] → ∀ (n d : Nat) (w r : Bytes), (∀ b ∈ w, isWs b = true) →
    needMembers l ≤ n → readMembers n (textMembers big fmt d l ++ (w ++ 0x7d :: r)) = some (l, r)
  | (k, v) :: l, h, _, 0, d, w, r, _, hn => absurd hn (by rw [needMembers]; omega)
  | (k, v) :: l, h, _, n + 1, d, w, r, hw, hn => by
    rw [needMembers] at hn
    rw [PlainMembers, Bool.and_eq_true, Bool.and_eq_true] at h
    have hc := cstr_plain (s := k) (by simpa using h.1.1)
    have hcol : ∀ X, skip (colon fmt ++ X) = 0x3a :: ((if fmt then [0x09] else []) ++ X) := by
      intro X
      cases fmt <;> exact skip_no (by decide) _
    have hws : ∀ X, skip ((if fmt then [0x09] else []) ++ X) = skip X := by
      intro X
      cases fmt
      · rfl
      · exact skip_ws (by decide) _
    simp only [readMembers, textMembers, strText, hc, List.append_assoc, List.cons_append]
    rw [skip_all _ _ (ind_ws fmt d), skip_no (by decide)]
    simp only [ne_eq, not_true_eq_false, if_false, List.nil_append, readStr_text, Option.bind_some, hcol]
    rw [readVal_skip n (hws _)]
    cases l with
    | nil =>
      have e : ∀ b ∈ endl fmt ([] : List (Bytes × Val)).isEmpty, isWs b = true := by cases fmt <;> simp [endl, isWs]
      have hst : Stop (endl fmt ([] : List (Bytes × Val)).isEmpty ++ (w ++ 0x7d :: r)) := by
        cases fmt
        · cases w with
          | nil => exact stop_cons (by decide) (by decide) _
          | cons b w =>
            have hb := hw b (by simp)
            have := byteAll (P := fun b => decide (isWs b = true → digit b = none ∧ whole [b] = true)) (by decide +kernel) b
            obtain ⟨h1, h2⟩ := of_decide_eq_true this hb
            exact stop_cons h1 h2 _
        · exact stop_cons (by decide) (by decide) _
      rw [textMembers, List.nil_append, readVal_text big fmt v h.1.2 n d _ (by omega) hst]
      simp only [Option.bind_some]
      rw [skip_all _ _ e, skip_all _ _ hw, skip_no (by decide)]
      simp
    | cons kv l =>
      have e : ∃ x, endl fmt (kv :: l).isEmpty = 0x2c :: x ∧ ∀ b ∈ x, isWs b = true := by
        cases fmt
        · exact ⟨[], rfl, by simp⟩
        · exact ⟨[0x0a], rfl, by simp [isWs]⟩
      obtain ⟨x, e, hx⟩ := e
      rw [e, List.cons_append, readVal_text big fmt v h.1.2 n d _ (by omega)]
      · simp only [Option.bind_some, skip_no (show isWs 0x2c = false from rfl), if_true]
        rw [readMembers_skip n (skip_all x _ hx), readMembers_text big fmt (kv :: l) h.2 (by simp) n d w r hw (by omega)]
        rfl
      · exact stop_cons (by decide) (by decide) _
end

mutual
theorem need_le (big : Int → Bytes) (fmt : Bool) : ∀ (v : Val) (d : Nat), Plain v = true → need v ≤ (text big fmt d v).length
  | .null, _, _ => by simp [need, text, nullW]
  | .bool true, _, _ => by simp [need, text, trueW]
  | .bool false, _, _ => by simp [need, text, falseW]
  | .num n, _, h => by
    obtain ⟨b, t, e, -⟩ := numText_head big (n := n) (of_decide_eq_true h)
    simp [need, text, e]
  | .str s, _, _ => by simp [need, text, strText]
  | .arr l, d, h => by
    rw [Plain] at h
    have := needItems_le big fmt l (d + 1) h
    simp only [need, text, List.length_append, List.length_cons, List.length_nil]
    omega
  | .obj l, d, h => by
    rw [Plain] at h
    have := needMembers_le big fmt l (d + 1) h
    have : 1 ≤ (open' fmt).length := by cases fmt <;> simp [open']
    simp only [need, text, List.length_append, List.length_cons, List.length_nil]
    omega

theorem needItems_le (big : Int → Bytes) (fmt : Bool) : ∀ (l : List Val) (d : Nat), PlainItems l = true → needItems l ≤ (textItems big fmt d l).length + 1
  | [], _, _ => by simp [needItems]
  | v :: l, d, h => by
    rw [PlainItems, Bool.and_eq_true] at h
    have h1 := need_le big fmt v d h.1
    have h2 := needItems_le big fmt l d h.2
    have h3 : 1 ≤ (text big fmt d v).length := by
      obtain ⟨b, t, e, -⟩ := text_head big fmt d v h.1
      rw [e]; simp
    simp only [needItems, textItems, List.length_append]
    omega

theorem needMembers_le (big : Int → Bytes) (fmt : Bool) : ∀ (l : List (Bytes × Val)) (d : Nat), PlainMembers l = true → needMembers l ≤ (textMembers big fmt d l).length + 1
  | [], _, _ => by simp [needMembers]
  | (k, v) :: l, d, h => by
    rw [PlainMembers, Bool.and_eq_true, Bool.and_eq_true] at h
    have h1 := need_le big fmt v d h.1.2
    have h2 := needMembers_le big fmt l d h.2
    simp only [needMembers, textMembers, strText, List.length_append, List.length_cons]
    omega
end

theorem read_text (big : Int → Bytes) (fmt : Bool) {v : Val} (h : Plain v = true) : read (text big fmt 0 v) = some v := by
  have h1 := need_le big fmt v 0 h
  have h2 := readVal_text big fmt v h ((text big fmt 0 v).length + 1) 0 [] (by omega) ⟨by simp, rfl⟩
  rw [List.append_nil] at h2
  rw [read, h2]
  rfl

end Verif.Json
