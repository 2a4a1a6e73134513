import Verif.Json.Mem
/-
C80: what cJSON prints stays in its buffer, and a JSON reader reads it as what was to be printed.
-/
namespace Verif.Json

mutual
/-- A bound of how long a text can be: six bytes for each byte of a string, and tabulators -/
def weight (d : Nat) : Val → Nat
  | .str s => 6 * s.length + 2
  | .arr l => weightItems (d + 1) l + 2
  | .obj l => weightMembers (d + 1) l + d + 3
  | _ => 25

def weightItems (d : Nat) : List Val → Nat
  | [] => 0
  | v :: l => weight d v + 2 + weightItems d l

def weightMembers (d : Nat) : List (Bytes × Val) → Nat
  | [] => 0
  | (k, v) :: l => (d + (6 * k.length + 2) + 2 + weight d v + 2) + weightMembers d l
end

theorem extra_le (b : UInt8) : extra b ≤ 5 := by
  unfold extra
  split
  · omega
  · split <;> omega

theorem flat_le : ∀ (s : Bytes), (s.flatMap escOf).length ≤ 6 * s.length
  | [] => Nat.le_refl _
  | b :: s => by
    have := flat_le s
    have := extra_le b
    rw [List.flatMap_cons, List.length_append, extra_esc, List.length_cons]
    omega

theorem strText_le (s : Bytes) : (strText s).length ≤ 6 * s.length + 2 := by
  have h1 := flat_le (cstr s)
  have h2 : (cstr s).length ≤ s.length := (List.takeWhile_prefix _).length_le
  simp only [strText, List.length_append, List.length_cons, List.length_nil]
  omega

mutual
theorem text_le {big : Int → Bytes} (hb : BigOk big) (fmt : Bool) : ∀ (v : Val) (d : Nat), (text big fmt d v).length ≤ weight d v
  | .null, d => by simp [text, weight, nullW]
  | .bool true, d => by simp [text, weight, trueW]
  | .bool false, d => by simp [text, weight, falseW]
  | .num n, d => by simpa [text, weight] using (numText_ok hb n).1
  | .str s, d => by rw [text, weight]; exact strText_le s
  | .arr l, d => by
    have := textItems_le hb fmt l (d + 1)
    simp only [text, weight, List.length_append, List.length_cons, List.length_nil]
    omega
  | .obj l, d => by
    have := textMembers_le hb fmt l (d + 1)
    have h1 : (open' fmt).length ≤ 2 := by cases fmt <;> simp [open']
    have h2 : (ind fmt d).length ≤ d := by cases fmt <;> simp [ind, tabs]
    simp only [text, weight, List.length_append, List.length_cons, List.length_nil]
    omega

theorem textItems_le {big : Int → Bytes} (hb : BigOk big) (fmt : Bool) : ∀ (l : List Val) (d : Nat), (textItems big fmt d l).length ≤ weightItems d l
  | [], d => by simp [textItems]
  | v :: l, d => by
    have h1 := text_le hb fmt v d
    have h2 := textItems_le hb fmt l d
    have h3 : (sep fmt l.isEmpty).length ≤ 2 := by unfold sep; cases fmt <;> cases l.isEmpty <;> simp
    simp only [textItems, weightItems, List.length_append]
    omega

theorem textMembers_le {big : Int → Bytes} (hb : BigOk big) (fmt : Bool) : ∀ (l : List (Bytes × Val)) (d : Nat), (textMembers big fmt d l).length ≤ weightMembers d l
  | [], d => by simp [textMembers]
  | (k, v) :: l, d => by
    have h1 := text_le hb fmt v d
    have h2 := textMembers_le hb fmt l d
    have h3 : (endl fmt l.isEmpty).length ≤ 2 := by unfold endl; cases fmt <;> cases l.isEmpty <;> simp
    have h4 := strText_le k
    have h5 : (colon fmt).length ≤ 2 := by cases fmt <;> simp [colon]
    have h6 : (ind fmt d).length ≤ d := by cases fmt <;> simp [ind, tabs]
    simp only [textMembers, weightMembers, List.length_append]
    omega
end

theorem print_text {big : Int → Bytes} (hb : BigOk big) (fmt : Bool) (mem : Nat → UInt8) (v : Val) :
    match print big fmt mem v with
    | .bad => False
    | .null => intMax < (text big fmt 0 v).length + 2
    | .ok t => t = text big fmt 0 v := by
  have h := printVal_post hb fmt v 0 [] ⟨mem, 256, 0, 0, fmt⟩ ⟨rfl, fun k b hk => absurd hk (by simp), by show 0 < 256; decide, rfl, rfl, fun b hb => absurd hb (by simp)⟩
  rw [List.nil_append] at h
  unfold print
  cases hv : printVal big v ⟨mem, 256, 0, 0, fmt⟩ with
  | bad => rw [hv] at h; exact h
  | null => rw [hv] at h; exact h
  | ok p =>
    rw [hv] at h
    have hu := update_done h 0
    show (match ((updateOffset p).bind fun p => Res.ok ((List.range p.offset).map p.mem)) with
      | .bad => False
      | .null => intMax < (text big fmt 0 v).length + 2
      | .ok t => t = text big fmt 0 v)
    cases hq : updateOffset p with
    | bad => rw [hq] at hu; exact hu
    | null => rw [hq] at hu; exact absurd hu (Nat.not_lt_zero _)
    | ok q =>
      rw [hq] at hu
      show (List.range q.offset).map q.mem = text big fmt 0 v
      apply List.ext_getElem?
      intro k
      rw [hu.off, List.getElem?_map]
      by_cases hk : k < (text big fmt 0 v).length
      · rw [List.getElem?_range hk, List.getElem?_eq_getElem hk]
        exact congrArg some (hu.pre k _ (List.getElem?_eq_getElem hk))
      · rw [List.getElem?_eq_none (by simpa using hk), List.getElem?_eq_none (by omega)]
        rfl

/-- No byte is written or read outside of the buffer, whatever memory holds. -/
theorem C80_safe {big : Int → Bytes} (hb : BigOk big) (fmt : Bool) (mem : Nat → UInt8) (v : Val) : print big fmt mem v ≠ .bad := by
  have := print_text hb fmt mem v
  intro h
  rw [h] at this
  exact this

/-- A value that is not too large is printed. -/
theorem C80_prints {big : Int → Bytes} (hb : BigOk big) (fmt : Bool) (mem : Nat → UInt8) {v : Val} (hw : weight 0 v < 2147483646) : ∃ t, print big fmt mem v = .ok t := by
  have h := print_text hb fmt mem v
  have hl := text_le hb fmt v 0
  cases hp : print big fmt mem v with
  | bad => rw [hp] at h; exact absurd h id
  | null =>
    rw [hp] at h
    have : intMax < (text big fmt 0 v).length + 2 := h
    unfold intMax at this
    omega
  | ok t => exact ⟨t, rfl⟩

/-- What is printed is JSON, and says the value: names, strings with whatever bytes, numbers, order. -/
theorem C80_reads {big : Int → Bytes} (hb : BigOk big) (fmt : Bool) (mem : Nat → UInt8) {v : Val} (hv : Plain v = true) {t : Bytes} (h : print big fmt mem v = .ok t) : read t = some v := by
  have := print_text hb fmt mem v
  rw [h] at this
  rw [show t = text big fmt 0 v from this]
  exact read_text big fmt hv

/-- What was in memory before does not show. -/
theorem C80_clean {big : Int → Bytes} (hb : BigOk big) (fmt : Bool) (mem mem' : Nat → UInt8) {v : Val} {t t' : Bytes} (h : print big fmt mem v = .ok t) (h' : print big fmt mem' v = .ok t') :
    t = t' := by
  have h1 := print_text hb fmt mem v
  have h2 := print_text hb fmt mem' v
  rw [h] at h1
  rw [h'] at h2
  exact (show t = _ from h1).trans (show t' = _ from h2).symm

/-- The text has no zero, so `strlen` is its length (ngx_rtmp_sys_stat_module.c:186). -/
theorem C80_length {big : Int → Bytes} (hb : BigOk big) (fmt : Bool) (mem : Nat → UInt8) {v : Val} {t : Bytes} (h : print big fmt mem v = .ok t) : ∀ b ∈ t, b ≠ 0 := by
  have h0 := printVal_post hb fmt v 0 [] ⟨mem, 256, 0, 0, fmt⟩ ⟨rfl, fun k b hk => absurd hk (by simp), by show 0 < 256; decide, rfl, rfl, fun b hb => absurd hb (by simp)⟩
  rw [List.nil_append] at h0
  have h1 := print_text hb fmt mem v
  rw [h] at h1
  rw [show t = _ from h1]
  unfold print at h
  cases hv : printVal big v ⟨mem, 256, 0, 0, fmt⟩ with
  | bad => rw [hv] at h0; exact absurd h0 id
  | null => rw [hv] at h; exact absurd h (by simp [Res.bind])
  | ok p => rw [hv] at h0; exact h0.clean

mutual
/-- All strings are UTF-8. -/
def AllUtf8 : Val → Prop
  | .str s => Utf8 s
  | .arr l => AllUtf8Items l
  | .obj l => AllUtf8Members l
  | _ => True

def AllUtf8Items : List Val → Prop
  | [] => True
  | v :: l => AllUtf8 v ∧ AllUtf8Items l

def AllUtf8Members : List (Bytes × Val) → Prop
  | [] => True
  | (k, v) :: l => Utf8 k ∧ AllUtf8 v ∧ AllUtf8Members l
end

theorem Utf8.append {a b : Bytes} (ha : Utf8 a) (hb : Utf8 b) : Utf8 (a ++ b) := by
  induction ha with
  | nil => exact hb
  | one h _ ih => exact .one h ih
  | two h1 h2 _ ih => exact .two h1 h2 ih
  | three h1 h2 h3 _ ih => exact .three h1 h2 h3 ih
  | four h1 h2 h3 h4 _ ih => exact .four h1 h2 h3 h4 ih

theorem Utf8.ascii : ∀ {a : Bytes}, (∀ b ∈ a, b.toNat < 128) → Utf8 a
  | [], _ => .nil
  | b :: a, h => .one (h b (by simp)) (Utf8.ascii fun c hc => h c (by simp [hc]))

theorem esc_ascii (b : UInt8) (h : b.toNat < 128) : ∀ c ∈ escOf b, c.toNat < 128 := by
  have := byteAll (P := fun b => decide (b.toNat < 128 → ∀ c ∈ escOf b, c.toNat < 128)) (by decide +kernel) b
  exact of_decide_eq_true this h

theorem esc_high (b : UInt8) (h : 128 ≤ b.toNat) : escOf b = [b] := by
  have := byteAll (P := fun b => decide (128 ≤ b.toNat → escOf b = [b])) (by decide +kernel) b
  exact of_decide_eq_true this h

theorem Utf8.esc {a : Bytes} (h : Utf8 a) : Utf8 (a.flatMap escOf) := by
  induction h with
  | nil => exact .nil
  | one h _ ih =>
    rw [List.flatMap_cons]
    exact (Utf8.ascii (esc_ascii _ h)).append ih
  | two h1 h2 _ ih =>
    rw [List.flatMap_cons, List.flatMap_cons, esc_high _ (by omega), esc_high _ (by unfold tail8 at h2; omega)]
    exact .two h1 h2 ih
  | three h1 h2 h3 _ ih =>
    rw [List.flatMap_cons, List.flatMap_cons, List.flatMap_cons, esc_high _ (by omega), esc_high _ (by have := h2.1; split at this <;> omega), esc_high _ (by unfold tail8 at h3; omega)]
    exact .three h1 h2 h3 ih
  | four h1 h2 h3 h4 _ ih =>
    rw [List.flatMap_cons, List.flatMap_cons, List.flatMap_cons, List.flatMap_cons, esc_high _ (by omega), esc_high _ (by have := h2.1; split at this <;> omega), esc_high _ (by unfold tail8 at h3; omega),
      esc_high _ (by unfold tail8 at h4; omega)]
    exact .four h1 h2 h3 h4 ih

theorem strText_utf8 {s : Bytes} (h : Utf8 s) (hz : s.contains 0 = false) : Utf8 (strText s) := by
  rw [strText, cstr_plain hz]
  exact ((Utf8.one (by decide) h.esc).append (Utf8.one (by decide) .nil))

theorem decGo_ascii : ∀ (f n : Nat), ∀ b ∈ decGo f n, b.toNat < 128
  | 0, _, b, hb => by simp [decGo] at hb
  | f + 1, n, b, hb => by
    have key : ∀ m, m < 10 → (UInt8.ofNat (48 + m)).toNat < 128 := by decide
    rw [decGo] at hb
    split at hb
    · rename_i h
      rw [List.mem_singleton] at hb
      rw [hb]; exact key n h
    · rcases List.mem_append.1 hb with hb | hb
      · exact decGo_ascii f _ b hb
      · rw [List.mem_singleton] at hb
        rw [hb]; exact key _ (by omega)

theorem ind_utf8 (fmt : Bool) (d : Nat) : Utf8 (ind fmt d) := by
  refine Utf8.ascii fun b hb => ?_
  unfold ind tabs at hb
  split at hb
  · rw [List.eq_of_mem_replicate hb]; decide
  · cases hb

mutual
theorem text_utf8 (big : Int → Bytes) (fmt : Bool) : ∀ (v : Val) (d : Nat), Plain v = true → AllUtf8 v → Utf8 (text big fmt d v)
  | .null, d, _, _ => Utf8.ascii (by rw [text]; decide)
  | .bool true, d, _, _ => Utf8.ascii (by rw [text]; decide)
  | .bool false, d, _, _ => Utf8.ascii (by rw [text]; decide)
  | .num n, d, h, _ => by
    rw [text, numText, if_pos (of_decide_eq_true h)]
    split
    · exact .one (by decide) (Utf8.ascii (decGo_ascii _ _))
    · exact Utf8.ascii (decGo_ascii _ _)
  | .str s, d, h, hu => by
    rw [AllUtf8] at hu
    rw [text]; exact strText_utf8 hu (by simpa [Plain] using h)
  | .arr l, d, h, hu => by
    rw [Plain] at h
    rw [AllUtf8] at hu
    rw [text]
    exact (Utf8.one (by decide) (textItems_utf8 big fmt l (d + 1) h hu)).append (.one (by decide) .nil)
  | .obj l, d, h, hu => by
    rw [Plain] at h
    rw [AllUtf8] at hu
    rw [text]
    refine (((Utf8.ascii ?_).append (textMembers_utf8 big fmt l (d + 1) h hu)).append (ind_utf8 fmt d)).append (.one (by decide) .nil)
    cases fmt <;> decide

theorem textItems_utf8 (big : Int → Bytes) (fmt : Bool) : ∀ (l : List Val) (d : Nat), PlainItems l = true → AllUtf8Items l → Utf8 (textItems big fmt d l)
  | [], d, _, _ => by rw [textItems]; exact .nil
  | v :: l, d, h, hu => by
    rw [PlainItems, Bool.and_eq_true] at h
    rw [AllUtf8Items] at hu
    rw [textItems]
    refine ((text_utf8 big fmt v d h.1 hu.1).append (Utf8.ascii ?_)).append (textItems_utf8 big fmt l d h.2 hu.2)
    unfold sep
    cases fmt <;> cases l.isEmpty <;> decide

theorem textMembers_utf8 (big : Int → Bytes) (fmt : Bool) : ∀ (l : List (Bytes × Val)) (d : Nat), PlainMembers l = true → AllUtf8Members l → Utf8 (textMembers big fmt d l)
  | [], d, _, _ => by rw [textMembers]; exact .nil
  | (k, v) :: l, d, h, hu => by
    rw [PlainMembers, Bool.and_eq_true, Bool.and_eq_true] at h
    rw [AllUtf8Members] at hu
    rw [textMembers]
    refine (((((ind_utf8 fmt d).append (strText_utf8 hu.1 (by simpa using h.1.1))).append (Utf8.ascii ?_)).append (text_utf8 big fmt v d h.1.2 hu.2.1)).append (Utf8.ascii ?_)).append
      (textMembers_utf8 big fmt l d h.2 hu.2.2)
    · cases fmt <;> decide
    · unfold endl
      cases fmt <;> cases l.isEmpty <;> decide
end

/-- If all strings are UTF-8, the text is (section 8.1). -/
theorem C80_utf8 {big : Int → Bytes} (hb : BigOk big) (fmt : Bool) (mem : Nat → UInt8) {v : Val} (hv : Plain v = true) (hu : AllUtf8 v) {t : Bytes} (h : print big fmt mem v = .ok t) : Utf8 t := by
  have := print_text hb fmt mem v
  rw [h] at this
  rw [show t = text big fmt 0 v from this]
  exact text_utf8 big fmt v 0 hv hu

/-- Strings are copied as they are: one byte that is not UTF-8, in a name a client chose, makes the whole text something that is not JSON (section 8.1). -/
theorem C80_utf8_violation {big : Int → Bytes} (hb : BigOk big) (fmt : Bool) (mem : Nat → UInt8) : ∃ t, print big fmt mem (.str [0xff]) = .ok t ∧ ¬ Utf8 t := by
  obtain ⟨t, ht⟩ := C80_prints hb fmt mem (v := .str [0xff]) (by decide)
  refine ⟨t, ht, ?_⟩
  have := print_text hb fmt mem (.str [0xff])
  rw [ht] at this
  rw [show t = [0x22, 0xff, 0x22] from this]
  intro h
  cases h with
  | one _ h =>
    cases h with
    | one h _ => exact absurd h (by decide)
    | two h _ _ => exact absurd h (by decide)
  | two h _ _ => exact absurd h (by decide)
  | three h _ _ _ => exact absurd h (by decide)

/-- A text of 2 GB and more is not printed but NULL, and the handler takes `strlen` of it (ngx_rtmp_sys_stat_module.c:184-186). -/
theorem C80_large_violation (big : Int → Bytes) (fmt : Bool) (mem : Nat → UInt8) (s : Bytes) (hs : s.contains 0 = false) (hl : intMax < s.length) : print big fmt mem (.str s) = .null := by
  unfold print
  rw [printVal]
  simp only [printStr, cstr_plain hs]
  unfold ensure
  rw [if_neg (by simp), if_pos (by omega)]
  rfl

end Verif.Json
