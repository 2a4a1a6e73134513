import Verif.Rtmp.EvalModel
/- C32: variable expansion. -/
namespace Verif.Eval
open Verif

/-! ### Specification -/

/-- The elements of a template. -/
inductive Tok where
  | lit (c : UInt8)
  | esc (c : UInt8)
  | short (name : Bytes)
  | long (name : Bytes)
deriving DecidableEq, Repr

/-- How they are written: `c`, `\c`, `$name`, `${name}`. -/
def Tok.text : Tok → Bytes
  | .lit c => [c]
  | .esc c => [92, c]
  | .short n => 36 :: n
  | .long n => 36 :: 123 :: n ++ [125]

def text (ts : List Tok) : Bytes := ts.flatMap Tok.text

/-- What may be left at the end: nothing, a backslash, an open `${`. -/
def Tail (l : Bytes) : Prop := l = [] ∨ l = [92] ∨ ∃ m, 125 ∉ m ∧ l = 36 :: 123 :: m

/-- Letters of the alphabet. -/
def Letter (c : UInt8) : Bool := (Char.ofNat c.toNat).isAlpha && c.toNat < 128

/-- `$name` ends where the letters end. -/
def ends (name : Bytes) : Bytes → Prop
  | [] => True
  | c :: _ => Letter c = false ∧ (name = [] → c ≠ 123)

/-- Templates in terms of their elements. -/
inductive WF : List Tok → Bytes → Prop
  | nil {tail} : Tail tail → WF [] tail
  | lit {c ts tail} : c ≠ 36 → c ≠ 92 → WF ts tail → WF (.lit c :: ts) tail
  | esc {c ts tail} : WF ts tail → WF (.esc c :: ts) tail
  | short {n ts tail} : (∀ c ∈ n, Letter c = true) → ends n (text ts ++ tail) → WF ts tail → WF (.short n :: ts) tail
  | long {n ts tail} : 125 ∉ n → WF ts tail → WF (.long n :: ts) tail

/-- Expansion of the elements. -/
def expand (value : Bytes → Bytes) : List Tok → Bytes
  | [] => []
  | .lit c :: ts => c :: expand value ts
  | .esc c :: ts => c :: expand value ts
  | .short n :: ts => value n ++ expand value ts
  | .long n :: ts => value n ++ expand value ts

/-- The values a name has in the tables. -/
def values (e : Tables) (name : Bytes) : List Bytes := (e.flatten.filter (·.1 = name)).map (·.2)

/-- The value of a name: that of its entry, nothing if it has none. -/
def value (e : Tables) (name : Bytes) : Bytes :=
  match e.flatten.find? (·.1 = name) with
  | some p => p.2
  | none => []

/-! ### Lemmas -/

theorem letter_eq (c : UInt8) : Letter c = letter c := by
  have : ∀ n : Fin 256, Letter (UInt8.ofFin n) = letter (UInt8.ofFin n) := by decide +kernel
  exact this c.toFin

theorem append_spec (b : Buf) (d : Bytes) : ∃ b', append b d = some b' ∧ b'.data = b.data ++ d := by
  unfold append copy grow
  by_cases h : b.data.length + d.length > b.cap
  · rw [if_pos h]
    dsimp only
    rw [if_pos (by omega)]
    exact ⟨_, rfl, rfl⟩
  · rw [if_neg h, if_pos (by omega)]
    exact ⟨_, rfl, rfl⟩

theorem appendTable_spec (name : Bytes) (t : List (Bytes × Bytes)) (b : Buf) :
    ∃ b', appendTable name b t = some b' ∧ b'.data = b.data ++ ((t.filter (·.1 = name)).map (·.2)).flatten := by
  induction t generalizing b with
  | nil => exact ⟨b, rfl, by simp⟩
  | cons x t ih =>
    unfold appendTable
    by_cases h : x.1 = name
    · rw [if_pos ⟨by rw [h], h⟩]
      obtain ⟨b1, e1, e2⟩ := append_spec b x.2
      obtain ⟨b2, e3, e4⟩ := ih b1
      exact ⟨b2, by rw [e1]; exact e3, by rw [e4, e2]; simp [h]⟩
    · rw [if_neg (fun h' => h h'.2)]
      obtain ⟨b2, e3, e4⟩ := ih b
      exact ⟨b2, e3, by rw [e4]; simp [h]⟩

theorem appendVar_spec (name : Bytes) (e : Tables) (b : Buf) :
    ∃ b', appendVar name b e = some b' ∧ b'.data = b.data ++ (values e name).flatten := by
  induction e generalizing b with
  | nil => exact ⟨b, rfl, by simp [values]⟩
  | cons t e ih =>
    unfold appendVar
    obtain ⟨b1, e1, e2⟩ := appendTable_spec name t b
    obtain ⟨b2, e3, e4⟩ := ih b1
    exact ⟨b2, by rw [e1]; exact e3, by rw [e4, e2]; simp [values]⟩

theorem loop_escape (e : Tables) (b : Buf) (c : UInt8) (l : Bytes) :
    ∃ b', b'.data = b.data ++ [c] ∧ loop e b .escape (c :: l) = loop e b' .normal l := by
  obtain ⟨b', e1, e2⟩ := append_spec b [c]
  refine ⟨b', e2, ?_⟩
  simp only [loop, step, e1, Option.map_some, Option.bind_some]

/-- The end of a short name: the value, then on as in the normal state. -/
theorem loop_name_end (e : Tables) (acc l : Bytes) (b : Buf) (h : ends acc l) :
    ∃ b', b'.data = b.data ++ (values e acc).flatten ∧ loop e b (.name acc) l = loop e b' .normal l := by
  obtain ⟨b', e1, e2⟩ := appendVar_spec acc e b
  refine ⟨b', e2, ?_⟩
  cases l with
  | nil => simp [loop, e1]
  | cons c l =>
    obtain ⟨h1, h2⟩ := h
    simp only [loop, step]
    rw [letter_eq] at h1
    rw [if_neg (fun h => h2 h.2 h.1), h1]
    simp only [Bool.false_eq_true, if_false, e1, Option.bind_some]

theorem loop_name (e : Tables) (n l : Bytes) (b : Buf) (hn : ∀ c ∈ n, letter c = true) (acc : Bytes) :
    loop e b (.name acc) (n ++ l) = loop e b (.name (acc ++ n)) l := by
  induction n generalizing acc with
  | nil => simp
  | cons c n ih =>
    have hc := hn c (by simp)
    have h123 : c ≠ 123 := fun h => by rw [h] at hc; revert hc; decide
    simp only [List.cons_append, loop, step]
    rw [if_neg (fun h => h123 h.1), if_pos hc]
    simp only [Option.bind_some]
    rw [ih (fun c hc => hn c (List.mem_cons_of_mem _ hc))]
    simp

theorem loop_sname (e : Tables) (n l : Bytes) (b : Buf) (hn : 125 ∉ n) (acc : Bytes) :
    loop e b (.sname acc) (n ++ l) = loop e b (.sname (acc ++ n)) l := by
  induction n generalizing acc with
  | nil => simp
  | cons c n ih =>
    simp only [List.mem_cons, not_or] at hn
    simp only [List.cons_append, loop, step]
    rw [if_pos (fun h => hn.1 h.symm)]
    simp only [Option.bind_some]
    rw [ih hn.2]
    simp

theorem loop_dollar (e : Tables) (b : Buf) (l : Bytes) : loop e b .normal (36 :: l) = loop e b (.name []) l := by
  simp [loop, step, plain]

theorem loop_brace (e : Tables) (b : Buf) (l : Bytes) : loop e b (.name []) (123 :: l) = loop e b (.sname []) l := by
  simp [loop, step]

theorem loop_spec (e : Tables) {ts : List Tok} {tail : Bytes} (h : WF ts tail) (b : Buf) :
    ∃ b', loop e b .normal (text ts ++ tail) = some b' ∧ b'.data = b.data ++ expand (fun n => (values e n).flatten) ts := by
  induction h generalizing b with
  | @nil tail ht =>
    refine ⟨b, ?_, by simp [expand]⟩
    rcases ht with rfl | rfl | ⟨m, hm, rfl⟩
    · rfl
    · simp [text, loop, step, plain]
    · simp only [text, List.flatMap_nil, List.nil_append]
      rw [loop_dollar, loop_brace]
      have := loop_sname e m [] b hm []
      rw [List.append_nil] at this
      rw [this]; rfl
  | @lit c ts tail h1 h2 _ ih =>
    obtain ⟨b1, e1, e2⟩ := append_spec b [c]
    obtain ⟨b2, e3, e4⟩ := ih b1
    refine ⟨b2, ?_, by rw [e4, e2]; simp [expand]⟩
    simp only [text, List.flatMap_cons, Tok.text, List.cons_append, List.nil_append, loop, step, plain, if_neg h1, if_neg h2, e1,
      Option.map_some, Option.bind_some]
    exact e3
  | @esc c ts tail _ ih =>
    obtain ⟨b1, e1, e2⟩ := loop_escape e b c (text ts ++ tail)
    obtain ⟨b2, e3, e4⟩ := ih b1
    refine ⟨b2, ?_, by rw [e4, e1]; simp [expand]⟩
    have : loop e b .normal (92 :: c :: (text ts ++ tail)) = loop e b .escape (c :: (text ts ++ tail)) := by
      simp [loop, step, plain]
    show loop e b .normal ([92, c] ++ text ts ++ tail) = _
    rw [List.append_assoc, List.cons_append, List.cons_append, List.nil_append, this, e2, e3]
  | @short n ts tail h1 h2 _ ih =>
    obtain ⟨b1, e1, e2⟩ := loop_name_end e n (text ts ++ tail) b h2
    obtain ⟨b2, e3, e4⟩ := ih b1
    refine ⟨b2, ?_, by rw [e4, e1]; simp [expand]⟩
    show loop e b .normal (36 :: n ++ text ts ++ tail) = _
    rw [List.append_assoc, List.cons_append, loop_dollar, loop_name e n _ b (fun c hc => letter_eq c ▸ h1 c hc), List.nil_append, e2, e3]
  | @long n ts tail h1 _ ih =>
    obtain ⟨b1, e1, e2⟩ := appendVar_spec n e b
    obtain ⟨b2, e3, e4⟩ := ih b1
    refine ⟨b2, ?_, by rw [e4, e2]; simp [expand]⟩
    show loop e b .normal ((36 :: 123 :: n ++ [125]) ++ text ts ++ tail) = _
    simp only [List.cons_append, List.append_assoc]
    rw [loop_dollar, loop_brace, loop_sname e n _ b h1, List.nil_append]
    simp only [List.nil_append, loop, step]
    rw [if_neg (by simp), e1]
    exact e3

theorem letters_split (l : Bytes) : ∃ n r, l = n ++ r ∧ (∀ c ∈ n, letter c = true) ∧ (∀ c t, r = c :: t → letter c = false) := by
  induction l with
  | nil => exact ⟨[], [], rfl, by simp, fun _ _ h => by cases h⟩
  | cons x l ih =>
    cases hx : letter x with
    | false => exact ⟨[], x :: l, rfl, by simp, fun c t h => by cases h; exact hx⟩
    | true =>
      obtain ⟨n, r, e, h1, h2⟩ := ih
      exact ⟨x :: n, r, by rw [e]; rfl, fun c hc => (List.mem_cons.1 hc).elim (fun e => e ▸ hx) (h1 c), h2⟩

theorem brace_split (l : Bytes) : 125 ∉ l ∨ ∃ n r, l = n ++ 125 :: r ∧ 125 ∉ n := by
  induction l with
  | nil => exact .inl (by simp)
  | cons x l ih =>
    by_cases hx : x = 125
    · exact .inr ⟨[], l, by rw [hx]; rfl, by simp⟩
    · rcases ih with h | ⟨n, r, e, h⟩
      · exact .inl (by simp only [List.mem_cons, not_or]; exact ⟨fun e => hx e.symm, h⟩)
      · exact .inr ⟨x :: n, r, by rw [e]; rfl, by simp only [List.mem_cons, not_or]; exact ⟨fun e => hx e.symm, h⟩⟩

theorem tokenise (k : Nat) (l : Bytes) (hk : l.length ≤ k) : ∃ ts tail, WF ts tail ∧ l = text ts ++ tail := by
  induction k generalizing l with
  | zero => exact ⟨[], [], .nil (.inl rfl), List.eq_nil_of_length_eq_zero (by omega)⟩
  | succ k ih =>
    cases l with
    | nil => exact ⟨[], [], .nil (.inl rfl), rfl⟩
    | cons c l =>
      simp only [List.length_cons] at hk
      by_cases h1 : c = 36
      · subst h1
        by_cases hb : ∃ m, l = 123 :: m
        · obtain ⟨m, rfl⟩ := hb
          simp only [List.length_cons] at hk
          rcases brace_split m with h | ⟨n, r, rfl, h⟩
          · exact ⟨[], 36 :: 123 :: m, .nil (.inr (.inr ⟨m, h, rfl⟩)), rfl⟩
          · simp only [List.length_append, List.length_cons] at hk
            obtain ⟨ts, tail, hw, e⟩ := ih r (by omega)
            exact ⟨.long n :: ts, tail, .long h hw, by rw [e]; simp [text, Tok.text]⟩
        · obtain ⟨n, r, e, h1, h2⟩ := letters_split l
          have hr : r.length ≤ k := by
            have := congrArg List.length e
            simp only [List.length_append] at this
            omega
          obtain ⟨ts, tail, hw, e'⟩ := ih r hr
          refine ⟨.short n :: ts, tail, .short (fun c hc => letter_eq c ▸ h1 c hc) ?_ hw, by rw [e, e']; simp [text, Tok.text]⟩
          rw [← e']
          cases r with
          | nil => trivial
          | cons d r => exact ⟨letter_eq d ▸ h2 d r rfl, fun hn hd => hb ⟨r, by rw [e, hn, hd]; rfl⟩⟩
      · by_cases h2 : c = 92
        · subst h2
          cases l with
          | nil => exact ⟨[], [92], .nil (.inr (.inl rfl)), rfl⟩
          | cons d l =>
            simp only [List.length_cons] at hk
            obtain ⟨ts, tail, hw, e⟩ := ih l (by omega)
            exact ⟨.esc d :: ts, tail, .esc hw, by rw [e]; rfl⟩
        · obtain ⟨ts, tail, hw, e⟩ := ih l (by omega)
          exact ⟨.lit c :: ts, tail, .lit h1 h2 hw, by rw [e]; rfl⟩

theorem expand_congr (f g : Bytes → Bytes) (h : ∀ n, f n = g n) (ts : List Tok) : expand f ts = expand g ts := by
  have : f = g := funext h
  rw [this]

/-! ### The property -/

/-- C32: every template is made of elements (so the next theorem speaks about all of them). -/
theorem C32_total (template : Bytes) : ∃ ts tail, WF ts tail ∧ template = text ts ++ tail := tokenise _ template (Nat.le_refl _)

/-- No name has two entries. -/
def Unique (e : Tables) : Prop := e.flatten.Pairwise fun p q => p.1 ≠ q.1

instance (e : Tables) : Decidable (Unique e) := by unfold Unique; infer_instance

theorem values_unique {e : Tables} (h : Unique e) (n : Bytes) : (values e n).flatten = value e n := by
  unfold Unique at h
  unfold values value
  generalize e.flatten = l at h
  induction l with
  | nil => rfl
  | cons p l ih =>
    rw [List.pairwise_cons] at h
    by_cases hp : p.1 = n
    · have : l.filter (·.1 = n) = [] := by
        rw [List.filter_eq_nil_iff]
        intro q hq
        simpa using fun e => h.1 q hq (hp.trans e.symm)
      simp [hp, this]
    · have := ih h.2
      simpa [hp] using this

/-- C32: the result is the expansion of the elements, followed by a NUL byte; nothing is written past the buffer. -/
theorem C32_expand (e : Tables) (h : Unique e) (ts : List Tok) (tail : Bytes) (hw : WF ts tail) :
    eval e (text ts ++ tail) = some (expand (value e) ts ++ [0], (expand (value e) ts).length) := by
  unfold eval
  obtain ⟨b, e1, e2⟩ := loop_spec e hw ⟨[], BUFLEN⟩
  obtain ⟨b', e3, e4⟩ := append_spec b [0]
  rw [e1, Option.bind_some, e3, Option.map_some, e4, e2, expand_congr _ _ (values_unique h)]
  simp

/-- C32: with names that occur several times the values of all entries are inserted, in the order of the tables. -/
theorem C32_expand_all (e : Tables) (ts : List Tok) (tail : Bytes) (hw : WF ts tail) :
    eval e (text ts ++ tail) = some (expand (fun n => (values e n).flatten) ts ++ [0], (expand (fun n => (values e n).flatten) ts).length) := by
  unfold eval
  obtain ⟨b, e1, e2⟩ := loop_spec e hw ⟨[], BUFLEN⟩
  obtain ⟨b', e3, e4⟩ := append_spec b [0]
  rw [e1, Option.bind_some, e3, Option.map_some, e4, e2]
  simp

/-- C32: a template without `$` and backslash is copied. -/
theorem C32_literal (e : Tables) (l : Bytes) (h1 : 36 ∉ l) (h2 : 92 ∉ l) : eval e l = some (l ++ [0], l.length) := by
  have hw : ∀ l : Bytes, 36 ∉ l → 92 ∉ l → WF (l.map .lit) [] := by
    intro l
    induction l with
    | nil => exact fun _ _ => .nil (.inl rfl)
    | cons c l ih =>
      intro h1 h2
      simp only [List.mem_cons, not_or] at h1 h2
      exact .lit (fun e => h1.1 e.symm) (fun e => h2.1 e.symm) (ih h1.2 h2.2)
  have ht : ∀ l : Bytes, text (l.map .lit) = l := by
    intro l
    induction l with
    | nil => rfl
    | cons c l ih => simp only [text, List.map_cons, List.flatMap_cons] at ih ⊢; rw [ih]; rfl
  have he : ∀ (f : Bytes → Bytes) (l : Bytes), expand f (l.map .lit) = l := by
    intro f l
    induction l with
    | nil => rfl
    | cons c l ih => simp only [List.map_cons, expand]; rw [ih]
  have := C32_expand_all e _ _ (hw l h1 h2)
  rw [ht, he, List.append_nil] at this
  exact this

/-! ### Example: `a\$${app}/$flashver.` with app = "live", flashver unknown -/

def wTab : Tables := [[([97, 112, 112], [108, 105, 118, 101])], []]
def wToks : List Tok := [.lit 97, .esc 36, .long [97, 112, 112], .lit 47, .short [102, 108], .lit 46]

example : WF wToks [92] :=
  .lit (by decide) (by decide) (.esc (.long (by decide) (.lit (by decide) (by decide)
    (.short (by decide) (show _ ∧ _ by decide) (.lit (by decide) (by decide) (.nil (.inr (.inl rfl))))))))
example : Unique wTab := by decide
example : eval wTab (text wToks ++ [92]) = some ([97, 36, 108, 105, 118, 101, 47, 46, 0], 8) := by decide
example : expand (value wTab) wToks = [97, 36, 108, 105, 118, 101, 47, 46] := by decide

end Verif.Eval
