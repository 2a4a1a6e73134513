import Verif.StatXml.Model
/-
Lemmas: the chain of buffers holds what was written; the reader on tags, character data and references; numbers.
-/
namespace Verif.StatXml

open Verif.Json (dec decGo cstr)

/-! The chain -/

/-- What a piece comes to -/
def Write.bytes (w : Write) : Bytes := if w.esc then (Spec.shown w.data).flatMap html else w.data

def flat (l : List Write) : Bytes := l.flatMap Write.bytes

theorem flat_append (a b : List Write) : flat (a ++ b) = flat a ++ flat b := List.flatMap_append
theorem flat_cons (a : Write) (b : List Write) : flat (a :: b) = a.bytes ++ flat b := List.flatMap_cons
theorem flat_nil : flat [] = [] := rfl

theorem clean_eq (l : Bytes) : clean l = Spec.shown l := by
  unfold clean Spec.shown
  split
  · rename_i h
    rw [List.all_eq_true] at h
    symm
    have : l.map (fun b => if b < 0x20 ∨ 0x7f ≤ b then 0x20 else b) = l.map id := by
      apply List.map_congr_left
      intro b hb
      have := h b hb
      simp only [Bool.not_eq_true', Bool.or_eq_false_iff, decide_eq_false_iff_not] at this
      rw [if_neg (fun h => h.elim this.1 this.2)]
      rfl
    rw [this, List.map_id]
  · apply List.map_congr_left
    intro b _
    simp

theorem html_length (b : UInt8) : (html b).length = 1 + htmlMore b := by
  unfold html htmlMore
  repeat' split
  all_goals first | rfl | simp_all

theorem flatMap_html_length (l : Bytes) : (l.flatMap html).length = l.length + (l.map htmlMore).sum := by
  induction l with
  | nil => rfl
  | cons b l ih =>
    rw [List.flatMap_cons, List.length_append, ih, html_length]
    simp only [List.length_cons, List.map_cons, List.sum_cons]
    omega

structure Chain.Ok (c : Chain) : Prop where
  place : c.bufs = [] ∧ c.k = 0 ∨ c.k + 1 = c.bufs.length
  room : ∀ b ∈ c.bufs, b.data.length ≤ b.cap

def Chain.all (c : Chain) : Bytes := c.bufs.flatMap (·.data)

theorem set_last {l : List Buf} {k : Nat} (h : k + 1 = l.length) (b : Buf) (e : l[k]? = some b) : ∃ l', l = l' ++ [b] ∧ ∀ b', l.set k b' = l' ++ [b'] := by
  rcases List.eq_nil_or_concat l with rfl | ⟨l', x, rfl⟩
  · simp at h
  · simp only [List.concat_eq_append, List.length_append, List.length_singleton] at h
    have hk : k = l'.length := by omega
    subst hk
    simp only [List.concat_eq_append, List.getElem?_concat_length, Option.some.injEq] at e
    subst e
    exact ⟨l', by simp, fun b' => by simp⟩

theorem output_ok (c : Chain) (w : Write) (h : c.Ok) : ∃ c', output c w = some c' ∧ c'.Ok ∧ c'.all = c.all ++ w.bytes ∧ (w.data ≠ [] → c'.bufs ≠ []) ∧ (c.bufs ≠ [] → c'.bufs ≠ []) := by
  unfold output
  by_cases h0 : w.data.length = 0
  · rw [if_pos h0]
    have hd : w.data = [] := List.eq_nil_of_length_eq_zero h0
    refine ⟨c, rfl, h, ?_, fun h => absurd hd h, fun h => h⟩
    have : w.bytes = [] := by unfold Write.bytes; rw [hd]; split <;> rfl
    rw [this, List.append_nil]
  · rw [if_neg h0]
    simp only []
    have hlen : (if w.esc = true then (if w.esc = true then clean w.data else w.data).flatMap html else (if w.esc = true then clean w.data else w.data)) = w.bytes := by
      unfold Write.bytes
      split
      · rw [clean_eq]
      · rfl
    have hreal : (if w.esc = true then (if w.esc = true then clean w.data else w.data).length + ((if w.esc = true then clean w.data else w.data).map htmlMore).sum
        else (if w.esc = true then clean w.data else w.data).length) = w.bytes.length := by
      unfold Write.bytes
      split
      · rw [clean_eq, flatMap_html_length]
      · rfl
    rw [hlen, hreal]
    generalize w.bytes = d
    -- a new buffer
    have hnew : ∀ l : List Buf, (∀ b ∈ l, b.data.length ≤ b.cap) → ∃ c', (match (l ++ [(⟨[], max 256 d.length⟩ : Buf)])[l.length]? with
        | none => none
        | some b => if b.cap < (b.data ++ d).length then none else some (⟨(l ++ [(⟨[], max 256 d.length⟩ : Buf)]).set l.length { b with data := b.data ++ d }, l.length⟩ : Chain)) = some c' ∧
          c'.Ok ∧ c'.all = l.flatMap (·.data) ++ d ∧ c'.bufs ≠ [] := by
      intro l hl
      rw [List.getElem?_concat_length]
      simp only [List.nil_append]
      rw [if_neg (by have := Nat.le_max_right 256 d.length; omega)]
      refine ⟨_, rfl, ⟨.inr ?_, ?_⟩, ?_, ?_⟩
      · simp
      · intro b hb
        simp only [List.set_append, Nat.lt_irrefl, ↓reduceIte, Nat.sub_self, List.set_cons_zero, List.mem_append, List.mem_singleton] at hb
        rcases hb with hb | rfl
        · exact hl b hb
        · exact Nat.le_max_right 256 d.length
      · simp [Chain.all]
      · simp
    rcases h.place with ⟨he, hk⟩ | hk
    · rw [he, hk]
      simp only [List.getElem?_nil, List.nil_append]
      obtain ⟨c', e, o, a, n⟩ := hnew [] (by simp)
      simp only [List.nil_append, List.length_nil, List.flatMap_nil] at e a
      refine ⟨c', e, o, ?_, fun _ => n, fun _ => n⟩
      rw [a]
      simp [Chain.all, he]
    · obtain ⟨b, hb⟩ : ∃ b, c.bufs[c.k]? = some b := ⟨c.bufs[c.k]'(by omega), List.getElem?_eq_getElem _⟩
      simp only [hb]
      by_cases hf : b.cap < b.data.length + d.length
      · have hno : c.bufs[c.bufs.length]? = none := List.getElem?_eq_none (Nat.le_refl _)
        simp only [hf, ↓reduceIte, hk, hno]
        obtain ⟨c', e, o, a, n⟩ := hnew c.bufs h.room
        exact ⟨c', e, o, by rw [a]; rfl, fun _ => n, fun _ => n⟩
      · simp only [hf, ↓reduceIte, hb, List.length_append]
        obtain ⟨l', hl, hs⟩ := set_last hk b hb
        refine ⟨_, rfl, ⟨.inr (by simpa using hk), ?_⟩, ?_, ?_, ?_⟩
        · intro x hx
          simp only [hs, List.mem_append, List.mem_singleton] at hx
          rcases hx with hx | rfl
          · exact h.room x (by rw [hl]; simp [hx])
          · simp only [List.length_append]; omega
        · simp only [Chain.all, hs]
          rw [hl]
          simp [List.append_assoc]
        · intro _; simp only [hs]; simp
        · intro _; simp only [hs]; simp

theorem outputAll_ok : ∀ (l : List Write) (c : Chain), c.Ok → ∃ c', outputAll c l = some c' ∧ c'.Ok ∧ c'.all = c.all ++ flat l ∧ ((c.bufs ≠ [] ∨ ∃ w ∈ l, w.data ≠ []) → c'.bufs ≠ []) := by
  intro l
  induction l with
  | nil =>
    intro c h
    refine ⟨c, rfl, h, by simp [flat], ?_⟩
    rintro (h | ⟨w, hw, _⟩)
    · exact h
    · simp at hw
  | cons w l ih =>
    intro c h
    obtain ⟨c1, e1, o1, a1, n1, m1⟩ := output_ok c w h
    obtain ⟨c2, e2, o2, a2, n2⟩ := ih c1 o1
    refine ⟨c2, by rw [outputAll, e1]; exact e2, o2, by rw [a2, a1, flat_cons, List.append_assoc], ?_⟩
    rintro (h | ⟨x, hx, hd⟩)
    · exact n2 (.inl (m1 h))
    · rcases List.mem_cons.mp hx with rfl | hx
      · exact n2 (.inl (n1 hd))
      · exact n2 (.inr ⟨x, hx, hd⟩)

/-! The reader -/

/-- Bytes that add character data and elements to the innermost element -/
def Adds (b t : Bytes) (ks : List Node) : Prop :=
  ∀ (s : Bytes) (fs : List Frame) (root : Option Node) (n t' : Bytes) (ks' : List Node),
    run ⟨.content, ⟨n, t', ks'⟩ :: fs, root⟩ (b ++ s) = run ⟨.content, ⟨n, t' ++ t, ks' ++ ks⟩ :: fs, root⟩ s

theorem Adds.nil : Adds [] [] [] := by
  intro s fs root n t' ks'; simp

theorem Adds.app {b1 b2 t1 t2 : Bytes} {k1 k2 : List Node} (h1 : Adds b1 t1 k1) (h2 : Adds b2 t2 k2) : Adds (b1 ++ b2) (t1 ++ t2) (k1 ++ k2) := by
  intro s fs root n t' ks'
  rw [List.append_assoc, h1, h2, List.append_assoc, List.append_assoc]

theorem Adds.byte {b : UInt8} (h : isText b = true) : Adds [b] [b] [] := by
  intro s fs root n t' ks'
  have h1 : (b == 0x3c) = false ∧ (b == 0x26) = false := by
    unfold isText at h
    simp only [Bool.and_eq_true, bne_iff_ne, ne_eq] at h
    exact ⟨by simp [h.1.1.2], by simp [h.1.2]⟩
  simp only [List.cons_append, List.nil_append, run, step, h1.1, h1.2, h, Bool.false_eq_true, ↓reduceIte, Option.bind_some, List.append_nil]

theorem Adds.text : ∀ {t : Bytes}, (∀ b ∈ t, isText b = true) → Adds t t []
  | [], _ => Adds.nil
  | b :: t, h => by
    have := (Adds.byte (h b (by simp))).app (Adds.text (t := t) fun x hx => h x (by simp [hx]))
    simpa using this

theorem Adds.html {b : UInt8} (h1 : 0x20 ≤ b) (h2 : b < 0x7f) : Adds (html b) [b] [] := by
  unfold StatXml.html
  split
  · rename_i h; subst h; intro s fs root n t' ks'; simp [run, step, entity]
  split
  · rename_i h; subst h; intro s fs root n t' ks'; simp [run, step, entity]
  split
  · rename_i h; subst h; intro s fs root n t' ks'; simp [run, step, entity]
  split
  · rename_i h; subst h; intro s fs root n t' ks'; simp [run, step, entity]
  · rename_i a1 a2 a3 a4
    exact Adds.byte (by unfold isText; simp [h1, h2, a1, a2, a3])

theorem Adds.htmls : ∀ {t : Bytes}, (∀ b ∈ t, 0x20 ≤ b ∧ b < 0x7f) → Adds (t.flatMap StatXml.html) t []
  | [], _ => Adds.nil
  | b :: t, h => by
    have := (Adds.html (h b (by simp)).1 (h b (by simp)).2).app (Adds.htmls (t := t) fun x hx => h x (by simp [hx]))
    simpa using this

theorem shown_range (s : Bytes) : ∀ b ∈ Spec.shown s, 0x20 ≤ b ∧ b < 0x7f := by
  intro b hb
  unfold Spec.shown at hb
  obtain ⟨x, -, rfl⟩ := List.mem_map.mp hb
  split
  · decide
  · rename_i h
    constructor
    · exact UInt8.not_lt.mp fun hc => h (.inl hc)
    · exact UInt8.not_le.mp fun hc => h (.inr hc)

theorem Adds.esc (s : Bytes) : Adds (esc s).bytes (Spec.shown s) [] := Adds.htmls (shown_range s)

/-- Names of elements -/
def Name (n : Bytes) : Prop := ∃ b l, n = b :: l ∧ isStart b = true ∧ ∀ x ∈ l, isName x = true

def nameB (n : Bytes) : Bool :=
  match n with
  | [] => false
  | b :: l => isStart b && l.all isName

theorem Name.of {n : Bytes} (h : nameB n = true) : Name n := by
  cases n with
  | nil => cases h
  | cons b l =>
    simp only [nameB, Bool.and_eq_true, List.all_eq_true] at h
    exact ⟨b, l, rfl, h.1, h.2⟩

theorem name_ne {b : UInt8} (h : isName b = true) : (b == 0x3e) = false ∧ (b == 0x2f) = false := by
  constructor
  · rw [Bool.eq_false_iff]; intro hc; rw [beq_iff_eq] at hc; subst hc; exact absurd h (by decide)
  · rw [Bool.eq_false_iff]; intro hc; rw [beq_iff_eq] at hc; subst hc; exact absurd h (by decide)

theorem start_ne {b : UInt8} (h : isStart b = true) : (b == 0x2f) = false ∧ (b == 0x3f) = false := by
  constructor
  · rw [Bool.eq_false_iff]; intro hc; rw [beq_iff_eq] at hc; subst hc; exact absurd h (by decide)
  · rw [Bool.eq_false_iff]; intro hc; rw [beq_iff_eq] at hc; subst hc; exact absurd h (by decide)

theorem run_name (fs : List Frame) (root : Option Node) (s : Bytes) : ∀ (l acc : Bytes), (∀ x ∈ l, isName x = true) →
    run ⟨.name acc, fs, root⟩ (l ++ s) = run ⟨.name (acc ++ l), fs, root⟩ s
  | [], acc, _ => by simp
  | b :: l, acc, h => by
    have hb := h b (by simp)
    have hn := name_ne hb
    rw [List.cons_append, run]
    simp only [step, hn.1, hn.2, hb, Bool.false_eq_true, ↓reduceIte, Option.bind_some]
    rw [run_name fs root s l _ fun x hx => h x (by simp [hx])]
    simp

theorem run_close (fs : List Frame) (root : Option Node) (s : Bytes) : ∀ (l acc : Bytes), (∀ x ∈ l, isName x = true) →
    run ⟨.close acc, fs, root⟩ (l ++ s) = run ⟨.close (acc ++ l), fs, root⟩ s
  | [], acc, _ => by simp
  | b :: l, acc, h => by
    have hb := h b (by simp)
    have hn := name_ne hb
    rw [List.cons_append, run]
    simp only [step, hn.1, hb, Bool.false_eq_true, ↓reduceIte, Option.bind_some]
    rw [run_close fs root s l _ fun x hx => h x (by simp [hx])]
    simp

/-- A tag is opened -/
theorem run_open {n : Bytes} (hn : Name n) (fs : List Frame) (root : Option Node) (s : Bytes) (h : fs ≠ [] ∨ root = none) :
    run ⟨.content, fs, root⟩ (o n ++ s) = run ⟨.content, ⟨n, [], []⟩ :: fs, root⟩ s := by
  obtain ⟨b, l, rfl, hb, hl⟩ := hn
  have hs := start_ne hb
  have hne : (fs.isEmpty && root.isSome) = false := by
    rcases h with h | h
    · cases fs with
      | nil => exact absurd rfl h
      | cons _ _ => rfl
    · simp [h]
  show run _ (0x3c :: b :: (l ++ [0x3e] ++ s)) = _
  simp only [run, step, beq_self_eq_true, ↓reduceIte, Option.bind_some, hs.1, hs.2, hb, Bool.false_eq_true]
  rw [List.append_assoc, run_name _ _ _ _ _ hl]
  simp only [List.cons_append, List.nil_append, run, step, beq_self_eq_true, ↓reduceIte, hne, Bool.false_eq_true, Option.bind_some]

theorem Name.all {n : Bytes} (hn : Name n) : ∀ x ∈ n, isName x = true := by
  obtain ⟨b, l, rfl, hb, hl⟩ := hn
  intro x hx
  rcases List.mem_cons.mp hx with rfl | hx
  · unfold isName; rw [hb]; rfl
  · exact hl x hx

/-- The innermost element is closed -/
theorem run_shut {n : Bytes} (hn : Name n) (t : Bytes) (ks : List Node) (fs : List Frame) (root : Option Node) (s : Bytes) :
    run ⟨.content, ⟨n, t, ks⟩ :: fs, root⟩ (c n ++ s) = (shut (.el n t ks) fs root).bind fun x => run x s := by
  show run _ (0x3c :: 0x2f :: (n ++ [0x3e] ++ s)) = _
  simp only [run, step, beq_self_eq_true, ↓reduceIte, Option.bind_some]
  rw [List.append_assoc, run_close _ _ _ _ _ hn.all]
  simp only [List.cons_append, List.nil_append, run, step, beq_self_eq_true, ↓reduceIte]

theorem Adds.el {n b t : Bytes} {ks : List Node} (hn : Name n) (h : Adds b t ks) : Adds (o n ++ b ++ c n) [] [.el n t ks] := by
  intro s fs root n' t' ks'
  rw [List.append_assoc, List.append_assoc, run_open hn _ _ _ (.inl (by simp)), h, run_shut hn]
  simp [shut]

theorem Adds.leaf {n b t : Bytes} (hn : Name n) (h : Adds b t []) : Adds (o n ++ b ++ c n) [] [.el n t []] := Adds.el hn h

theorem Adds.empty {n : Bytes} (hn : Name n) : Adds (e n) [] [.el n [] []] := by
  intro s fs root n' t' ks'
  obtain ⟨b, l, rfl, hb, hl⟩ := hn
  have hs := start_ne hb
  show run _ (0x3c :: b :: (l ++ [0x2f, 0x3e] ++ s)) = _
  simp only [run, step, beq_self_eq_true, ↓reduceIte, Option.bind_some, hs.1, hs.2, hb, Bool.false_eq_true]
  rw [List.append_assoc, run_name _ _ _ _ _ hl]
  simp [run, step, shut]

theorem Adds.nl : Adds nl nl [] := Adds.text (by decide)

/-! Numbers -/

theorem decGo_nat : ∀ (f n : Nat), n < f → decGo f n ≠ [] ∧ (∀ b ∈ decGo f n, 0x30 ≤ b ∧ b ≤ 0x39) ∧ (decGo f n).foldl (fun a b => 10 * a + (b.toNat - 0x30)) 0 = n
  | 0, n, h => by omega
  | f + 1, n, h => by
    have hd : ∀ d, d < 10 → (0x30 ≤ UInt8.ofNat (48 + d) ∧ UInt8.ofNat (48 + d) ≤ 0x39) ∧ (UInt8.ofNat (48 + d)).toNat - 0x30 = d := by
      intro d hd
      have : ∀ d : Fin 10, (0x30 ≤ UInt8.ofNat (48 + d.val) ∧ UInt8.ofNat (48 + d.val) ≤ 0x39) ∧ (UInt8.ofNat (48 + d.val)).toNat - 0x30 = d.val := by decide
      exact this ⟨d, hd⟩
    unfold decGo
    split
    · rename_i hlt
      refine ⟨by simp, ?_, ?_⟩
      · intro b hb; rw [List.mem_singleton] at hb; subst hb; exact (hd n hlt).1
      · simp only [List.foldl_cons, List.foldl_nil]; rw [(hd n hlt).2]; omega
    · obtain ⟨h1, h2, h3⟩ := decGo_nat f (n / 10) (by omega)
      refine ⟨by simp, ?_, ?_⟩
      · intro b hb
        rw [List.mem_append, List.mem_singleton] at hb
        rcases hb with hb | rfl
        · exact h2 b hb
        · exact (hd _ (by omega)).1
      · rw [List.foldl_append, h3]
        simp only [List.foldl_cons, List.foldl_nil]
        rw [(hd _ (by omega)).2]; omega

theorem dec_digits (n : Nat) : ∀ b ∈ dec n, 0x30 ≤ b ∧ b ≤ 0x39 := (decGo_nat (n + 1) n (by omega)).2.1

theorem natOf_dec (n : Nat) : natOf (dec n) = some n := by
  obtain ⟨h1, h2, h3⟩ := decGo_nat (n + 1) n (by omega)
  unfold natOf dec
  rw [if_pos ⟨h1, h2⟩, h3]

theorem digit_ne {b : UInt8} (h : 0x30 ≤ b ∧ b ≤ 0x39) : b ≠ 0x2d := by
  intro hc; subst hc; exact absurd h.1 (by decide)

theorem intOf_decI (n : Int) : intOf (decI n) = some n := by
  unfold decI
  split
  · rename_i h
    simp only [intOf, natOf_dec, Option.map_some, Option.some.injEq]
    omega
  · rename_i h
    have hd := dec_digits n.natAbs
    have hn := natOf_dec n.natAbs
    cases hc : dec n.natAbs with
    | nil => rw [hc] at hn; simp [natOf] at hn
    | cons b l =>
      rw [hc] at hd hn
      have := digit_ne (hd b (by simp))
      unfold intOf
      split
      · rename_i heq; injection heq with h1 _; exact absurd h1 this
      · rw [hn]
        simp only [Option.map_some, Option.some.injEq]
        omega

theorem digit_text {b : UInt8} (h : 0x30 ≤ b ∧ b ≤ 0x39) : isText b = true := by
  have h1 : 0x20 ≤ b := UInt8.le_trans (by decide) h.1
  have h2 : b < 0x7f := UInt8.lt_of_le_of_lt h.2 (by decide)
  have n1 : b ≠ 0x3c := by intro hc; subst hc; exact absurd h.2 (by decide)
  have n2 : b ≠ 0x26 := by intro hc; subst hc; exact absurd h.1 (by decide)
  have n3 : b ≠ 0x3e := by intro hc; subst hc; exact absurd h.2 (by decide)
  unfold isText
  simp [h1, h2, n1, n2, n3]

theorem dec_text (n : Nat) : ∀ b ∈ dec n, isText b = true := fun b hb => digit_text (dec_digits n b hb)

theorem decI_text (n : Int) : ∀ b ∈ decI n, isText b = true := by
  unfold decI
  split
  · intro b hb
    rcases List.mem_cons.mp hb with rfl | hb
    · decide
    · exact dec_text _ b hb
  · exact dec_text _

theorem decGo_length : ∀ (k f n : Nat), n < 10 ^ (k + 1) → (decGo f n).length ≤ k + 1
  | _, 0, _, _ => by simp [decGo]
  | 0, f + 1, n, h => by
    unfold decGo
    rw [if_pos (by omega)]; simp
  | k + 1, f + 1, n, h => by
    unfold decGo
    split
    · simp
    · have := decGo_length k f (n / 10) (by rw [Nat.div_lt_iff_lt_mul (by omega)]; rw [Nat.pow_succ] at h; exact h)
      rw [List.length_append, List.length_singleton]; omega

theorem dec_length {n : Nat} (k : Nat) (h : n < 10 ^ (k + 1)) : (dec n).length ≤ k + 1 := decGo_length k _ _ h

theorem dec_fits {n : Nat} (h : n < 2 ^ 64) : (dec n).take INT_LEN = dec n :=
  List.take_of_length_le (dec_length 19 (Nat.lt_of_lt_of_le h (by decide)))

theorem decI_fits {n : Int} (h1 : -(2 ^ 63) ≤ n) (h2 : n < 2 ^ 63) : (decI n).take INT_LEN = decI n := by
  refine List.take_of_length_le ?_
  have := dec_length (n := n.natAbs) 18 (by have : (2 : Nat) ^ 63 < 10 ^ 19 := by decide
                                            omega)
  unfold decI
  show _ ≤ 20
  split
  · rw [List.length_cons]; omega
  · omega

theorem decI_fits32 {n : Int} (h1 : -(2 ^ 31) ≤ n) (h2 : n < 2 ^ 31) : (decI n).take INT32_LEN = decI n := by
  refine List.take_of_length_le ?_
  have := dec_length (n := n.natAbs) 9 (by omega)
  unfold decI
  show _ ≤ 11
  split
  · rw [List.length_cons]; omega
  · omega

end Verif.StatXml
