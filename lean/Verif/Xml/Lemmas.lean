import Verif.Xml.Spec
import Verif.Xml.MpdSpec
/- Reading XML text piece by piece -/
namespace Verif.Xml

theorem lex_append (a b : Text) : ∀ st, lex st (a ++ b) = (lex st a).bind fun x => (lex x.1 b).map fun y => (y.1, x.2 ++ y.2) := by
  induction a with
  | nil =>
    intro st
    simp only [List.nil_append, lex, Option.bind_some]
    cases lex st b <;> rfl
  | cons c a ih =>
    intro st
    simp only [List.cons_append, lex]
    cases step st c with
    | none => rfl
    | some x =>
      simp only [Option.bind_some]
      rw [ih]
      cases lex x.1 a with
      | none => rfl
      | some y =>
        simp only [Option.bind_some, Option.map_some]
        cases lex y.1 b with
        | none => rfl
        | some z => simp

/-- From a state to a state, with tokens -/
def Lexes (st : St) (t : Text) (st' : St) (toks : List Tok) : Prop := lex st t = some (st', toks)

theorem Lexes.app {s s1 s2 : St} {a b : Text} {x y : List Tok} (h1 : Lexes s a s1 x) (h2 : Lexes s1 b s2 y) : Lexes s (a ++ b) s2 (x ++ y) := by
  unfold Lexes at *
  rw [lex_append, h1, Option.bind_some, h2]
  rfl

/-- Text that may be in a value -/
def Plain (v : Text) : Prop := ∀ c ∈ v, c ≠ '"' ∧ c ≠ '<' ∧ c ≠ '&'

theorem lex_plain (k : Text) : ∀ (v a : Text), Plain v → lex (.value k a) v = some (.value k (v.reverse ++ a), [])
  | [], a, _ => rfl
  | c :: v, a, h => by
    obtain ⟨h1, h2, h3⟩ := h c List.mem_cons_self
    have e : step (.value k a) c = some (.value k (c :: a), []) := by simp [step, h1, h2, h3]
    rw [lex, e, Option.bind_some, lex_plain k v (c :: a) fun x hx => h x (List.mem_cons_of_mem _ hx)]
    simp

/-- A value, and what follows its quote -/
theorem Lexes.value {s s2 : St} {a b v k : Text} {x y : List Tok} (h1 : Lexes s a (.value k []) x) (hv : Plain v) (h2 : Lexes .after b s2 y) : Lexes s (a ++ v ++ '"' :: b) s2 (x ++ .attr k v :: y) := by
  have h3 : Lexes s (a ++ v) (.value k v.reverse) x := by
    have : Lexes (.value k []) v (.value k v.reverse) [] := by
      have := lex_plain k v [] hv
      simpa [Lexes] using this
    simpa using h1.app this
  refine h3.app ?_
  unfold Lexes at *
  rw [lex]
  have e : step (.value k v.reverse) '"' = some (.after, [.attr k v]) := by simp [step]
  rw [e, Option.bind_some, h2]
  rfl

/-- The same when the value has something behind it before the quote -/
theorem Lexes.value' {s s2 : St} {a b v w u k : Text} {x y : List Tok} (h1 : Lexes s a (.value k u.reverse) x) (hv : Plain v) (hw : Plain w) (h2 : Lexes .after b s2 y) :
    Lexes s (a ++ v ++ (w ++ '"' :: b)) s2 (x ++ .attr k (u ++ v ++ w) :: y) := by
  have h3 : Lexes s (a ++ v ++ w) (.value k (u ++ v ++ w).reverse) x := by
    have h4 : Lexes (.value k u.reverse) (v ++ w) (.value k (u ++ v ++ w).reverse) [] := by
      have := lex_plain k (v ++ w) u.reverse (fun c hc => (List.mem_append.1 hc).elim (hv c) (hw c))
      unfold Lexes
      rw [this]
      simp
    have := h1.app h4
    simpa using this
  have e : a ++ v ++ (w ++ '"' :: b) = a ++ v ++ w ++ '"' :: b := by simp
  rw [e]
  refine h3.app ?_
  unfold Lexes at *
  rw [lex]
  have e : step (.value k (u ++ v ++ w).reverse) '"' = some (.after, [.attr k (u ++ v ++ w)]) := by simp [step]
  rw [e, Option.bind_some, h2]
  rfl

theorem Lexes.flat {α : Type} {st : St} (f : α → Text) (g : α → List Tok) : ∀ l : List α, (∀ x ∈ l, Lexes st (f x) st (g x)) → Lexes st (l.flatMap f) st (l.flatMap g)
  | [], _ => rfl
  | x :: l, h => by
    rw [List.flatMap_cons, List.flatMap_cons]
    exact (h x List.mem_cons_self).app (Lexes.flat f g l fun y hy => h y (List.mem_cons_of_mem _ hy))

theorem growAll_append : ∀ (a b : List Tok) (t : Tree), growAll t (a ++ b) = (growAll t a).bind fun t => growAll t b
  | [], _, _ => rfl
  | x :: a, b, t => by
    simp only [List.cons_append, growAll]
    cases grow t x with
    | none => rfl
    | some t' => exact growAll_append a b t'

/-- Tokens of elements, within another -/
def Grows (toks : List Tok) (nodes : List Node) : Prop := ∀ f fs root, growAll ⟨f :: fs, root⟩ toks = some ⟨{ f with kids := f.kids ++ nodes } :: fs, root⟩

theorem Grows.flat {α : Type} (g : α → List Tok) (n : α → List Node) : ∀ l : List α, (∀ x ∈ l, Grows (g x) (n x)) → Grows (l.flatMap g) (l.flatMap n)
  | [], _ => by intro f fs root; simp [growAll]
  | x :: l, h => by
    intro f fs root
    rw [List.flatMap_cons, List.flatMap_cons, growAll_append, h x List.mem_cons_self, Option.bind_some, Grows.flat g n l fun y hy => h y (List.mem_cons_of_mem _ hy)]
    simp

end Verif.Xml
