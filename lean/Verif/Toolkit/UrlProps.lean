import Verif.Toolkit.UrlModel
/-
C31: the URL parser is the inverse of putting the components together.

The grammar the code accepts is `Url` with `Valid`. It is not the one of its comment: scheme and host may be empty, and a fragment is only
recognised after arguments (`_violation` theorems).
-/
namespace Verif.Url
open Verif

/-! ### Specification -/

/-- scheme://[user@]host[:port][/path[?args[#fragment]]] -/
structure Url where
  scheme : Bytes
  user : Option Bytes
  host : Bytes
  port : Option Bytes
  path : Option Bytes
  query : Option (Bytes × Option Bytes)
deriving DecidableEq, Repr

def ascii (s : String) : Bytes := s.toList.map fun c => UInt8.ofNat c.toNat

def Url.queryText (u : Url) : Bytes :=
  match u.query with
  | none => []
  | some (a, none) => ascii "?" ++ a
  | some (a, some f) => ascii "?" ++ a ++ ascii "#" ++ f

def Url.userText (u : Url) : Bytes := match u.user with | none => [] | some x => x ++ ascii "@"

def Url.hostText (u : Url) : Bytes := u.host ++ match u.port with | none => [] | some x => ascii ":" ++ x

def Url.pathText (u : Url) : Bytes := match u.path with | none => [] | some x => ascii "/" ++ x ++ u.queryText

/-- The text of a URL. -/
def Url.text (u : Url) : Bytes := u.scheme ++ ascii "://" ++ u.userText ++ u.hostText ++ u.pathText

/-- Components without the separators that follow them. -/
structure Url.Valid (u : Url) : Prop where
  scheme : 0 ∉ u.scheme
  /-- the first "://" is the one after the scheme -/
  first : ¬ ascii "://" <:+: u.scheme ++ ascii ":/"
  user : ∀ x, u.user = some x → x ≠ [] ∧ 47 ∉ x ∧ 64 ∉ x
  host : 47 ∉ u.host ∧ 58 ∉ u.host ∧ (u.user = none → 64 ∉ u.host)
  port : ∀ x, u.port = some x → x ≠ [] ∧ 47 ∉ x ∧ (u.user = none → 64 ∉ x)
  /-- with a user there is something after it -/
  userHost : u.user ≠ none → u.host ≠ [] ∨ u.port ≠ none
  nonempty : u.userText ++ u.hostText ++ u.pathText ≠ []
  path : ∀ x, u.path = some x → 63 ∉ x
  noPath : u.path = none → u.query = none
  args : ∀ a, u.query = some (a, none) → a ≠ [] ∧ 35 ∉ a
  fragment : ∀ a f, u.query = some (a, some f) → 35 ∉ a ∧ f ≠ []

/-- What the caller gets: absent components are empty. -/
def Url.view (u : Url) : RequestUrl where
  scheme := u.scheme
  user := u.user.getD []
  host := u.host
  port := u.port.getD []
  path := u.path.getD []
  args := match u.query with | none => [] | some (a, _) => a
  fragment := match u.query with | some (_, some f) => f | _ => []
  hostWithPort := u.hostText
  uriWithArgs := match u.path with | none => [] | some x => x ++ u.queryText

/-- Value of a decimal number. -/
def decimal (l : Bytes) : Nat := l.foldl (fun v b => v * 10 + (b.toNat - 48)) 0

def Digits (l : Bytes) : Prop := l ≠ [] ∧ ∀ b ∈ l, 48 ≤ b ∧ b ≤ 57

/-! ### Lemmas -/

theorem ascii1 : ascii "?" = [63] ∧ ascii "#" = [35] ∧ ascii "@" = [64] ∧ ascii ":" = [58] ∧ ascii "/" = [47] ∧ ascii "://" = [58, 47, 47] ∧
    ascii ":/" = [58, 47] := by decide +kernel

theorem strlchr_some {c : UInt8} {l a b : Bytes} : strlchr c l = some (a, b) ↔ c ∉ a ∧ l = a ++ c :: b := by
  induction l generalizing a with
  | nil => simp [strlchr]
  | cons x l ih =>
    unfold strlchr
    by_cases h : x = c
    · rw [if_pos h]
      subst h
      constructor
      · intro e; cases e; exact ⟨by simp, rfl⟩
      · rintro ⟨h1, h2⟩
        cases a with
        | nil => simp at h2; rw [h2]
        | cons y a => simp at h2 h1; exact absurd h2.1 h1.1
    · rw [if_neg h]
      constructor
      · intro e
        rw [Option.map_eq_some_iff] at e
        obtain ⟨⟨p1, p2⟩, e1, e2⟩ := e
        cases e2
        obtain ⟨h1, h2⟩ := ih.1 e1
        refine ⟨?_, by rw [h2]; rfl⟩
        simp only [List.mem_cons, not_or]
        exact ⟨fun e => h e.symm, h1⟩
      · rintro ⟨h1, h2⟩
        cases a with
        | nil => simp at h2; exact absurd h2.1 h
        | cons y a =>
          simp only [List.cons_append, List.cons.injEq] at h2
          simp only [List.mem_cons, not_or] at h1
          rw [ih.2 ⟨h1.2, h2.2⟩, h2.1]; rfl

theorem strlchr_none {c : UInt8} {l : Bytes} : strlchr c l = none ↔ c ∉ l := by
  induction l with
  | nil => simp [strlchr]
  | cons x l ih =>
    unfold strlchr
    by_cases h : x = c
    · simp [h]
    · rw [if_neg h, Option.map_eq_none_iff, ih]
      simp only [List.mem_cons, not_or]
      exact ⟨fun h' => ⟨fun e => h e.symm, h'⟩, fun h' => h'.2⟩

/-- No "://" in `a ++ "://"` before its end. -/
theorem first_cons {x : UInt8} {a : Bytes} : ¬ [58, 47, 47] <:+: (x :: a) ++ [58, 47] ↔
    ¬ [58, 47, 47] <+: (x :: a) ++ [58, 47] ∧ ¬ [58, 47, 47] <:+: a ++ [58, 47] := by
  rw [List.cons_append, List.infix_cons_iff, not_or]

theorem strScheme_some {l a b : Bytes} : strScheme l = some (a, b) ↔ 0 ∉ a ∧ ¬ [58, 47, 47] <:+: a ++ [58, 47] ∧ l = a ++ [58, 47, 47] ++ b := by
  induction l generalizing a with
  | nil => simp [strScheme]
  | cons x l ih =>
    have key : ∀ y : UInt8, y ≠ 0 → ¬ ([58, 47, 47] <+: y :: l) →
        ((strScheme l).map (fun p => (y :: p.1, p.2)) = some (a, b) ↔ 0 ∉ a ∧ ¬ [58, 47, 47] <:+: a ++ [58, 47] ∧ y :: l = a ++ [58, 47, 47] ++ b) := by
      intro y h0 hp
      rw [Option.map_eq_some_iff]
      constructor
      · rintro ⟨⟨p1, p2⟩, e1, e2⟩
        cases e2
        obtain ⟨h1, h2, h3⟩ := ih.1 e1
        refine ⟨by simp only [List.mem_cons, not_or]; exact ⟨fun e => h0 e.symm, h1⟩, first_cons.2 ⟨fun hpre => hp ?_, h2⟩, by rw [h3]; rfl⟩
        rw [h3]
        refine hpre.trans ?_
        exact ⟨47 :: p2, by simp⟩
      · rintro ⟨h1, h2, h3⟩
        cases a with
        | nil => exact absurd ⟨b, by simpa using h3.symm⟩ hp
        | cons z a =>
          simp only [List.cons_append, List.cons.injEq] at h3
          simp only [List.mem_cons, not_or] at h1
          rw [first_cons] at h2
          exact ⟨(a, b), ih.2 ⟨h1.2, h2.2, h3.2⟩, by rw [h3.1]⟩
    unfold strScheme
    split
    · rename_i h0
      constructor
      · intro h; cases h
      · rintro ⟨h1, _, h3⟩
        cases a with
        | nil => simp at h3; rw [h3.1] at h0; cases h0
        | cons z a => simp at h3 h1; exact absurd (h0.symm.trans h3.1) h1.1
    · rename_i h0
      split
      · rename_i h58
        split
        · rename_i c d l'
          split
          · rename_i hcd
            obtain ⟨rfl, rfl⟩ := hcd
            subst h58
            constructor
            · intro e; cases e; refine ⟨by simp, by decide, rfl⟩
            · rintro ⟨h1, h2, h3⟩
              cases a with
              | nil => simp at h3; rw [h3]
              | cons z a =>
                exfalso
                rw [first_cons] at h2
                refine h2.1 ?_
                cases a with
                | nil => simp at h3
                | cons z2 a =>
                  simp at h3
                  obtain ⟨rfl, rfl, h3⟩ := h3
                  cases a with
                  | nil => simp at h3
                  | cons z3 a => simp at h3; obtain ⟨rfl, _⟩ := h3; exact ⟨a ++ [58, 47], by simp⟩
          · rename_i hcd
            refine key x h0 (fun hp => hcd ?_)
            obtain ⟨t, ht⟩ := hp
            simp at ht
            exact ⟨ht.2.1.symm, ht.2.2.1.symm⟩
        · rename_i hl
          constructor
          · intro h; cases h
          · rintro ⟨_, _, h3⟩
            exfalso
            cases a with
            | nil => simp at h3; exact hl 47 47 b h3.2
            | cons z a =>
              simp at h3
              cases a with
              | nil => simp at h3; exact hl _ _ _ h3.2
              | cons z2 a =>
                cases a with
                | nil => simp at h3; exact hl _ _ _ h3.2
                | cons z3 a => simp at h3; exact hl _ _ _ h3.2
      · rename_i h58
        refine key x h0 (fun hp => h58 ?_)
        obtain ⟨t, ht⟩ := hp
        simp at ht
        exact ht.1.symm

def portText (p : Option Bytes) : Bytes := match p with | none => [] | some x => [58] ++ x

theorem parseHost_iff {r r' : RequestUrl} {l : Bytes} : parseHost r l = some r' ↔
    ∃ h p, l = h ++ portText p ∧ 58 ∉ h ∧ (∀ x, p = some x → x ≠ []) ∧
      r' = { r with host := h, port := p.getD r.port, hostWithPort := l } := by
  unfold parseHost
  cases e : strlchr 58 l with
  | none =>
    rw [strlchr_none] at e
    dsimp only
    constructor
    · intro h; cases h; exact ⟨l, none, by simp [portText], e, fun _ h => (by cases h), rfl⟩
    · rintro ⟨h, p, h1, h2, h3, h4⟩
      cases p with
      | none => simp [portText] at h1; rw [h4, ← h1]; rfl
      | some x => exact absurd (h1 ▸ by simp [portText] : (58 : UInt8) ∈ l) e
  | some q =>
    obtain ⟨a, b⟩ := q
    dsimp only
    obtain ⟨e1, e2⟩ := strlchr_some.1 e
    constructor
    · intro h
      split at h
      · cases h
      · rename_i hb
        cases h
        exact ⟨a, some b, by rw [e2]; simp [portText], e1, fun x hx => by cases hx; exact hb, rfl⟩
    · rintro ⟨h, p, h1, h2, h3, h4⟩
      cases p with
      | none => simp [portText] at h1; rw [← h1, e2] at h2; simp at h2
      | some x =>
        have : strlchr 58 l = some (h, x) := strlchr_some.2 ⟨h2, by rw [h1]; simp [portText]⟩
        rw [e] at this
        cases this
        rw [if_neg (h3 _ rfl), h4]; rfl

def userText (p : Option Bytes) : Bytes := match p with | none => [] | some x => x ++ [64]

theorem parseUser_iff {r r' : RequestUrl} {l : Bytes} : parseUser r l = some r' ↔
    ∃ u h, l = userText u ++ h ∧ (u = none → 64 ∉ h) ∧ (∀ x, u = some x → x ≠ [] ∧ 64 ∉ x ∧ h ≠ []) ∧
      parseHost { r with user := u.getD r.user } h = some r' := by
  unfold parseUser
  cases e : strlchr 64 l with
  | none =>
    rw [strlchr_none] at e
    dsimp only
    constructor
    · intro h; exact ⟨none, l, by simp [userText], fun _ => e, fun _ h => (by cases h), h⟩
    · rintro ⟨u, h, h1, h2, h3, h4⟩
      cases u with
      | none => simp [userText] at h1; rw [h1]; exact h4
      | some x => exact absurd (h1 ▸ by simp [userText] : (64 : UInt8) ∈ l) e
  | some q =>
    obtain ⟨a, b⟩ := q
    dsimp only
    obtain ⟨e1, e2⟩ := strlchr_some.1 e
    constructor
    · intro h
      split at h
      · cases h
      · rename_i ha
        split at h
        · cases h
        · rename_i hb
          exact ⟨some a, b, by rw [e2]; simp [userText], fun h => (by cases h), fun x hx => (by cases hx; exact ⟨ha, e1, hb⟩), h⟩
    · rintro ⟨u, h, h1, h2, h3, h4⟩
      cases u with
      | none => simp [userText] at h1; have := h2 rfl; rw [← h1, e2] at this; simp at this
      | some x =>
        obtain ⟨g1, g2, g3⟩ := h3 x rfl
        have : strlchr 64 l = some (x, h) := strlchr_some.2 ⟨g2, by rw [h1]; simp [userText]⟩
        rw [e] at this
        cases this
        rw [if_neg g1, if_neg g3]; exact h4

def queryText (q : Option (Bytes × Option Bytes)) : Bytes :=
  match q with
  | none => []
  | some (a, none) => [63] ++ a
  | some (a, some f) => [63] ++ a ++ [35] ++ f

def queryArgs (q : Option (Bytes × Option Bytes)) : Bytes := match q with | none => [] | some (a, _) => a
def queryFrag (q : Option (Bytes × Option Bytes)) : Bytes := match q with | some (_, some f) => f | _ => []

/-- The members set from a path. -/
def RequestUrl.pathless (r : RequestUrl) : Prop := r.path = [] ∧ r.args = [] ∧ r.fragment = [] ∧ r.uriWithArgs = []

theorem parsePath_iff {r r' : RequestUrl} (hr : r.pathless) {l : Bytes} : parsePath r (some l) = some r' ↔
    ∃ p q, l = p ++ queryText q ∧ 63 ∉ p ∧ (∀ a, q = some (a, none) → a ≠ [] ∧ 35 ∉ a) ∧ (∀ a f, q = some (a, some f) → 35 ∉ a ∧ f ≠ []) ∧
      r' = { r with path := p, args := queryArgs q, fragment := queryFrag q, uriWithArgs := l } := by
  obtain ⟨r1, r2, r3, r4⟩ := hr
  obtain ⟨_, _, _, _, _, _, _, _, _⟩ := r
  dsimp only at r1 r2 r3 r4
  subst r1 r2 r3 r4
  cases l with
  | nil =>
    unfold parsePath
    constructor
    · intro h; cases h; exact ⟨[], none, rfl, by simp, fun _ h => (by cases h), fun _ _ h => (by cases h), rfl⟩
    · rintro ⟨p, q, h1, h2, h3, h4, h5⟩
      have h1 := h1.symm
      rw [List.append_eq_nil_iff] at h1
      cases q with
      | none => rw [h5, h1.1]; rfl
      | some q =>
        obtain ⟨a, f⟩ := q
        cases f <;> simp [queryText] at h1
  | cons x l =>
    unfold parsePath
    dsimp only
    cases e : strlchr 63 (x :: l) with
    | none =>
      rw [strlchr_none] at e
      dsimp only
      constructor
      · intro h; cases h; exact ⟨x :: l, none, by simp [queryText], e, fun _ h => (by cases h), fun _ _ h => (by cases h), rfl⟩
      · rintro ⟨p, q, h1, h2, h3, h4, h5⟩
        cases q with
        | none => simp [queryText] at h1; rw [h5, ← h1]; rfl
        | some q =>
          obtain ⟨a, f⟩ := q
          exfalso
          apply e
          rw [h1]
          cases f <;> simp [queryText]
    | some q =>
      obtain ⟨p', s⟩ := q
      dsimp only
      obtain ⟨e1, e2⟩ := strlchr_some.1 e
      constructor
      · intro h
        split at h
        · cases h
        · rename_i hs
          cases e' : strlchr 35 s with
          | none =>
            rw [strlchr_none] at e'
            simp only [strlchr_none.2 e'] at h
            cases h
            exact ⟨p', some (s, none), by rw [e2]; rfl, e1, fun a h => (by cases h; exact ⟨hs, e'⟩), fun _ _ h => (by cases h), rfl⟩
          | some q =>
            obtain ⟨a, f⟩ := q
            simp only [e'] at h
            obtain ⟨g1, g2⟩ := strlchr_some.1 e'
            split at h
            · cases h
            · rename_i hf
              cases h
              exact ⟨p', some (a, some f), by rw [e2, g2]; simp [queryText], e1, fun _ h => (by cases h), fun _ _ h => (by cases h; exact ⟨g1, hf⟩), rfl⟩
      · rintro ⟨p, q, h1, h2, h3, h4, h5⟩
        cases q with
        | none => exfalso; simp [queryText] at h1; rw [← h1, e2] at h2; simp at h2
        | some q =>
          obtain ⟨a, f⟩ := q
          cases f with
          | none =>
            have : strlchr 63 (x :: l) = some (p, a) := strlchr_some.2 ⟨h2, by rw [h1]; rfl⟩
            rw [e] at this
            cases this
            obtain ⟨g1, g2⟩ := h3 _ rfl
            rw [if_neg g1]
            simp only [strlchr_none.2 g2]
            rw [h5]; rfl
          | some f =>
            have : strlchr 63 (x :: l) = some (p, a ++ 35 :: f) := strlchr_some.2 ⟨h2, by rw [h1]; simp [queryText]⟩
            rw [e] at this
            cases this
            obtain ⟨g1, g2⟩ := h4 _ _ rfl
            rw [if_neg (by simp)]
            simp only [strlchr_some.2 ⟨g1, rfl⟩, if_neg g2]
            rw [h5]; rfl

/-! ### The property -/

/-- The members of the specification in terms of the lemmas. -/
theorem text_eq (u : Url) : u.text = u.scheme ++ [58, 47, 47] ++ (userText u.user ++ (u.host ++ portText u.port)) ++
    (match u.path with | none => [] | some x => 47 :: (x ++ queryText u.query)) := by
  obtain ⟨a1, a2, a3, a4, a5, a6, _⟩ := ascii1
  obtain ⟨s, us, h, p, pa, q⟩ := u
  unfold Url.text Url.userText Url.hostText Url.pathText Url.queryText
  simp only [a1, a2, a3, a4, a5, a6]
  unfold userText portText queryText
  simp only [List.append_assoc]
  cases pa <;> simp

theorem view_eq (u : Url) : u.view = { scheme := u.scheme, user := u.user.getD [], host := u.host, port := u.port.getD [], path := u.path.getD [], args := queryArgs u.query, fragment := queryFrag u.query, hostWithPort := u.host ++ portText u.port, uriWithArgs := match u.path with | none => [] | some x => x ++ queryText u.query } := by
  obtain ⟨a1, a2, a3, a4, a5, a6, _⟩ := ascii1
  obtain ⟨s, us, h, p, pa, q⟩ := u
  unfold Url.view Url.hostText Url.queryText
  simp only [a1, a2, a4]
  rfl

theorem nil_text (u : Url) : u.userText ++ u.hostText ++ u.pathText = userText u.user ++ (u.host ++ portText u.port) ++
    (match u.path with | none => [] | some x => 47 :: (x ++ queryText u.query)) := by
  obtain ⟨a1, a2, a3, a4, a5, a6, _⟩ := ascii1
  obtain ⟨s, us, h, p, pa, q⟩ := u
  unfold Url.userText Url.hostText Url.pathText Url.queryText
  simp only [a1, a2, a3, a4, a5]
  unfold userText portText queryText
  simp only [List.append_assoc]
  cases pa <;> simp

/-- C31: a URL is parsed into its components. -/
theorem C31_complete (u : Url) (v : u.Valid) : parse {} u.text = some u.view := by
  have v2 := v.first
  have v6 := v.nonempty
  rw [nil_text] at v6
  obtain ⟨a1, a2, a3, a4, a5, a6, a7⟩ := ascii1
  rw [a6, a7] at v2
  have hs : strScheme u.text = some (u.scheme, userText u.user ++ (u.host ++ portText u.port) ++
      (match u.path with | none => [] | some x => 47 :: (x ++ queryText u.query))) :=
    strScheme_some.2 ⟨v.scheme, v2, by rw [text_eq, List.append_assoc]⟩
  unfold parse
  rw [if_neg (by rw [text_eq]; simp), hs]
  dsimp only
  rw [if_neg v6]
  have hauth : 47 ∉ userText u.user ++ (u.host ++ portText u.port) := by
    have h1 := v.user
    have h2 := v.host.1
    have h3 := v.port
    simp only [List.mem_append, not_or]
    refine ⟨?_, h2, ?_⟩
    · cases e : u.user with
      | none => simp [userText]
      | some x => simp [userText, (h1 x e).2.1]
    · cases e : u.port with
      | none => simp [portText]
      | some x => simp [portText, (h3 x e).2.1]
  have huser : parseUser { scheme := u.scheme } (userText u.user ++ (u.host ++ portText u.port)) =
      some { scheme := u.scheme, user := u.user.getD [], host := u.host, port := u.port.getD [], hostWithPort := u.host ++ portText u.port } := by
    refine parseUser_iff.2 ⟨u.user, _, rfl, fun hn => ?_, fun x hx => ⟨(v.user x hx).1, (v.user x hx).2.2, ?_⟩, ?_⟩
    · have h3 := v.port
      simp only [List.mem_append, not_or]
      refine ⟨v.host.2.2 hn, ?_⟩
      cases e : u.port with
      | none => simp [portText]
      | some x => simp [portText, (h3 x e).2.2 hn]
    · rcases v.userHost (by rw [hx]; simp) with h | h
      · intro e; exact h (List.append_eq_nil_iff.1 e).1
      · intro e
        cases e' : u.port with
        | none => exact h e'
        | some y => rw [e'] at e; simp [portText] at e
    · exact parseHost_iff.2 ⟨u.host, u.port, rfl, v.host.2.1, fun x hx => (v.port x hx).1, rfl⟩
  cases hp : u.path with
  | none =>
    have hq := v.noPath hp
    dsimp only
    rw [List.append_nil, strlchr_none.2 hauth]
    dsimp only
    rw [huser, view_eq, hp, hq]
    rfl
  | some x =>
    dsimp only
    rw [strlchr_some.2 ⟨hauth, rfl⟩]
    dsimp only
    rw [huser, Option.bind_some, view_eq, hp]
    exact (parsePath_iff ⟨rfl, rfl, rfl, rfl⟩).2 ⟨x, u.query, rfl, v.path x hp, v.args, v.fragment, rfl⟩

/-- C31: what is accepted is a URL, and the components put together give it back. -/
theorem C31_sound (text : Bytes) (r : RequestUrl) (h : parse {} text = some r) : ∃ u : Url, u.Valid ∧ u.text = text ∧ u.view = r := by
  obtain ⟨a1, a2, a3, a4, a5, a6, a7⟩ := ascii1
  unfold parse at h
  split at h
  · cases h
  · rename_i hne
    cases e : strScheme text with
    | none => rw [e] at h; cases h
    | some q =>
      obtain ⟨scheme, rest⟩ := q
      rw [e] at h
      dsimp only at h
      obtain ⟨s1, s2, s3⟩ := strScheme_some.1 e
      split at h
      · cases h
      · rename_i hrest
        -- split at the slash
        obtain ⟨auth, p, hauth, hrest', h⟩ : ∃ auth p, 47 ∉ auth ∧ rest = auth ++ (match p with | none => [] | some x => 47 :: x) ∧
            (parseUser { scheme := scheme } auth).bind (fun r => parsePath r p) = some r := by
          cases e2 : strlchr 47 rest with
          | none => rw [e2] at h; exact ⟨rest, none, strlchr_none.1 e2, by simp, h⟩
          | some q => obtain ⟨a, p⟩ := q; rw [e2] at h; exact ⟨a, some p, (strlchr_some.1 e2).1, (strlchr_some.1 e2).2, h⟩
        rw [Option.bind_eq_some_iff] at h
        obtain ⟨r1, h1, h2⟩ := h
        obtain ⟨us, hst, g1, g2, g3, g4⟩ := parseUser_iff.1 h1
        obtain ⟨ho, po, k1, k2, k3, k4⟩ := parseHost_iff.1 g4
        subst g1 k1
        simp only [List.mem_append, not_or] at hauth
        obtain ⟨n1, n2, n3⟩ := hauth
        have hpath : ∃ pa qu, (pa = none → qu = none) ∧ (∀ x, pa = some x → 63 ∉ x) ∧ (∀ a, qu = some (a, none) → a ≠ [] ∧ 35 ∉ a) ∧
            (∀ a f, qu = some (a, some f) → 35 ∉ a ∧ f ≠ []) ∧
            (match p with | none => [] | some x => 47 :: x) = (match pa with | none => [] | some x => 47 :: (x ++ queryText qu)) ∧
            r = { r1 with path := pa.getD [], args := queryArgs qu, fragment := queryFrag qu, uriWithArgs := match pa with | none => [] | some x => x ++ queryText qu } := by
          have hr1 : r1.pathless := by rw [k4]; exact ⟨rfl, rfl, rfl, rfl⟩
          cases p with
          | none =>
            refine ⟨none, none, fun _ => rfl, fun _ h => (by cases h), fun _ h => (by cases h), fun _ _ h => (by cases h), rfl, ?_⟩
            unfold parsePath at h2
            cases h2
            rw [k4]; rfl
          | some l =>
            obtain ⟨pa, qu, m1, m2, m3, m4, m5⟩ := (parsePath_iff hr1).1 h2
            exact ⟨some pa, qu, fun h => (by cases h), fun x h => (by cases h; exact m2), m3, m4, by rw [m1], by rw [m5, m1]; rfl⟩
        obtain ⟨pa, qu, m1, m2, m3, m4, m5, m6⟩ := hpath
        refine ⟨⟨scheme, us, ho, po, pa, qu⟩, ⟨s1, by rw [a6, a7]; exact s2, fun x hx => ?_, ⟨n2, k2, fun hn => ?_⟩, fun x hx => ⟨k3 x hx, ?_, fun hn => ?_⟩, fun hu => ?_, ?_, m2, m1, m3, m4⟩, ?_, ?_⟩
        · cases hx
          simp [userText] at n1
          exact ⟨(g3 x rfl).1, n1, (g3 x rfl).2.1⟩
        · have := g2 hn; simp only [List.mem_append, not_or] at this; exact this.1
        · cases hx; simp [portText] at n3; exact n3
        · cases hx; have := g2 hn; simp [portText] at this; exact this.2
        · cases us with
          | none => exact absurd rfl hu
          | some x =>
            have := (g3 x rfl).2.2
            cases po with
            | none => simp [portText] at this; exact .inl this
            | some y => exact .inr (by simp)
        · rw [nil_text]
          dsimp only
          rw [← m5, ← hrest']; exact hrest
        · rw [text_eq, s3]
          dsimp only
          rw [hrest', ← m5]
          simp only [List.append_assoc]
        · rw [view_eq, m6, k4]

/-- C31: anything else is refused. -/
theorem C31_refused (text : Bytes) (h : ∀ u : Url, u.Valid → u.text ≠ text) : parse {} text = none := by
  cases e : parse {} text with
  | none => rfl
  | some r =>
    obtain ⟨u, h1, h2, _⟩ := C31_sound text r e
    exact absurd h2 (h u h1)

/-! ### The port -/

theorem decimal_mono (l : Bytes) (w : Nat) : w ≤ l.foldl (fun v b => v * 10 + (b.toNat - 48)) w := by
  induction l generalizing w with
  | nil => exact Nat.le_refl _
  | cons c l ih => exact Nat.le_trans (show w ≤ w * 10 + (c.toNat - 48) by omega) (ih _)

theorem atoiLoop_spec (l : Bytes) (v n : Nat) (hv : v ≤ maxInt) : atoiLoop v l = some n ↔
    (∀ b ∈ l, 48 ≤ b ∧ b ≤ 57) ∧ l.foldl (fun v b => v * 10 + (b.toNat - 48)) v = n ∧ n ≤ maxInt := by
  induction l generalizing v with
  | nil => 
    simp only [atoiLoop, List.foldl_nil, Option.some.injEq]
    exact ⟨fun h => ⟨fun _ h => (by cases h), h, h ▸ hv⟩, fun h => h.2.1⟩
  | cons b l ih =>
    unfold atoiLoop
    split
    · rename_i hb
      constructor
      · intro h; cases h
      · rintro ⟨h, _⟩
        have := h b (by simp)
        rcases hb with hb | hb
        · exact absurd this.1 (UInt8.not_le.2 hb)
        · exact absurd this.2 (UInt8.not_le.2 hb)
    · rename_i hb
      have hb' : 48 ≤ b ∧ b ≤ 57 := by
        rw [not_or] at hb; exact ⟨UInt8.not_lt.1 hb.1, UInt8.not_lt.1 hb.2⟩
      have hm : maxInt / 10 = 922337203685477580 ∧ maxInt % 10 = 7 := by decide
      have hd : b.toNat - 48 ≤ 9 := by
        have : b.toNat ≤ 57 := UInt8.le_iff_toNat_le.1 hb'.2
        omega
      rw [hm.1, hm.2]
      split
      · rename_i hc
        constructor
        · intro h; cases h
        · rintro ⟨_, h1, h2⟩
          exfalso
          have := decimal_mono l (v * 10 + (b.toNat - 48))
          rw [List.foldl_cons] at h1
          unfold maxInt at h2
          omega
      · rename_i hc
        rw [ih _ (by unfold maxInt; omega), List.foldl_cons]
        constructor
        · rintro ⟨h1, h2⟩
          exact ⟨fun c hc => (List.mem_cons.1 hc).elim (fun e => e ▸ hb') (h1 c), h2⟩
        · rintro ⟨h1, h2⟩
          exact ⟨fun c hc => h1 c (List.mem_cons_of_mem _ hc), h2⟩

/-- C31: with a port in the URL the result is its value if it is a decimal number in 1..65535, and 0 otherwise. -/
theorem C31_port (scheme port : Bytes) (h : port ≠ []) (n : Nat) (hn : n ≠ 0) :
    requestPort scheme port = n ↔ Digits port ∧ decimal port = n ∧ n ≤ 65535 := by
  have hs := fun n => atoiLoop_spec port 0 n (Nat.zero_le _)
  unfold requestPort atoi
  rw [if_pos (by simpa using h), if_neg h]
  unfold Digits decimal
  constructor
  · intro e
    cases e' : atoiLoop 0 port with
    | none => rw [e'] at e; exact absurd e.symm hn
    | some p =>
      rw [e'] at e
      dsimp only at e
      obtain ⟨h1, h2, _⟩ := (hs p).1 e'
      split at e
      · exact absurd e.symm hn
      · subst e; exact ⟨⟨h, h1⟩, h2, by omega⟩
  · rintro ⟨h1, h2, h3⟩
    rw [(hs n).2 ⟨h1.2, h2, by unfold maxInt; omega⟩]
    dsimp only
    rw [if_neg (by omega)]

/-- C31: without a port it is the default of the scheme. -/
theorem C31_default_port (scheme : Bytes) :
    requestPort scheme [] = if scheme = ascii "http" then 80 else if scheme = ascii "https" then 443 else if scheme = ascii "rtmp" then 1935 else 0 := by
  have e : ascii "http" = [104, 116, 116, 112] ∧ ascii "https" = [104, 116, 116, 112, 115] ∧ ascii "rtmp" = [114, 116, 109, 112] := by decide +kernel
  rw [e.1, e.2.1, e.2.2]
  unfold requestPort schemePort
  rw [if_neg (by simp)]
  simp only [findPort]
  have : ∀ l : Bytes, (l.length = scheme.length ∧ l = scheme) ↔ scheme = l := fun l => ⟨fun h => h.2.symm, fun h => ⟨by rw [h], h.symm⟩⟩
  simp only [this]

/-! ### Where the comment of the function is not met -/

/-- C31 fails: an empty scheme or host is accepted. -/
theorem C31_mandatory_violation : (parse {} (ascii "://h/p")).isSome = true ∧ (parse {} (ascii "http:///p")).map (·.host) = some [] ∧
    (parse {} (ascii "http://:80/p")).map (·.host) = some [] := by decide +kernel

/-- C31 fails: a fragment without arguments is taken as part of the path. -/
theorem C31_fragment_violation : (parse {} (ascii "http://h/p#f")).map (fun r => (r.path, r.fragment)) = some (ascii "p#f", []) := by decide +kernel

/-- C31 fails: an IPv6 address in brackets is cut at its first colon. -/
theorem C31_ipv6_violation : (parse {} (ascii "http://[::1]:80/p")).map (fun r => (r.host, requestPort r.scheme r.port)) = some (ascii "[", 0) := by
  decide +kernel

/-! ### Examples -/

def wUrl : Url := ⟨ascii "rtmp", some (ascii "me"), ascii "h.tv", some (ascii "1935"), some (ascii "live/s"), some (ascii "k=1", some (ascii "x"))⟩

theorem wUrl_valid : wUrl.Valid := by
  constructor
  · decide +kernel
  · decide +kernel
  · intro x hx; cases hx; decide +kernel
  · exact ⟨by decide +kernel, by decide +kernel, fun h => by cases h⟩
  · intro x hx; cases hx; exact ⟨by decide +kernel, by decide +kernel, fun h => by cases h⟩
  · exact fun _ => .inl (by decide +kernel)
  · decide +kernel
  · intro x hx; cases hx; decide +kernel
  · intro h; cases h
  · intro a h; cases h
  · intro a f h; cases h; decide +kernel

example : wUrl.text = ascii "rtmp://me@h.tv:1935/live/s?k=1#x" := by decide +kernel
example : (parse {} (ascii "rtmp://me@h.tv:1935/live/s?k=1#x")).isSome = true := by decide +kernel
example : requestPort (ascii "rtmp") (ascii "8080") = 8080 := by decide +kernel
example : parse {} (ascii "rtmp:/h") = none := by decide +kernel

end Verif.Url
