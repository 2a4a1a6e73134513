import Verif.Rtmp.AmfModel
/- Decoding over two byte sources that deliver the same bytes gives the same result; the chain walk delivers the bytes of the
concatenation; output buffers hold the concatenation of what was put. -/
namespace Verif.Amf
open Verif

/-- Two sources related by `Rel` deliver the same bytes for ever. -/
def Sim {A B : Type} (G : Reader A) (H : Reader B) (Rel : A → B → Prop) : Prop :=
  ∀ a b, Rel a b → ∀ n,
    (G.get a n = none ∧ H.get b n = none) ∨
    ∃ x a' b', G.get a n = some (x, a') ∧ H.get b n = some (x, b') ∧ Rel a' b'

/-- Same outcome, same stores, related positions. -/
inductive RR {A B : Type} (Rel : A → B → Prop) : Res A → Res B → Prop
  | ok {a b l} (h : Rel a b) : RR Rel (.ok a l) (.ok b l)
  | err : RR Rel .err .err
  | ub {u} : RR Rel (.ub u) (.ub u)
  | stuck : RR Rel .stuck .stuck

inductive CR {A B : Type} (Rel : A → B → Prop) : Call A → Call B → Prop
  | read {a b es} (h : Rel a b) : CR Rel (.read a es) (.read b es)
  | obj {a b es} (h : Rel a b) : CR Rel (.obj a es) (.obj b es)
  | arr {a b es k} (h : Rel a b) : CR Rel (.arr a es k) (.arr b es k)
  | var {a b es} (h : Rel a b) : CR Rel (.var a es) (.var b es)

variable {A B : Type} {G : Reader A} {H : Reader B} {Rel : A → B → Prop}

theorem RR.bind {x : Res A} {y : Res B} {f : A → Res A} {g : B → Res B} (h : RR Rel x y)
    (hf : ∀ a b, Rel a b → RR Rel (f a) (g b)) : RR Rel (x.bind f) (y.bind g) := by
  cases h with
  | ok hab =>
    have := hf _ _ hab
    simp only [Res.bind]
    revert this
    generalize f _ = u
    generalize g _ = v
    intro this
    cases this with
    | ok h => exact .ok h
    | err => exact .err
    | ub => exact .ub
    | stuck => exact .stuck
  | err => exact .err
  | ub => exact .ub
  | stuck => exact .stuck

theorem rr_store {a : A} {b : B} (h : Rel a b) (d : Data) (bs : Bytes) : RR Rel (store d bs a) (store d bs b) := by
  cases d with
  | null => exact .ok h
  | elts es => exact .ub
  | mem loc cap =>
    simp only [store]
    split
    · exact .ok h
    · exact .ub

theorem rr_readRev (hs : Sim G H Rel) {a : A} {b : B} (h : Rel a b) (d : Data) (n : Nat) :
    RR Rel (readRev G a d n) (readRev H b d n) := by
  rcases hs a b h n with ⟨e1, e2⟩ | ⟨x, a', b', e1, e2, h'⟩
  · simp only [readRev, e1, e2]; exact .err
  · simp only [readRev, e1, e2]; exact rr_store h' _ _

theorem rr_readByte (hs : Sim G H Rel) {a : A} {b : B} (h : Rel a b) (d : Data) :
    RR Rel (readByte G a d) (readByte H b d) := by
  rcases hs a b h 1 with ⟨e1, e2⟩ | ⟨x, a', b', e1, e2, h'⟩
  · simp only [readByte, e1, e2]; exact .err
  · simp only [readByte, e1, e2]; exact rr_store h' _ _

theorem rr_readStr (hs : Sim G H Rel) {a : A} {b : B} (h : Rel a b) (d : Data) (L : Nat) :
    RR Rel (readStr G a d L) (readStr H b d L) := by
  rcases hs a b h 2 with ⟨e1, e2⟩ | ⟨x, a1, b1, e1, e2, h1⟩
  · simp only [readStr, e1, e2]; exact .err
  simp only [readStr, e1, e2]
  cases d with
  | elts es => exact .ub
  | null =>
    rcases hs a1 b1 h1 (beDec x) with ⟨e3, e4⟩ | ⟨y, a2, b2, e3, e4, h2⟩
    · simp only [e3, e4]; exact .err
    · simp only [e3, e4]; exact .ok h2
  | mem loc cap =>
    simp only
    split
    · split
      · exact .ub
      · split
        · exact .ub
        · rcases hs a1 b1 h1 (L - 1) with ⟨e3, e4⟩ | ⟨y, a2, b2, e3, e4, h2⟩
          · simp only [e3, e4]; exact .err
          simp only [e3, e4]
          rcases hs a2 b2 h2 (beDec x - L + 1) with ⟨e5, e6⟩ | ⟨z, a3, b3, e5, e6, h3⟩
          · simp only [e5, e6]; exact .err
          · simp only [e5, e6]; exact .ok h3
    · split
      · exact .ub
      · rcases hs a1 b1 h1 (beDec x) with ⟨e3, e4⟩ | ⟨y, a2, b2, e3, e4, h2⟩
        · simp only [e3, e4]; exact .err
        · simp only [e3, e4]; exact .ok h2

inductive HR (Rel : A → B → Prop) : Head A → Head B → Prop
  | ret {x y} (h : RR Rel x y) : HR Rel (.ret x) (.ret y)
  | go {a b ty d l} (h : Rel a b) : HR Rel (.go a ty d l) (.go b ty d l)

theorem hr_head (hs : Sim G H Rel) {a : A} {b : B} (h : Rel a b) (e : Option Elt) : HR Rel (head G a e) (head H b e) := by
  rcases hs a b h 1 with ⟨e1, e2⟩ | ⟨x, a1, b1, e1, e2, h1⟩
  · cases e with
    | none => simp only [head, e1, e2]; exact .ret .ub
    | some e =>
      simp only [head, e1, e2]
      split
      · split
        · exact .ret .err
        · exact .go h
      · split
        · exact .ret (.ok h)
        · exact .ret .err
  · cases e with
    | none => simp only [head, e1, e2]; exact .go h1
    | some e =>
      simp only [head, e1, e2]
      split
      · split
        · exact .ret .err
        · exact .go h
      · exact .go h1

theorem kr_readKey (hs : Sim G H Rel) {a : A} {b : B} (h : Rel a b) (es : List Elt) (len : Nat) :
    (readKey G a es len = none ∧ readKey H b es len = none) ∨
    ∃ e a' b', readKey G a es len = some (e, a') ∧ readKey H b es len = some (e, b') ∧ Rel a' b' := by
  unfold readKey
  split
  · rcases hs a b h len with ⟨e1, e2⟩ | ⟨x, a1, b1, e1, e2, h1⟩
    · left; simp [e1, e2]
    · right; simp only [e1, e2]; exact ⟨_, _, _, rfl, rfl, h1⟩
  · rcases hs a b h (maxName es) with ⟨e1, e2⟩ | ⟨x, a1, b1, e1, e2, h1⟩
    · left; simp [e1, e2]
    · simp only [e1, e2]
      rcases hs a1 b1 h1 (len - maxName es) with ⟨e3, e4⟩ | ⟨y, a2, b2, e3, e4, h2⟩
      · left; simp [e3, e4]
      · right; simp only [e3, e4]; exact ⟨_, _, _, rfl, rfl, h2⟩

inductive BR (Rel : A → B → Prop) : Option (Res A) → Option (Res B) → Prop
  | none : BR Rel none none
  | some {x y} (h : RR Rel x y) : BR Rel (some x) (some y)

theorem BR.ite {c : Prop} [Decidable c] {x x' : Option (Res A)} {y y' : Option (Res B)} (h : c → BR Rel x y) (h' : ¬ c → BR Rel x' y') :
    BR Rel (if c then x else x') (if c then y else y') := by
  by_cases hc : c
  · rw [if_pos hc, if_pos hc]; exact h hc
  · rw [if_neg hc, if_neg hc]; exact h' hc

theorem br_body (hs : Sim G H Rel) {a : A} {b : B} (h : Rel a b) (ty : Nat) (d : Data) (len : Nat)
    {oA : A → List Elt → Res A} {oB : B → List Elt → Res B} (ho : ∀ a b t, Rel a b → RR Rel (oA a t) (oB b t))
    {rA : A → List Elt → Nat → Res A} {rB : B → List Elt → Nat → Res B} (hr : ∀ a b t k, Rel a b → RR Rel (rA a t k) (rB b t k))
    {vA : A → List Elt → Res A} {vB : B → List Elt → Res B} (hv : ∀ a b t, Rel a b → RR Rel (vA a t) (vB b t)) :
    BR Rel (body G oA rA vA a ty d len) (body H oB rB vB b ty d len) := by
  refine BR.ite (fun _ => .some (rr_readRev hs h d 8)) fun _ => ?_
  refine BR.ite (fun _ => .some (rr_readByte hs h d)) fun _ => ?_
  refine BR.ite (fun _ => .some (rr_readStr hs h d len)) fun _ => ?_
  refine BR.ite (fun _ => .some (.ok h)) fun _ => ?_
  refine BR.ite (fun _ => .some (.ok h)) fun _ => ?_
  refine BR.ite (fun _ => .some ?_) fun _ => ?_
  · rcases hs a b h 4 with ⟨e1, e2⟩ | ⟨x, a1, b1, e1, e2, h1⟩
    · simp only [e1, e2]; exact .err
    · simp only [e1, e2]
      cases d.table with
      | none => exact .ub
      | some t => exact ho _ _ _ h1
  refine BR.ite (fun _ => .some ?_) fun _ => ?_
  · cases d.table with
    | none => exact .ub
    | some t => exact ho _ _ _ h
  refine BR.ite (fun _ => .some ?_) fun _ => ?_
  · cases d.table with
    | none => exact .ub
    | some t =>
      rcases hs a b h 4 with ⟨e1, e2⟩ | ⟨x, a1, b1, e1, e2, h1⟩
      · simp only [e1, e2]; exact .err
      · simp only [e1, e2]; exact hr _ _ _ _ h1
  refine BR.ite (fun _ => .some ?_) fun _ => ?_
  · cases d.table with
    | none => exact .ub
    | some t => exact hv _ _ _ h
  refine BR.ite (fun _ => .some (rr_readByte hs h d)) fun _ => ?_
  refine BR.ite (fun _ => .some (rr_readRev hs h d 2)) fun _ => ?_
  refine BR.ite (fun _ => .some (rr_readRev hs h d 4)) fun _ => ?_
  exact BR.ite (fun _ => .none) fun _ => .some .err

theorem rr_run (hs : Sim G H Rel) : ∀ (n : Nat) (c : Call A) (d : Call B), CR Rel c d → RR Rel (run G n c) (run H n d) := by
  intro n
  induction n with
  | zero => intro c d _; exact .stuck
  | succ n ih =>
    intro c d hcd
    cases hcd with
    | @read a b es h =>
      cases es with
      | nil => exact .ok h
      | cons e es =>
        simp only [run]
        have hh := hr_head hs h e
        revert hh
        generalize head G a e = u
        generalize head H b e = v
        intro hh
        cases hh with
        | ret hx => exact hx
        | @go a b ty d l h =>
          have hb := br_body (G := G) (H := H) hs h ty d l (oA := fun r t => run G n (.obj r t)) (oB := fun r t => run H n (.obj r t))
            (fun _ _ _ h => ih _ _ (.obj h)) (rA := fun r t k => run G n (.arr r t k)) (rB := fun r t k => run H n (.arr r t k))
            (fun _ _ _ _ h => ih _ _ (.arr h)) (vA := fun r t => run G n (.var r t)) (vB := fun r t => run H n (.var r t))
            (fun _ _ _ h => ih _ _ (.var h))
          revert hb
          simp only
          generalize body G _ _ _ a ty d l = x
          generalize body H _ _ _ b ty d l = y
          intro hb
          cases hb with
          | none => exact .ok h
          | some hxy => exact hxy.bind fun a b h => ih _ _ (.read h)
    | @obj a b es h =>
      simp only [run]
      rcases hs a b h 2 with ⟨e1, e2⟩ | ⟨x, a1, b1, e1, e2, h1⟩
      · simp only [e1, e2]; exact .ok h
      simp only [e1, e2]
      split
      · rcases hs a1 b1 h1 1 with ⟨e3, e4⟩ | ⟨y, a2, b2, e3, e4, h2⟩
        · simp only [e3, e4]; exact .err
        simp only [e3, e4]
        split
        · exact .ok h2
        · exact .err
      · rcases kr_readKey hs h1 es (beDec x) with ⟨e3, e4⟩ | ⟨e, a2, b2, e3, e4, h2⟩
        · simp only [e3, e4]; exact .err
        simp only [e3, e4]
        exact (ih _ _ (.read h2)).bind fun a b h => ih _ _ (.obj h)
    | @arr a b es k h =>
      cases k with
      | zero => exact .ok h
      | succ k => simp only [run]; exact (ih _ _ (.read h)).bind fun a b h => ih _ _ (.arr h)
    | @var a b es h =>
      simp only [run]
      rcases hs a b h 1 with ⟨e1, e2⟩ | ⟨x, a1, b1, e1, e2, h1⟩
      · simp only [e1, e2]; exact .err
      · simp only [e1, e2]; exact ih _ _ (.read h1)

/-! ### The chain walk -/

/-- A decoder position inside a chain, and the bytes from there on. -/
def ChainAt (c : Ctx) (bs : Bytes) : Prop :=
  (∀ b r, c.link = b :: r → c.offset ≤ b.length) ∧ bs = c.link.flatten.drop c.offset

theorem getLoop_spec (l : List Bytes) : ∀ (off n : Nat), (∀ b r, l = b :: r → off ≤ b.length) → 0 < n →
    (getLoop l off n = none ∧ (l.flatten.drop off).length < n) ∨
    ∃ c, getLoop l off n = some ((l.flatten.drop off).take n, c) ∧ n ≤ (l.flatten.drop off).length ∧
      ChainAt c ((l.flatten.drop off).drop n) := by
  induction l with
  | nil => intro off n _ hn; left; simp [getLoop, hn]
  | cons b r ih =>
    intro off n hoff hn
    have hoff := hoff b r rfl
    simp only [getLoop]
    have ed : ((b :: r).flatten).drop off = b.drop off ++ r.flatten := by
      rw [List.flatten_cons, List.drop_append_of_le_length hoff]
    split
    · rename_i hle
      right
      refine ⟨_, by rw [ed, List.take_append_of_le_length (by simp; omega)], by simp; omega, ?_, ?_⟩
      · intro b' r' e; simp at e; obtain ⟨rfl, rfl⟩ := e; exact hle
      · show _ = _; rw [List.drop_drop]
    · rename_i hnle
      have hnle : b.length < off + n := by omega
      rcases ih 0 (n - (b.length - off)) (fun _ _ _ => Nat.zero_le _) (by omega) with ⟨e, hl⟩ | ⟨c, e, hl, hc⟩
      · left
        rw [e]
        refine ⟨rfl, ?_⟩
        rw [ed]; simp at hl ⊢; omega
      · right
        rw [e]
        refine ⟨c, ?_, ?_, ?_⟩
        · rw [ed, List.take_append, List.take_of_length_le (i := n) (by simp; omega)]; simp
        · rw [ed]; simp at hl ⊢; omega
        · rw [ed, List.drop_append, List.drop_of_length_le (i := n) (by simp; omega)]
          simpa using hc

theorem sim_chain : Sim chainReader flatReader ChainAt := by
  intro c bs h n
  show (chainGet c n = none ∧ flatGet bs n = none) ∨ ∃ x a' b', chainGet c n = some (x, a') ∧ flatGet bs n = some (x, b') ∧ _
  by_cases hn : n = 0
  · subst hn
    right
    exact ⟨[], c, bs, by simp [chainGet], by simp [flatGet], h⟩
  · obtain ⟨h1, h2⟩ := h
    rcases getLoop_spec c.link c.offset n h1 (by omega) with ⟨e, hl⟩ | ⟨c', e, hl, hc⟩
    · left
      rw [← h2] at hl
      exact ⟨by simp [chainGet, hn, e], by simp [flatGet]; omega⟩
    · right
      rw [← h2] at e hl hc
      exact ⟨_, c', _, by rw [chainGet, if_neg hn]; exact e, by simp only [flatGet, if_pos hl], hc⟩

/-! ### Output buffers -/

theorem put_contents (cap : Nat) (hc : 0 < cap) : ∀ (fuel : Nat) (st : List OBuf × Option OBuf) (p : Bytes), p.length ≤ fuel →
    (∀ b, st.2 = some b → b.data.length ≤ b.cap) →
    ∃ st', put cap fuel st p = some st' ∧ contents (chainOf st') = contents (chainOf st) ++ p ∧
      (∀ b, st'.2 = some b → b.data.length ≤ b.cap) := by
  intro fuel
  induction fuel with
  | zero =>
    intro st p hp hst
    have : p = [] := by simpa using hp
    subst this
    exact ⟨st, by simp [put], by simp, hst⟩
  | succ fuel ih =>
    intro st p hp hst
    cases p with
    | nil => exact ⟨st, by simp [put], by simp, hst⟩
    | cons x xs =>
      obtain ⟨pre, link⟩ := st
      simp only [put]
      -- the buffer written to
      have key : ∃ pre' b, target cap pre link = (pre', b) ∧
          contents (pre' ++ [b]) = contents (chainOf (pre, link)) ∧ b.data.length < b.cap := by
        cases link with
        | none => exact ⟨_, _, rfl, by simp [contents, chainOf], by simpa using hc⟩
        | some b =>
          simp only [target]
          split
          · exact ⟨_, _, rfl, by simp [contents, chainOf], by simpa using hc⟩
          · rename_i hne
            have := hst b rfl
            exact ⟨_, _, rfl, by simp [contents, chainOf], by omega⟩
      obtain ⟨pre', b, e, ec, hb⟩ := key
      rw [e]
      simp only
      split
      · rename_i hle
        refine ⟨_, rfl, ?_, ?_⟩
        · rw [← ec]; simp [contents, chainOf]
        · intro b' hb'; cases hb'; simp at hle ⊢; omega
      · rename_i hle
        have hlen : ((x :: xs).drop (b.cap - b.data.length)).length ≤ fuel := by
          simp at hp ⊢; omega
        have hst2 : ∀ b', (pre', some { b with data := b.data ++ (x :: xs).take (b.cap - b.data.length) }).2 = some b' →
            b'.data.length ≤ b'.cap := by
          intro b' hb'; cases hb'; simp; omega
        obtain ⟨st', e1, e2, e3⟩ := ih _ _ hlen hst2
        refine ⟨st', e1, ?_, e3⟩
        rw [e2, ← ec]
        simp [contents, chainOf]

theorem putAll_contents (cap : Nat) (hc : 0 < cap) : ∀ (ps : List Bytes) (st : List OBuf × Option OBuf),
    (∀ b, st.2 = some b → b.data.length ≤ b.cap) →
    ∃ st', putAll cap st ps = some st' ∧ contents (chainOf st') = contents (chainOf st) ++ ps.flatten ∧
      (∀ b, st'.2 = some b → b.data.length ≤ b.cap) := by
  intro ps
  induction ps with
  | nil => intro st h; exact ⟨st, rfl, by simp, h⟩
  | cons p ps ih =>
    intro st h
    obtain ⟨s1, e1, c1, h1⟩ := put_contents cap hc p.length st p (Nat.le_refl _) h
    obtain ⟨s2, e2, c2, h2⟩ := ih s1 h1
    exact ⟨s2, by simp only [putAll, e1, e2], by rw [c2, c1]; simp, h2⟩

end Verif.Amf
