import Verif.Rtmp.AmfDecode
import Verif.Rtmp.AmfLemmas
/- Termination of the decoder on every input, independence of the step budget, and absence of overflows. -/
namespace Verif.Amf
open Verif

/-! ### More steps do not change a result -/

/-- `y` refines `x`: equal unless `x` ran out of steps. -/
def Ref {R : Type} (x y : Res R) : Prop := x ≠ .stuck → y = x

theorem Ref.rfl {R : Type} {x : Res R} : Ref x x := fun _ => Eq.refl x

theorem Ref.bind {R : Type} {x y : Res R} {f g : R → Res R} (h : Ref x y) (hf : ∀ r, Ref (f r) (g r)) : Ref (x.bind f) (y.bind g) := by
  intro hne
  cases x with
  | stuck => exact absurd (Eq.refl _) hne
  | err => rw [h (by simp)]; exact Eq.refl _
  | ub u => rw [h (by simp)]; exact Eq.refl _
  | ok r l =>
    rw [h (by simp)]
    have : f r ≠ .stuck := by
      intro e; simp only [Res.bind, e] at hne; exact hne (Eq.refl _)
    simp only [Res.bind, hf r this]

def RefO {R : Type} : Option (Res R) → Option (Res R) → Prop
  | none, none => True
  | some x, some y => Ref x y
  | _, _ => False

theorem RefO.ite {R : Type} {c : Prop} [Decidable c] {x x' y y' : Option (Res R)} (h : RefO x y) (h' : RefO x' y') :
    RefO (if c then x else x') (if c then y else y') := by
  by_cases hc : c
  · rw [if_pos hc, if_pos hc]; exact h
  · rw [if_neg hc, if_neg hc]; exact h'

theorem refO_refl {R : Type} (x : Option (Res R)) : RefO x x := by
  cases x with
  | none => trivial
  | some x => exact Ref.rfl

theorem refO_body {R : Type} (G : Reader R) {o o' : R → List Elt → Res R} {a a' : R → List Elt → Nat → Res R} {v v' : R → List Elt → Res R}
    (ho : ∀ r t, Ref (o r t) (o' r t)) (ha : ∀ r t k, Ref (a r t k) (a' r t k)) (hv : ∀ r t, Ref (v r t) (v' r t))
    (r : R) (ty : Nat) (d : Data) (len : Nat) : RefO (body G o a v r ty d len) (body G o' a' v' r ty d len) := by
  refine RefO.ite (refO_refl _) ?_
  refine RefO.ite (refO_refl _) ?_
  refine RefO.ite (refO_refl _) ?_
  refine RefO.ite (refO_refl _) ?_
  refine RefO.ite (refO_refl _) ?_
  refine RefO.ite ?_ ?_
  · show Ref _ _
    cases G.get r 4 with
    | none => exact Ref.rfl
    | some p =>
      simp only
      cases d.table with
      | none => exact Ref.rfl
      | some t => exact ho _ _
  refine RefO.ite ?_ ?_
  · show Ref _ _
    cases d.table with
    | none => exact Ref.rfl
    | some t => exact ho _ _
  refine RefO.ite ?_ ?_
  · show Ref _ _
    cases d.table with
    | none => exact Ref.rfl
    | some t =>
      simp only
      cases G.get r 4 with
      | none => exact Ref.rfl
      | some p => exact ha _ _ _
  refine RefO.ite ?_ ?_
  · show Ref _ _
    cases d.table with
    | none => exact Ref.rfl
    | some t => exact hv _ _
  exact refO_refl _

theorem run_mono1 {R : Type} (G : Reader R) : ∀ (n : Nat) (c : Call R), Ref (run G n c) (run G (n + 1) c) := by
  intro n
  induction n with
  | zero => intro c h; exact absurd (Eq.refl _) h
  | succ n ih =>
    intro c
    cases c with
    | read r es =>
      cases es with
      | nil => exact Ref.rfl
      | cons e es =>
        rw [run_cons, run_cons]
        cases head G r e with
        | ret x => exact Ref.rfl
        | go r ty d len =>
          simp only
          have hb := refO_body G (o := fun r t => run G n (.obj r t)) (o' := fun r t => run G (n + 1) (.obj r t))
            (fun r t => ih _) (a := fun r t k => run G n (.arr r t k)) (a' := fun r t k => run G (n + 1) (.arr r t k))
            (fun r t k => ih _) (v := fun r t => run G n (.var r t)) (v' := fun r t => run G (n + 1) (.var r t))
            (fun r t => ih _) r ty d len
          revert hb
          generalize body G _ _ _ r ty d len = x
          generalize body G _ _ _ r ty d len = y
          intro hb
          cases x with
          | none =>
            cases y with
            | none => exact Ref.rfl
            | some y => exact absurd hb (by simp [RefO])
          | some x =>
            cases y with
            | none => exact absurd hb (by simp [RefO])
            | some y => exact Ref.bind (show Ref x y from hb) fun r => ih _
    | obj r es =>
      rw [run_obj, run_obj]
      cases G.get r 2 with
      | none => exact Ref.rfl
      | some p =>
        simp only
        split
        · exact Ref.rfl
        · cases readKey G p.2 es (beDec p.1) with
          | none => exact Ref.rfl
          | some q => exact (ih _).bind fun r => ih _
    | arr r es k =>
      cases k with
      | zero => exact Ref.rfl
      | succ k => rw [run_arr, run_arr]; exact (ih _).bind fun r => ih _
    | var r es =>
      rw [run_var, run_var]
      cases G.get r 1 with
      | none => exact Ref.rfl
      | some p => exact ih _

theorem run_mono {R : Type} (G : Reader R) {n m : Nat} {c : Call R} {x : Res R} (h : run G n c = x) (hx : x ≠ .stuck) (hm : n ≤ m) :
    run G m c = x := by
  induction m with
  | zero => have : n = 0 := by omega
            subst this; exact h
  | succ m ih =>
    by_cases e : n = m + 1
    · subst e; exact h
    · have := ih (by omega)
      rw [run_mono1 G m c (by rw [this]; exact hx), this]

/-! ### Positions only move forward -/

theorem flatGet_len {bs x r : Bytes} {n : Nat} (h : flatReader.get bs n = some (x, r)) : x.length = n ∧ r.length + n = bs.length := by
  simp only [flatReader, flatGet] at h
  split at h
  · cases h; simp; omega
  · exact absurd h (by simp)

theorem len_store {d : Data} {b r r' : Bytes} {l : List Write} (h : store d b r = .ok r' l) : r' = r := by
  cases d with
  | null => simp only [store] at h; cases h; rfl
  | elts es => simp [store] at h
  | mem loc cap =>
    simp only [store] at h
    split at h
    · cases h; rfl
    · exact absurd h (by simp)

theorem len_readRev {bs r' : Bytes} {d : Data} {n : Nat} {l : List Write} (h : readRev flatReader bs d n = .ok r' l) :
    r'.length ≤ bs.length := by
  simp only [readRev] at h
  split at h
  · exact absurd h (by simp)
  · rename_i x r hg
    have := (flatGet_len hg).2
    rw [len_store h]; omega

theorem len_readByte {bs r' : Bytes} {d : Data} {l : List Write} (h : readByte flatReader bs d = .ok r' l) :
    r'.length ≤ bs.length := by
  simp only [readByte] at h
  split at h
  · exact absurd h (by simp)
  · rename_i x r hg
    have := (flatGet_len hg).2
    rw [len_store h]; omega

theorem len_readStr {bs r' : Bytes} {d : Data} {L : Nat} {l : List Write} (h : readStr flatReader bs d L = .ok r' l) :
    r'.length ≤ bs.length := by
  simp only [readStr] at h
  split at h
  · exact absurd h (by simp)
  · rename_i x r hg
    have h0 := (flatGet_len hg).2
    split at h
    · split at h
      · exact absurd h (by simp)
      · rename_i hg2
        have := (flatGet_len hg2).2
        cases h; omega
    · exact absurd h (by simp)
    · split at h
      · split at h
        · exact absurd h (by simp)
        · split at h
          · exact absurd h (by simp)
          · split at h
            · exact absurd h (by simp)
            · rename_i hg2
              have h2 := (flatGet_len hg2).2
              split at h
              · exact absurd h (by simp)
              · rename_i hg3
                have h3 := (flatGet_len hg3).2
                cases h; omega
      · split at h
        · exact absurd h (by simp)
        · split at h
          · exact absurd h (by simp)
          · rename_i hg2
            have := (flatGet_len hg2).2
            cases h; omega

theorem bind_eq_ok {R : Type} {x : Res R} {f : R → Res R} {r : R} {l : List Write} (h : x.bind f = .ok r l) :
    ∃ r1 l1 l2, x = .ok r1 l1 ∧ f r1 = .ok r l2 ∧ l = l1 ++ l2 := by
  cases x with
  | ok r1 l1 =>
    simp only [Res.bind] at h
    split at h
    · rename_i r2 l2 e
      cases h
      exact ⟨r1, l1, l2, rfl, e, rfl⟩
    · rename_i hne
      exact absurd h (hne _ _)
  | err => simp [Res.bind] at h
  | ub u => simp [Res.bind] at h
  | stuck => simp [Res.bind] at h

/-- Where a call stands. -/
def Call.pos : Call Bytes → Bytes
  | .read r _ => r
  | .obj r _ => r
  | .arr r _ _ => r
  | .var r _ => r

def Fwd (x : Res Bytes) (n : Nat) : Prop := ∀ r l, x = .ok r l → r.length ≤ n

theorem fwd_ite {c : Prop} [Decidable c] {x y : Option (Res Bytes)} {n : Nat} (h : ∀ z, x = some z → Fwd z n)
    (h' : ∀ z, y = some z → Fwd z n) : ∀ z, (if c then x else y) = some z → Fwd z n := by
  by_cases hc : c
  · rw [if_pos hc]; exact h
  · rw [if_neg hc]; exact h'

theorem fwd_some {x : Res Bytes} {n : Nat} (h : Fwd x n) : ∀ z, some x = some z → Fwd z n := by
  intro z e; cases e; exact h

theorem fwd_err {n : Nat} : Fwd .err n := by intro r l h; simp at h
theorem fwd_ub {n : Nat} {u : UB} : Fwd (.ub u) n := by intro r l h; simp at h

theorem fwd_body {o : Bytes → List Elt → Res Bytes} {a : Bytes → List Elt → Nat → Res Bytes} {v : Bytes → List Elt → Res Bytes}
    (ho : ∀ r t, Fwd (o r t) r.length) (ha : ∀ r t k, Fwd (a r t k) r.length) (hv : ∀ r t, Fwd (v r t) r.length)
    (r : Bytes) (ty : Nat) (d : Data) (len : Nat) : ∀ z, body flatReader o a v r ty d len = some z → Fwd z r.length := by
  refine fwd_ite (fwd_some fun _ _ h => len_readRev h) ?_
  refine fwd_ite (fwd_some fun _ _ h => len_readByte h) ?_
  refine fwd_ite (fwd_some fun _ _ h => len_readStr h) ?_
  refine fwd_ite (fwd_some fun _ _ h => by cases h; exact Nat.le_refl _) ?_
  refine fwd_ite (fwd_some fun _ _ h => by cases h; exact Nat.le_refl _) ?_
  refine fwd_ite (fwd_some ?_) ?_
  · cases hg : flatReader.get r 4 with
    | none => exact fwd_err
    | some p =>
      have := (flatGet_len hg).2
      simp only
      cases d.table with
      | none => exact fwd_ub
      | some t => intro r' l h; have := ho _ _ _ _ h; omega
  refine fwd_ite (fwd_some ?_) ?_
  · cases d.table with
    | none => exact fwd_ub
    | some t => exact ho _ _
  refine fwd_ite (fwd_some ?_) ?_
  · cases d.table with
    | none => exact fwd_ub
    | some t =>
      simp only
      cases hg : flatReader.get r 4 with
      | none => exact fwd_err
      | some p =>
        have := (flatGet_len hg).2
        intro r' l h; have := ha _ _ _ _ _ h; omega
  refine fwd_ite (fwd_some ?_) ?_
  · cases d.table with
    | none => exact fwd_ub
    | some t => exact hv _ _
  refine fwd_ite (fwd_some fun _ _ h => len_readByte h) ?_
  refine fwd_ite (fwd_some fun _ _ h => len_readRev h) ?_
  refine fwd_ite (fwd_some fun _ _ h => len_readRev h) ?_
  refine fwd_ite (fun z h => absurd h (by simp)) ?_
  exact fwd_some fwd_err

theorem head_len {r r1 : Bytes} {e : Option Elt} {ty len : Nat} {d : Data} (h : head flatReader r e = .go r1 ty d len) :
    r1.length ≤ r.length ∧ ((∀ x, e = some x → x.typeless = false) → r1.length < r.length) := by
  cases e with
  | none =>
    simp only [head] at h
    split at h
    · exact absurd h (by simp)
    · rename_i hg
      have := (flatGet_len hg).2
      cases h; exact ⟨by omega, fun _ => by omega⟩
  | some e =>
    simp only [head] at h
    split at h
    · rename_i ht
      split at h
      · exact absurd h (by simp)
      · cases h
        exact ⟨Nat.le_refl _, fun hx => by rw [hx e rfl] at ht; exact absurd ht (by simp)⟩
    · split at h
      · split at h <;> exact absurd h (by simp)
      · rename_i hg
        have := (flatGet_len hg).2
        cases h; exact ⟨by omega, fun _ => by omega⟩

theorem head_ret_len {r : Bytes} {e : Option Elt} {x : Res Bytes} (h : head flatReader r e = .ret x) :
    Fwd x r.length ∧ x ≠ .stuck := by
  cases e with
  | none =>
    simp only [head] at h
    split at h
    · cases h; exact ⟨fwd_ub, by simp⟩
    · exact absurd h (by simp)
  | some e =>
    simp only [head] at h
    split at h
    · split at h
      · cases h; exact ⟨fwd_err, by simp⟩
      · exact absurd h (by simp)
    · split at h
      · split at h
        · cases h; exact ⟨fun r' l h => by cases h; exact Nat.le_refl _, by simp⟩
        · cases h; exact ⟨fwd_err, by simp⟩
      · exact absurd h (by simp)

theorem readKey_len {r r' : Bytes} {es : List Elt} {len : Nat} {e : Option Elt} (h : readKey flatReader r es len = some (e, r')) :
    r'.length + len = r.length := by
  simp only [readKey] at h
  split at h
  · split at h
    · exact absurd h (by simp)
    · rename_i hg
      have := (flatGet_len hg).2
      cases h; omega
  · rename_i hlt
    split at h
    · exact absurd h (by simp)
    · rename_i hg
      have := (flatGet_len hg).2
      split at h
      · exact absurd h (by simp)
      · rename_i hg2
        have := (flatGet_len hg2).2
        cases h; omega

theorem run_fwd : ∀ (n : Nat) (c : Call Bytes), Fwd (run flatReader n c) c.pos.length := by
  intro n
  induction n with
  | zero => intro c r l h; simp [run] at h
  | succ n ih =>
    intro c
    cases c with
    | read r es =>
      cases es with
      | nil => intro r' l h; rw [run_nil] at h; cases h; exact Nat.le_refl _
      | cons e es =>
        intro r' l h
        rw [run_cons] at h
        split at h
        · rename_i x hx
          exact (head_ret_len hx).1 _ _ h
        · rename_i r1 ty d len hx
          have h1 := (head_len hx).1
          split at h
          · cases h; exact h1
          · rename_i x hb
            obtain ⟨r2, l1, l2, e1, e2, _⟩ := bind_eq_ok h
            have := fwd_body (fun r t => ih (.obj r t)) (fun r t k => ih (.arr r t k)) (fun r t => ih (.var r t)) r1 ty d len x hb _ _ e1
            have := ih (.read r2 es) _ _ e2
            simp only [Call.pos] at this ⊢
            omega
    | obj r es =>
      intro r' l h
      rw [run_obj] at h
      simp only [Call.pos]
      split at h
      · cases h; exact Nat.le_refl _
      · rename_i b r1 hg
        have := (flatGet_len hg).2
        split at h
        · split at h
          · exact absurd h (by simp)
          · rename_i hg2
            have := (flatGet_len hg2).2
            split at h
            · cases h; omega
            · exact absurd h (by simp)
        · split at h
          · exact absurd h (by simp)
          · rename_i hk
            have := readKey_len hk
            obtain ⟨r2, l1, l2, e1, e2, _⟩ := bind_eq_ok h
            have h3 := ih _ _ _ e1
            have h4 := ih _ _ _ e2
            simp only [Call.pos] at h3 h4
            omega
    | arr r es k =>
      cases k with
      | zero => intro r' l h; simp only [run] at h; cases h; exact Nat.le_refl _
      | succ k =>
        intro r' l h
        rw [run_arr] at h
        obtain ⟨r2, l1, l2, e1, e2, _⟩ := bind_eq_ok h
        have h3 := ih _ _ _ e1
        have h4 := ih _ _ _ e2
        simp only [Call.pos] at h3 h4 ⊢
        omega
    | var r es =>
      intro r' l h
      rw [run_var] at h
      simp only [Call.pos]
      split at h
      · exact absurd h (by simp)
      · rename_i hg
        have := (flatGet_len hg).2
        have h4 := ih _ _ _ h
        simp only [Call.pos] at h4
        omega

/-! ### Termination -/

/-- The call ends. -/
def Ends (c : Call Bytes) : Prop := ∃ n x, run flatReader n c = x ∧ x ≠ .stuck

theorem ends_bind {c : Call Bytes} {f : Bytes → Call Bytes} (hc : Ends c) (hf : ∀ r, r.length ≤ c.pos.length → Ends (f r)) :
    ∃ n, ∀ m, n ≤ m → (run flatReader m c).bind (fun r => run flatReader m (f r)) ≠ .stuck := by
  obtain ⟨n, x, e, hx⟩ := hc
  cases hxe : x with
  | stuck => exact absurd hxe hx
  | err => exact ⟨n, fun m hm => by rw [run_mono _ e hx hm, hxe]; simp [Res.bind]⟩
  | ub u => exact ⟨n, fun m hm => by rw [run_mono _ e hx hm, hxe]; simp [Res.bind]⟩
  | ok r l =>
    obtain ⟨n2, y, e2, hy⟩ := hf r (run_fwd n c r l (by rw [e, hxe]))
    refine ⟨max n n2, fun m hm => ?_⟩
    rw [run_mono _ e hx (by omega), hxe]
    simp only [Res.bind]
    rw [run_mono _ e2 hy (by omega)]
    intro hs
    split at hs
    · simp at hs
    · exact hy hs

theorem ends_at {c : Call Bytes} (h : Ends c) : ∃ n, ∀ m, n ≤ m → run flatReader m c ≠ .stuck := by
  obtain ⟨n, x, e, hx⟩ := h
  exact ⟨n, fun m hm => by rw [run_mono _ e hx hm]; exact hx⟩

theorem store_ne {d : Data} {b r : Bytes} : store d b r ≠ .stuck := by
  cases d with
  | null => simp [store]
  | elts es => simp [store]
  | mem loc cap => simp only [store]; split <;> simp

theorem readRev_ne {d : Data} {n : Nat} {r : Bytes} : readRev flatReader r d n ≠ .stuck := by
  simp only [readRev]; split
  · simp
  · exact store_ne

theorem readByte_ne {d : Data} {r : Bytes} : readByte flatReader r d ≠ .stuck := by
  simp only [readByte]; split
  · simp
  · exact store_ne

theorem readStr_ne {d : Data} {L : Nat} {r : Bytes} : readStr flatReader r d L ≠ .stuck := by
  simp only [readStr]
  split
  · simp
  · split
    · split <;> simp
    · simp
    · split
      · split
        · simp
        · split
          · simp
          · split
            · simp
            · split <;> simp
      · split
        · simp
        · split <;> simp

/-- A body that ends for all large budgets. -/
def EndsB (r : Bytes) (ty : Nat) (d : Data) (len : Nat) : Prop :=
  ∃ n, ∀ m, n ≤ m → bodyN m r ty d len ≠ some .stuck

theorem endsB_of {r : Bytes} {ty : Nat} {d : Data} {len : Nat} (ho : ∀ t, Ends (.obj r t)) (hv : ∀ t, Ends (.var r t))
    (ho' : ∀ r' t, r'.length < r.length → Ends (.obj r' t)) (ha : ∀ r' t k, r'.length < r.length → Ends (.arr r' t k)) :
    EndsB r ty d len := by
  unfold EndsB bodyN body
  have ite : ∀ (c : Prop) [Decidable c] (x y : Nat → Option (Res Bytes)),
      (∃ n, ∀ m, n ≤ m → x m ≠ some .stuck) → (∃ n, ∀ m, n ≤ m → y m ≠ some .stuck) →
      ∃ n, ∀ m, n ≤ m → (if c then x m else y m) ≠ some .stuck := by
    intro c _ x y hx hy
    by_cases h : c
    · simp only [if_pos h]; exact hx
    · simp only [if_neg h]; exact hy
  have one : ∀ (x : Res Bytes), x ≠ .stuck → ∃ n : Nat, ∀ m : Nat, n ≤ m → some x ≠ some (Res.stuck : Res Bytes) :=
    fun x h => ⟨0, fun m _ => by simpa using h⟩
  refine ite _ (fun _ => _) _ (one _ readRev_ne) ?_
  refine ite _ (fun _ => _) _ (one _ readByte_ne) ?_
  refine ite _ (fun _ => _) _ (one _ readStr_ne) ?_
  refine ite _ (fun _ => _) _ (one _ (by simp)) ?_
  refine ite _ (fun _ => _) _ (one _ (by simp)) ?_
  refine ite _ _ _ ?_ ?_
  · cases hg : flatReader.get r 4 with
    | none => exact one _ (by simp)
    | some p =>
      have hl := (flatGet_len hg).2
      cases d.table with
      | none => exact one _ (by simp)
      | some t =>
        obtain ⟨n, h⟩ := ends_at (ho' p.2 t (by omega))
        exact ⟨n, fun m hm => by simpa using h m hm⟩
  refine ite _ _ _ ?_ ?_
  · cases d.table with
    | none => exact one _ (by simp)
    | some t =>
      obtain ⟨n, h⟩ := ends_at (ho t)
      exact ⟨n, fun m hm => by simpa using h m hm⟩
  refine ite _ _ _ ?_ ?_
  · cases d.table with
    | none => exact one _ (by simp)
    | some t =>
      cases hg : flatReader.get r 4 with
      | none => exact one _ (by simp)
      | some p =>
        have hl := (flatGet_len hg).2
        obtain ⟨n, h⟩ := ends_at (ha p.2 t (beDec p.1) (by omega))
        exact ⟨n, fun m hm => by simpa using h m hm⟩
  refine ite _ _ _ ?_ ?_
  · cases d.table with
    | none => exact one _ (by simp)
    | some t =>
      obtain ⟨n, h⟩ := ends_at (hv t)
      exact ⟨n, fun m hm => by simpa using h m hm⟩
  refine ite _ (fun _ => _) _ (one _ readByte_ne) ?_
  refine ite _ (fun _ => _) _ (one _ readRev_ne) ?_
  refine ite _ (fun _ => _) _ (one _ readRev_ne) ?_
  refine ite _ (fun _ => _) (fun _ => _) ⟨0, fun m _ => by simp⟩ (one _ (by simp))

theorem ends_all : ∀ (B : Nat) (c : Call Bytes), c.pos.length ≤ B → Ends c := by
  intro B
  induction B using Nat.strongRecOn with
  | _ B ihB =>
    have small : ∀ c : Call Bytes, c.pos.length < B → Ends c := fun c h => ihB c.pos.length h c (Nat.le_refl _)
    -- objects and variants consume a byte before they recurse
    have hobj : ∀ r t, r.length ≤ B → Ends (.obj r t) := by
      intro r t hr
      cases hg : flatReader.get r 2 with
      | none => exact ⟨1, .ok r [], by rw [run_obj, hg], by simp⟩
      | some p =>
        have hl := (flatGet_len hg).2
        by_cases h0 : beDec p.1 = 0
        · refine ⟨1, _, rfl, ?_⟩
          rw [run_obj, hg]
          simp only [h0, if_true]
          split
          · simp
          · split <;> simp
        · cases hk : readKey flatReader p.2 t (beDec p.1) with
          | none => exact ⟨1, .err, by rw [run_obj, hg]; simp only [h0, if_false, hk], by simp⟩
          | some q =>
            have hkl := readKey_len hk
            obtain ⟨n, hn⟩ := ends_bind (c := .read q.2 [q.1]) (f := fun r => .obj r t) (small _ (by simp only [Call.pos]; omega))
              (fun r' h' => small _ (by simp only [Call.pos] at h' ⊢; omega))
            refine ⟨n + 1, _, rfl, ?_⟩
            rw [run_obj, hg]
            simp only [h0, if_false, hk]
            exact hn n (Nat.le_refl _)
    have hvar : ∀ r t, r.length ≤ B → Ends (.var r t) := by
      intro r t hr
      cases hg : flatReader.get r 1 with
      | none => exact ⟨1, .err, by rw [run_var, hg], by simp⟩
      | some p =>
        have hl := (flatGet_len hg).2
        obtain ⟨n, x, e, hx⟩ := small (.read p.2 [some (variantElt t (beDec p.1))]) (by simp only [Call.pos]; omega)
        exact ⟨n + 1, x, by rw [run_var, hg]; exact e, hx⟩
    have hread : ∀ es r, r.length ≤ B → Ends (.read r es) := by
      intro es
      induction es with
      | nil => intro r _; exact ⟨1, _, run_nil _ 0 r, by simp⟩
      | cons e es ih =>
        intro r hr
        cases hh : head flatReader r e with
        | ret x => exact ⟨1, x, by rw [run_cons, hh], (head_ret_len hh).2⟩
        | go r1 ty d len =>
          have h1 := (head_len hh).1
          obtain ⟨n, hn⟩ : EndsB r1 ty d len := endsB_of (fun t => hobj r1 t (by omega)) (fun t => hvar r1 t (by omega))
            (fun r' t h' => small _ (by simp only [Call.pos]; omega)) (fun r' t k h' => small _ (by simp only [Call.pos]; omega))
          cases hb : bodyN n r1 ty d len with
          | none => exact ⟨n + 1, .ok r1 [], by rw [run_cons, hh]; simp only; rw [show body flatReader _ _ _ r1 ty d len = none from hb], by simp⟩
          | some x =>
            have hx : x ≠ .stuck := by intro hs; rw [hs] at hb; exact hn n (Nat.le_refl _) hb
            -- the body gives `x` for every larger budget
            have hbm : ∀ m, n ≤ m → bodyN m r1 ty d len = some x := by
              intro m hm
              induction m with
              | zero => have : n = 0 := by omega
                        subst this; exact hb
              | succ m ihm =>
                by_cases e : n = m + 1
                · subst e; exact hb
                · have hm' := ihm (by omega)
                  have := refO_body flatReader (o := fun r t => run flatReader m (.obj r t)) (o' := fun r t => run flatReader (m + 1) (.obj r t))
                    (fun r t => run_mono1 _ _ _) (a := fun r t k => run flatReader m (.arr r t k)) (a' := fun r t k => run flatReader (m + 1) (.arr r t k))
                    (fun r t k => run_mono1 _ _ _) (v := fun r t => run flatReader m (.var r t)) (v' := fun r t => run flatReader (m + 1) (.var r t))
                    (fun r t => run_mono1 _ _ _) r1 ty d len
                  rw [show body flatReader _ _ _ r1 ty d len = some x from hm'] at this
                  cases hy : bodyN (m + 1) r1 ty d len with
                  | none => rw [show body flatReader _ _ _ r1 ty d len = none from hy] at this; exact absurd this (by simp [RefO])
                  | some y =>
                    rw [show body flatReader _ _ _ r1 ty d len = some y from hy] at this
                    have this : Ref x y := this
                    rw [this hx]
            cases hxe : x with
            | stuck => exact absurd hxe hx
            | err => exact ⟨n + 1, .err, by rw [run_cons, hh]; simp only; rw [show body flatReader _ _ _ r1 ty d len = _ from hb, hxe]; rfl, by simp⟩
            | ub u => exact ⟨n + 1, .ub u, by rw [run_cons, hh]; simp only; rw [show body flatReader _ _ _ r1 ty d len = _ from hb, hxe]; rfl, by simp⟩
            | ok r2 l =>
              have h2 : r2.length ≤ r1.length := fwd_body (fun r t => run_fwd n (.obj r t)) (fun r t k => run_fwd n (.arr r t k))
                (fun r t => run_fwd n (.var r t)) r1 ty d len x hb r2 l hxe
              obtain ⟨n2, y, e2, hy⟩ := ih r2 (by omega)
              refine ⟨max n n2 + 1, _, rfl, ?_⟩
              rw [run_cons, hh]
              simp only
              rw [show body flatReader _ _ _ r1 ty d len = _ from hbm (max n n2) (by omega), hxe]
              simp only [Res.bind]
              rw [run_mono _ e2 hy (by omega)]
              intro hs
              split at hs
              · simp at hs
              · exact hy hs
    have harr : ∀ k r t, r.length ≤ B → Ends (.arr r t k) := by
      intro k
      induction k with
      | zero => intro r t _; exact ⟨1, .ok r [], rfl, by simp⟩
      | succ k ih =>
        intro r t hr
        obtain ⟨n, hn⟩ := ends_bind (c := .read r [t.head?]) (f := fun r => .arr r t.tail k) (hread _ r hr)
          (fun r' h' => ih r' _ (by simp only [Call.pos] at h'; omega))
        exact ⟨n + 1, _, rfl, by rw [run_arr]; exact hn n (Nat.le_refl _)⟩
    intro c hc
    cases c with
    | read r es => exact hread es r hc
    | obj r t => exact hobj r t hc
    | arr r t k => exact harr k r t hc
    | var r t => exact hvar r t hc

/-! ### No overflow, no confusion of pointers -/

/-- Not one of the two memory errors. -/
def Clean {R : Type} (x : Res R) : Prop := x ≠ .ub .overflow ∧ x ≠ .ub .confusion

theorem Clean.ok {R : Type} {r : R} {l : List Write} : Clean (.ok r l) := ⟨by simp, by simp⟩
theorem Clean.err {R : Type} : Clean (.err : Res R) := ⟨by simp, by simp⟩
theorem Clean.null {R : Type} : Clean (.ub .nullElt : Res R) := ⟨by simp, by simp⟩
theorem Clean.stuck {R : Type} : Clean (.stuck : Res R) := ⟨by simp, by simp⟩

theorem Clean.bind {R : Type} {x : Res R} {f : R → Res R} (h : Clean x) (hf : ∀ r, Clean (f r)) : Clean (x.bind f) := by
  cases x with
  | ok r l =>
    simp only [Res.bind]
    split
    · exact .ok
    · exact hf r
  | err => exact .err
  | ub u => exact h
  | stuck => exact .stuck

/-- A destination fit for a value of type `ty`, containers included. -/
def Fit (tl : Bool) (ty : Nat) (d : Data) (len : Nat) : Prop :=
  match d with
  | .null => True
  | .mem _ cap => (ty = 0 ∧ 8 ≤ cap) ∨ (ty = 1 ∧ 1 ≤ cap) ∨ (ty = 2 ∧ 1 ≤ len ∧ len ≤ cap)
  | .elts es => (ty = 3 ∨ ty = 8 ∨ ty = 10 ∨ ty = 0x103) ∧ ∀ e ∈ es, WfElt tl e

theorem fit_elt {tl : Bool} {e : Elt} (h : WfElt tl e) : Fit tl e.ty e.data e.len := by
  cases h with
  | null h _ => trivial
  | num h _ => exact .inl ⟨rfl, h⟩
  | bool h _ => exact .inr (.inl ⟨rfl, h⟩)
  | str h h' _ => exact .inr (.inr ⟨rfl, h, h'⟩)
  | table h he _ => exact ⟨by simp only [Elt.ty]; omega, he⟩
  | variant he => exact ⟨.inr (.inr (.inr rfl)), he⟩

theorem fit_compat {tl : Bool} {e : Elt} (h : WfElt tl e) (ht : e.typeless = false) {ty : Nat} (hc : compatible (e.ty % 256) ty = true) :
    Fit tl ty e.data e.len := by
  have hc := (compatible_iff _ _).1 hc
  cases h with
  | null h _ => trivial
  | num h _ => simp only [Elt.ty, accepts] at hc; exact .inl ⟨by omega, h⟩
  | bool h _ => simp only [Elt.ty, accepts] at hc; exact .inr (.inl ⟨by omega, h⟩)
  | str h h' _ => simp only [Elt.ty, accepts] at hc; exact .inr (.inr ⟨by omega, h, h'⟩)
  | table h he _ => simp only [Elt.ty, accepts] at hc; exact ⟨by omega, he⟩
  | variant he => simp [Elt.typeless] at ht

theorem clean_store {d : Data} {b : Bytes} {r : Bytes} (h : match d with
    | .null => True
    | .mem _ cap => b.length ≤ cap
    | .elts _ => False) : Clean (store d b r) := by
  cases d with
  | null => exact .ok
  | elts es => exact absurd h (by simp)
  | mem loc cap => simp only [store]; rw [if_pos h]; exact .ok

theorem clean_readStr {tl : Bool} {d : Data} {len : Nat} (h : Fit tl 2 d len) (r : Bytes) : Clean (readStr flatReader r d len) := by
  simp only [readStr]
  split
  · exact .err
  · cases d with
    | null => simp only; split
              · exact .err
              · exact .ok
    | elts es => simp [Fit] at h
    | mem loc cap =>
      simp only [Fit] at h
      simp only
      split
      · rw [if_neg (by omega), if_neg (by omega)]
        split
        · exact .err
        · split
          · exact .err
          · exact .ok
      · rw [if_neg (by omega)]
        split
        · exact .err
        · exact .ok

def CleanO (x : Option (Res Bytes)) : Prop := ∀ z, x = some z → Clean z

theorem CleanO.some {x : Res Bytes} (h : Clean x) : CleanO (some x) := by intro z e; cases e; exact h

theorem clean_body {tl : Bool} {o : Bytes → List Elt → Res Bytes} {a : Bytes → List Elt → Nat → Res Bytes} {v : Bytes → List Elt → Res Bytes}
    (ho : ∀ r t, (∀ e ∈ t, WfElt tl e) → Clean (o r t)) (ha : ∀ r t k, (∀ e ∈ t, WfElt tl e) → Clean (a r t k))
    (hv : ∀ r t, (∀ e ∈ t, WfElt tl e) → Clean (v r t)) (r : Bytes) (ty : Nat) (d : Data) (len : Nat) (h : Fit tl ty d len) :
    CleanO (body flatReader o a v r ty d len) := by
  have ite : ∀ (c : Prop) [Decidable c] (x y : Option (Res Bytes)), (c → CleanO x) → (¬ c → CleanO y) → CleanO (if c then x else y) := by
    intro c _ x y hx hy
    by_cases hc : c
    · rw [if_pos hc]; exact hx hc
    · rw [if_neg hc]; exact hy hc
  have tab : (ty = 3 ∨ ty = 8 ∨ ty = 10 ∨ ty = 0x103) → ∃ t, d.table = some t ∧ ∀ e ∈ t, WfElt tl e := by
    intro hty
    cases d with
    | null => exact ⟨[], rfl, by simp⟩
    | mem loc cap => simp only [Fit] at h; omega
    | elts es => exact ⟨es, rfl, h.2⟩
  have rev : ∀ n, (∀ loc cap, d = .mem loc cap → n ≤ cap) → (∀ es, d ≠ .elts es) → Clean (readRev flatReader r d n) := by
    intro n h1 h2
    simp only [readRev]
    split
    · exact .err
    · rename_i b r1 hg
      have := (flatGet_len hg).1
      apply clean_store
      cases d with
      | null => trivial
      | mem loc cap => simpa [this] using h1 loc cap rfl
      | elts es => exact absurd rfl (h2 es)
  have byte : (∀ loc cap, d = .mem loc cap → 1 ≤ cap) → (∀ es, d ≠ .elts es) → Clean (readByte flatReader r d) := by
    intro h1 h2
    simp only [readByte]
    split
    · exact .err
    · rename_i b r1 hg
      have := (flatGet_len hg).1
      apply clean_store
      cases d with
      | null => trivial
      | mem loc cap => simpa [this] using h1 loc cap rfl
      | elts es => exact absurd rfl (h2 es)
  have nomem : 0x100 ≤ ty → ty ≠ 0x103 → d = .null := by
    intro h1 h2
    cases d with
    | null => rfl
    | mem loc cap => simp only [Fit] at h; omega
    | elts es => simp only [Fit] at h; omega
  refine ite _ _ _ (fun e => .some (rev 8 ?_ ?_)) fun _ => ?_
  · rintro loc cap rfl; simp only [Fit, tNumber] at h e; omega
  · rintro es rfl; simp only [Fit, tNumber] at h e; omega
  refine ite _ _ _ (fun e => .some (byte ?_ ?_)) fun _ => ?_
  · rintro loc cap rfl; simp only [Fit, tBoolean] at h e; omega
  · rintro es rfl; simp only [Fit, tBoolean] at h e; omega
  refine ite _ _ _ (fun e => .some (by rw [e] at h; exact clean_readStr h r)) fun _ => ?_
  refine ite _ _ _ (fun e => .some .ok) fun _ => ?_
  refine ite _ _ _ (fun e => .some .ok) fun _ => ?_
  refine ite _ _ _ (fun e => .some ?_) fun _ => ?_
  · obtain ⟨t, e1, e2⟩ := tab (by simp only [tMixedArray] at e; omega)
    cases flatReader.get r 4 with
    | none => exact .err
    | some p => simp only [e1]; exact ho _ _ e2
  refine ite _ _ _ (fun e => .some ?_) fun _ => ?_
  · obtain ⟨t, e1, e2⟩ := tab (by simp only [tObject] at e; omega)
    simp only [e1]; exact ho _ _ e2
  refine ite _ _ _ (fun e => .some ?_) fun _ => ?_
  · obtain ⟨t, e1, e2⟩ := tab (by simp only [tArray] at e; omega)
    simp only [e1]
    cases flatReader.get r 4 with
    | none => exact .err
    | some p => exact ha _ _ _ e2
  refine ite _ _ _ (fun e => .some ?_) fun _ => ?_
  · obtain ⟨t, e1, e2⟩ := tab (by simp only [tVariant] at e; omega)
    simp only [e1]; exact hv _ _ e2
  refine ite _ _ _ (fun e => .some ?_) fun _ => ?_
  · have hd := nomem (by simp only [tInt8] at e; omega) (by simp only [tInt8] at e; omega)
    exact byte (by rw [hd]; simp) (by rw [hd]; simp)
  refine ite _ _ _ (fun e => .some ?_) fun _ => ?_
  · have hd := nomem (by simp only [tInt16] at e; omega) (by simp only [tInt16] at e; omega)
    exact rev 2 (by rw [hd]; simp) (by rw [hd]; simp)
  refine ite _ _ _ (fun e => .some ?_) fun _ => ?_
  · have hd := nomem (by simp only [tInt32] at e; omega) (by simp only [tInt32] at e; omega)
    exact rev 4 (by rw [hd]; simp) (by rw [hd]; simp)
  exact ite _ _ _ (fun _ => by intro z e; simp at e) fun _ => .some .err

/-- Descriptions of a call are well formed. -/
def WfCall (tl : Bool) : Call Bytes → Prop
  | .read _ es => ∀ e ∈ es, WfOpt tl e
  | .obj _ es => ∀ e ∈ es, WfElt tl e
  | .arr _ es _ => ∀ e ∈ es, WfElt tl e
  | .var _ es => ∀ e ∈ es, WfElt tl e

theorem clean_head {tl : Bool} {r : Bytes} {e : Option Elt} (h : WfOpt tl e) :
    (∀ x, head flatReader r e = .ret x → Clean x) ∧ (∀ r1 ty d len, head flatReader r e = .go r1 ty d len → Fit tl ty d len) := by
  cases e with
  | none =>
    simp only [head]
    split
    · exact ⟨fun x hx => by cases hx; exact .null, fun _ _ _ _ hx => by simp at hx⟩
    · exact ⟨fun x hx => by simp at hx, fun _ _ _ _ hx => by cases hx; trivial⟩
  | some e =>
    have h : WfElt tl e := h
    simp only [head]
    split
    · split
      · exact ⟨fun x hx => by cases hx; exact .err, fun _ _ _ _ hx => by simp at hx⟩
      · exact ⟨fun x hx => by simp at hx, fun _ _ _ _ hx => by cases hx; exact fit_elt h⟩
    · rename_i ht
      have ht : e.typeless = false := by simpa using ht
      split
      · split
        · exact ⟨fun x hx => by cases hx; exact .ok, fun _ _ _ _ hx => by simp at hx⟩
        · exact ⟨fun x hx => by cases hx; exact .err, fun _ _ _ _ hx => by simp at hx⟩
      · refine ⟨fun x hx => by simp at hx, fun _ _ _ _ hx => ?_⟩
        cases hx
        split
        · rename_i hc; exact fit_compat h ht hc
        · trivial

theorem wf_variantElt {es : List Elt} (h : ∀ e ∈ es, WfElt true e) (ty : Nat) (hty : ty < 256) : WfElt true (variantElt es ty) := by
  unfold variantElt
  split
  · exact .null hty (by simp)
  · rename_i e hf
    have hp := List.find?_some hf
    simp only [Bool.and_eq_true, beq_iff_eq, Bool.not_eq_true'] at hp
    have hm : e ∈ es := by simpa using find_mem hf
    have hw := h e hm
    have h1 := hp.1.1
    subst h1
    cases hw with
    | null h ht => exact .null h (by simp)
    | num h ht => exact .num h (by simp)
    | bool h ht => exact .bool h (by simp)
    | str h h' ht => exact .str h h' (by simp)
    | table h he ht => exact .table h he (by simp)
    | variant he => simp [Elt.typeless] at hp

theorem run_clean : ∀ (n : Nat) (c : Call Bytes), WfCall true c → Clean (run flatReader n c) := by
  intro n
  induction n with
  | zero => intro c _; exact .stuck
  | succ n ih =>
    intro c hc
    cases c with
    | read r es =>
      cases es with
      | nil => exact .ok
      | cons e es =>
        have he : WfOpt true e := hc e (List.mem_cons_self ..)
        have hes : ∀ e ∈ es, WfOpt true e := fun x hx => hc x (List.mem_cons_of_mem _ hx)
        rw [run_cons]
        obtain ⟨h1, h2⟩ := clean_head (r := r) he
        cases hh : head flatReader r e with
        | ret x => exact h1 x hh
        | go r1 ty d len =>
          have hb := clean_body (tl := true) (o := fun r t => run flatReader n (.obj r t)) (fun r t ht => ih _ ht)
            (a := fun r t k => run flatReader n (.arr r t k)) (fun r t k ht => ih _ ht)
            (v := fun r t => run flatReader n (.var r t)) (fun r t ht => ih _ ht) r1 ty d len (h2 _ _ _ _ hh)
          simp only
          split
          · exact .ok
          · rename_i x hx
            exact (hb x hx).bind fun r => ih _ hes
    | obj r es =>
      rw [run_obj]
      split
      · exact .ok
      · split
        · split
          · exact .err
          · split
            · exact .ok
            · exact .err
        · split
          · exact .err
          · rename_i e r1 hk
            have he : WfOpt true e := by
              simp only [readKey] at hk
              split at hk
              · split at hk
                · exact absurd hk (by simp)
                · cases hk; exact wfOpt_find hc _
              · split at hk
                · exact absurd hk (by simp)
                · split at hk
                  · exact absurd hk (by simp)
                  · cases hk; trivial
            have hw : WfCall true (.read r1 [e]) := by
              intro x hx; simp only [List.mem_singleton] at hx; subst hx; exact he
            exact (ih _ hw).bind fun r => ih _ hc
    | arr r es k =>
      cases k with
      | zero => exact .ok
      | succ k =>
        rw [run_arr]
        have hw : WfCall true (.read r [es.head?]) := by
          intro x hx; simp only [List.mem_singleton] at hx; subst hx; exact wfOpt_head hc
        have hw' : ∀ r, WfCall true (.arr r es.tail k) := fun r x hx => hc x (List.mem_of_mem_tail hx)
        exact (ih _ hw).bind fun r => ih _ (hw' r)
    | var r es =>
      rw [run_var]
      split
      · exact .err
      · rename_i t r1 hg
        refine ih _ (show WfCall true (.read r1 [some (variantElt es (beDec t))]) from fun x hx => ?_)
        simp only [List.mem_singleton] at hx
        subst hx
        have hl := (flatGet_len hg).1
        have hlt := beDec_lt t
        rw [hl] at hlt
        exact wf_variantElt hc _ (by simpa using hlt)

end Verif.Amf
