import Verif.Rtmp.LimitModel
/-
C29: connection limit.
-/
namespace Verif.Limit

/-- C29 (violation): in the code as it is, whatever limit is configured, any number of sessions can be
live at the same time: `k` accepted clients give `k` live sessions, none refused. -/
theorem C29_limit_not_enforced_violation (m k : Nat) :
    (run (some m) init (List.replicate k .accept)).live = k := by
  have : ∀ s : Server, (run (some m) s (List.replicate k .accept)).live = s.live + k := by
    induction k with
    | zero => intro s; rfl
    | succ k ih =>
      intro s
      have := ih (step (some m) s .accept)
      simp only [run, List.replicate_succ, List.foldl_cons] at *
      rw [this]; simp [step]; omega
  simpa [init] using this init

/-- C29 (violation): after a single client has come and gone the shared counter is not 0 but 2^32-1. -/
theorem C29_counter_underflow_violation (m : Nat) :
    (run (some m) init [.accept, .close]).nconn = 2 ^ 32 - 1 := by
  simp [run, step, init, limitDisconnect]

/-- Sessions that exist at the same time stay below 2^32 in every prefix (explicit well-formedness
condition for the 32-bit counter). -/
def Bounded (m : Nat) (evs : List PEv) : Prop :=
  ∀ k, (prun m (evs.take k)).admitted + (prun m (evs.take k)).refused + 1 < 2 ^ 32

theorem prun_inv (m : Nat) (evs : List PEv) (hb : Bounded m evs) :
    (prun m evs).nconn = (prun m evs).admitted + (prun m evs).refused ∧ (prun m evs).admitted ≤ m := by
  have gen : ∀ k, k ≤ evs.length →
      (prun m (evs.take k)).nconn = (prun m (evs.take k)).admitted + (prun m (evs.take k)).refused ∧
      (prun m (evs.take k)).admitted ≤ m := by
    intro k hk
    induction k with
    | zero => simp [prun]
    | succ k ih =>
      have ih := ih (by omega)
      have hbk := hb k
      have e : prun m (evs.take (k+1)) = pstep m (prun m (evs.take k)) evs[k] := by
        simp only [prun]
        rw [List.take_succ_eq_append_getElem (by omega), List.foldl_append]; rfl
      rw [e]
      generalize prun m (evs.take k) = s at *
      obtain ⟨h1, h2⟩ := ih
      cases evs[k] with
      | connect =>
        simp only [pstep, limitConnect]
        rw [Nat.mod_eq_of_lt (by omega)]
        by_cases hgt : s.nconn + 1 > m
        · rw [if_pos hgt]; simp only; omega
        · rw [if_neg hgt]; simp only; omega
      | endAdmitted =>
        simp only [pstep, limitDisconnect]
        split <;> (try simp only) <;> omega
      | endRefused =>
        simp only [pstep, limitDisconnect]
        split <;> (try simp only) <;> omega
  have := gen evs.length (Nat.le_refl _)
  simpa using this

/-- C29 (partial: under the protocol in which CONNECT fires for every session, which the code does not do):
at no time are more than `m` sessions admitted, for any interleaving of any number of workers. -/
theorem C29_limit_protocol_partial (m : Nat) (evs : List PEv) (hb : Bounded m evs) :
    (prun m evs).admitted ≤ m := (prun_inv m evs hb).2

/-- C29 (partial): the counter always equals the sessions not yet torn down, so it is 0 when all ended. -/
theorem C29_counter_balanced_partial (m : Nat) (evs : List PEv) (hb : Bounded m evs) :
    (prun m evs).nconn = (prun m evs).admitted + (prun m evs).refused := (prun_inv m evs hb).1

/-- C29 (partial): a connect is refused only when the limit is already used up by sessions not yet torn down. -/
theorem C29_no_spurious_refusal_partial (m : Nat) (evs : List PEv) (hb : Bounded m evs)
    (hfree : (prun m evs).admitted + (prun m evs).refused < m) :
    (prun m (evs ++ [.connect])).admitted = (prun m evs).admitted + 1 := by
  have h := prun_inv m evs hb
  have hbl := hb evs.length
  rw [List.take_length] at hbl
  have e : prun m (evs ++ [.connect]) = pstep m (prun m evs) .connect := by
    simp [prun, List.foldl_append]
  rw [e]
  generalize prun m evs = s at *
  simp only [pstep, limitConnect]
  rw [Nat.mod_eq_of_lt (by omega), if_neg (by omega)]

theorem bounded_of_length (m : Nat) (evs : List PEv) (h : evs.length + 1 < 2 ^ 32) : Bounded m evs := by
  have step1 : ∀ (s : Proto) (e : PEv), (pstep m s e).admitted + (pstep m s e).refused ≤ s.admitted + s.refused + 1 := by
    intro s e
    cases e <;> simp only [pstep]
    · simp only [limitConnect]
      by_cases hgt : (s.nconn + 1) % 2 ^ 32 > m
      · rw [if_pos hgt]; simp only; omega
      · rw [if_neg hgt]; simp only; omega
    · split <;> (try simp only) <;> omega
    · split <;> (try simp only) <;> omega
  have run1 : ∀ (l : List PEv) (s : Proto),
      (l.foldl (pstep m) s).admitted + (l.foldl (pstep m) s).refused ≤ s.admitted + s.refused + l.length := by
    intro l
    induction l with
    | nil => intro s; simp
    | cons e l ih =>
      intro s
      simp only [List.foldl_cons, List.length_cons]
      have := ih (pstep m s e)
      have := step1 s e
      omega
  intro k
  have h1 := run1 (evs.take k) ⟨0, 0, 0⟩
  have : (evs.take k).length ≤ evs.length := by rw [List.length_take]; omega
  show ((evs.take k).foldl (pstep m) ⟨0,0,0⟩).admitted + ((evs.take k).foldl (pstep m) ⟨0,0,0⟩).refused + 1 < _
  simp only at h1
  omega

example : Bounded 2 [.connect, .connect, .connect, .endRefused, .endAdmitted, .connect] :=
  bounded_of_length _ _ (by decide)
example : (prun 2 [.connect, .connect, .connect, .endRefused, .endAdmitted, .connect]) = ⟨2, 0, 2⟩ := by decide

end Verif.Limit
