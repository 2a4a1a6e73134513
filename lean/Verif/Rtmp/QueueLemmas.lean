import Verif.Rtmp.QueueModel
namespace Verif.Queue
variable {α : Type}

/-- Number of queued messages. -/
def Ring.count (r : Ring α) : Nat := (r.last + r.size - r.pos) % r.size

/-- The ring holds exactly the list `q`, oldest first. -/
structure Holds (r : Ring α) (q : List α) : Prop where
  size_pos : 0 < r.size
  pos_lt : r.pos < r.size
  last_eq : r.last = (r.pos + q.length) % r.size
  len_lt : q.length < r.size
  slot : ∀ i, (h : i < q.length) → r.slots ((r.pos + i) % r.size) = some q[i]

theorem Holds.count_eq {r : Ring α} {q : List α} (h : Holds r q) : r.count = q.length := by
  have h1 := h.pos_lt
  have h2 := h.len_lt
  have h3 := h.last_eq
  unfold Ring.count
  rw [h3]
  by_cases hc : r.pos + q.length < r.size
  · rw [Nat.mod_eq_of_lt hc, show r.pos + q.length + r.size - r.pos = q.length + r.size by omega,
      Nat.add_mod_right, Nat.mod_eq_of_lt h2]
  · have : (r.pos + q.length) % r.size = r.pos + q.length - r.size := by
      rw [Nat.mod_eq_sub_mod (by omega), Nat.mod_eq_of_lt (by omega)]
    rw [this, show r.pos + q.length - r.size + r.size - r.pos = q.length by omega, Nat.mod_eq_of_lt h2]

theorem Holds.last_lt {r : Ring α} {q : List α} (h : Holds r q) : r.last < r.size := by
  rw [h.last_eq]; exact Nat.mod_lt _ h.size_pos

theorem mod_inj_window {p i j n : Nat} (hi : i < n) (hj : j < n) (h : (p + i) % n = (p + j) % n) : i = j := by
  rcases Nat.lt_trichotomy i j with hlt | heq | hgt
  · exfalso
    have := Nat.sub_mod_eq_zero_of_mod_eq h.symm
    rw [show p + j - (p + i) = j - i by omega, Nat.mod_eq_of_lt (by omega)] at this
    omega
  · exact heq
  · exfalso
    have := Nat.sub_mod_eq_zero_of_mod_eq h
    rw [show p + i - (p + j) = i - j by omega, Nat.mod_eq_of_lt (by omega)] at this
    omega

theorem Holds.empty_iff {r : Ring α} {q : List α} (h : Holds r q) : r.pos = r.last ↔ q = [] := by
  constructor
  · intro he
    have := h.count_eq
    unfold Ring.count at this
    rw [← he, show r.pos + r.size - r.pos = r.size by omega, Nat.mod_self] at this
    exact List.length_eq_zero_iff.1 this.symm
  · rintro rfl
    have := h.last_eq
    simp [Nat.mod_eq_of_lt h.pos_lt] at this
    exact this.symm

theorem Holds.push {r : Ring α} {q : List α} (h : Holds r q) (f : α) (hroom : q.length + 1 < r.size) :
    Holds { r with
        slots := fun i => if i = r.last then some f else r.slots i
        last := (r.last + 1) % r.size } (q ++ [f]) := by
  refine ⟨h.size_pos, h.pos_lt, ?_, by simpa using hroom, ?_⟩
  · simp only [List.length_append, List.length_singleton]
    rw [h.last_eq, Nat.mod_add_mod]; rfl
  · intro i hi
    simp only [List.length_append, List.length_singleton] at hi
    simp only
    by_cases hl : i < q.length
    · have hne : (r.pos + i) % r.size ≠ r.last := by
        rw [h.last_eq]
        intro he
        have := mod_inj_window (by omega) h.len_lt he
        omega
      rw [if_neg hne, h.slot i hl, List.getElem_append_left hl]
    · have : i = q.length := by omega
      subst this
      rw [if_pos h.last_eq.symm]; simp

theorem Holds.pop {r : Ring α} {f : α} {q : List α} (h : Holds r (f :: q)) :
    r.slots r.pos = some f ∧ Holds { r with pos := (r.pos + 1) % r.size } q := by
  constructor
  · have := h.slot 0 (by simp)
    simpa [Nat.mod_eq_of_lt h.pos_lt] using this
  · have hl := h.len_lt
    simp only [List.length_cons] at hl
    refine ⟨h.size_pos, Nat.mod_lt _ h.size_pos, ?_, by simp only; omega, ?_⟩
    · simp only
      have := h.last_eq
      simp only [List.length_cons] at this
      rw [this, Nat.mod_add_mod]; congr 1; omega
    · intro i hi
      have := h.slot (i + 1) (by simpa using hi)
      simp only
      rw [Nat.mod_add_mod, show r.pos + 1 + i = r.pos + (i + 1) by omega, this]
      simp

theorem holds_init (size : Nat) (h : 0 < size) : Holds (Ring.init size : Ring α) [] :=
  ⟨h, h, by simp [Ring.init, Nat.mod_eq_of_lt h], h, by intro i hi; simp at hi⟩

theorem mergeLoop_holds (ser : α → Bytes) (n : Nat) (s : Sender α) (q : List α) (h : Holds s.ring q) :
    ∃ s', mergeLoop ser n s = some s' ∧ Holds s'.ring (q.drop n) ∧ s'.held = s.held ++ q.take n ∧
      s'.out = s.out ++ (q.take n).flatMap ser ∧ s'.wire = s.wire ∧ s'.released = s.released ∧
      s'.outBytes = s.outBytes ∧ s'.ring.size = s.ring.size := by
  induction n generalizing s q with
  | zero => exact ⟨s, rfl, by simpa using h, by simp, by simp, rfl, rfl, rfl, rfl⟩
  | succ n ih =>
    cases q with
    | nil =>
      refine ⟨s, ?_, by simpa using h, by simp, by simp, rfl, rfl, rfl, rfl⟩
      simp [mergeLoop, h.empty_iff.2 rfl]
    | cons f q =>
      have hne : ¬ s.ring.pos = s.ring.last := by rw [h.empty_iff]; simp
      obtain ⟨hs, hp⟩ := h.pop
      simp only [mergeLoop, if_neg hne, hs]
      obtain ⟨s', e, h1, h2, h3, h4, h5, h6, h7⟩ := ih
        { s with out := s.out ++ ser f, held := s.held ++ [f],
                 ring := { s.ring with pos := (s.ring.pos + 1) % s.ring.size } } q hp
      exact ⟨s', e, by simpa using h1, by simpa using h2, by simpa using h3, h4, h5, h6, h7⟩

theorem drainLoop_holds (n : Nat) (r : Ring α) (q : List α) (h : Holds r q) (hn : q.length ≤ n) :
    drainLoop n r = some q := by
  induction n generalizing r q with
  | zero =>
    have : q = [] := List.length_eq_zero_iff.1 (by omega)
    subst this
    simp [drainLoop, h.empty_iff.2 rfl]
  | succ n ih =>
    cases q with
    | nil => simp [drainLoop, h.empty_iff.2 rfl]
    | cons f q =>
      have hne : ¬ r.pos = r.last := by rw [h.empty_iff]; simp
      obtain ⟨hs, hp⟩ := h.pop
      simp only [drainLoop, if_neg hne, hs]
      rw [ih _ q hp (by simpa using hn)]; rfl

end Verif.Queue
