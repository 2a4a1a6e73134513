import Verif.Timer.Count
/-
C87: the timers that the resolver and the dynamic configuration use.
-/
namespace Verif.Timer

/-- As long as numbers of timers are given, nothing undefined happens: no timer is lost or in the list of free ones twice. Partial: another number reads outside of the array (C87_range_violation). -/
theorem C87_defined_partial (n : Nat) (os : List Op) (h : InRange n os) : ∃ s, run (State.init n) os = some s := by
  obtain ⟨s, _, hs, _⟩ := inv_run os (inv_init n) h
  exact ⟨s, hs⟩

/-- A job that was accepted is set, was called, or was deleted, exactly as often as it was accepted. -/
theorem C87_once (n : Nat) (os : List Op) (s : State) (h : run (State.init n) os = some s) (j : Job) :
    s.calls.count j + s.gone.count j + (pending s.slots n).count j = (accepted (State.init n) os).count j := by
  have := tally_run j os (inv_init n) h
  have hn := (inv_of_run h).1
  have z : tally j (State.init n) = 0 := by
    have : ∀ k, pending (State.init n).slots k = [] := by
      intro k
      induction k with
      | zero => rfl
      | succ k ih => show pending _ k ++ [] = []; rw [ih]; rfl
    show 0 + 0 + (pending (State.init n).slots n).count j = 0
    rw [this]; rfl
  rw [z, Nat.zero_add] at this
  rw [← this, tally, hn]

/-- A timer is given exactly if fewer than `worker_timers` are in use, and the count of free ones that is shown is the count of the others. -/
theorem C87_places (n : Nat) (os : List Op) (s : State) (h : run (State.init n) os = some s) :
    s.freeN + inUse s = n ∧ ∀ x d, (∃ s' i, add s (some x) d = some (s', some i)) ↔ inUse s < n := by
  obtain ⟨hn, l, I⟩ := inv_of_run h
  have hp := places I
  refine ⟨by rw [← I.len, hp, hn], fun x d => ?_⟩
  rcases add_eq I x d with ⟨hl, he⟩ | ⟨i, l', next, hl, hc, he⟩
  · rw [hl] at hp
    constructor
    · rintro ⟨s', i, h'⟩; rw [he] at h'; cases h'
    · intro h'; simp only [List.length_nil] at hp; omega
  · refine ⟨fun _ => ?_, fun _ => ⟨_, i, he⟩⟩
    rw [hl, List.length_cons] at hp; omega

/-- Between the moment when a timer is given and the moment when it expires or is deleted, its number stands for it: what is deleted by the number is this job and no other; what is called when it expires is this handler with this argument. Partial: afterwards the number may stand for someone else's timer (C87_stale_violation). -/
theorem C87_number_partial (n : Nat) (os os' : List Op) (s s1 s2 : State) (x d i : Nat) (h : run (State.init n) os = some s) (ha : add s (some x) d = some (s1, some i))
    (hr : run s1 os' = some s2) (hu : Untouched i os') :
    (∃ s3, step s2 (.del i) = some s3 ∧ s3.gone = s2.gone ++ [(x, d)] ∧ s3.calls = s2.calls ∧ ∀ j, j ≠ i → s3.slots j = s2.slots j) ∧
    (s2.running = none → ∃ s3, step s2 (.expire i) = some s3 ∧ s3.calls = s2.calls ++ [(x, d)] ∧ s3.gone = s2.gone ∧ ∀ j, j ≠ i → s3.slots j = s2.slots j) := by
  obtain ⟨hn, l, I⟩ := inv_of_run h
  have I1 : ∃ l1, Inv s1 l1 ∧ s1.slots i = ⟨some x, .user d, true⟩ := by
    rcases add_eq I x d with ⟨_, he⟩ | ⟨k, l', next, hl, hc, he⟩
    · rw [he] at ha; cases ha
    · rw [he] at ha; cases ha
      subst hl
      exact ⟨l', inv_add I hc x d, upd_same _ _ _⟩
  obtain ⟨l1, I1, e1⟩ := I1
  have e2 := slot_run os' I1 hr (by rw [e1]) hu
  rw [e1] at e2
  obtain ⟨s2', l2, h2, I2, _⟩ := inv_run os' I1 (range_of_run os' I1 hr)
  rw [hr] at h2; cases h2
  have hai : (s2.slots i).armed = true := by rw [e2]
  have hlt := (I2.armed i hai).1
  constructor
  · refine ⟨put { s2 with slots := upd s2.slots i { s2.slots i with armed := false }, gone := s2.gone ++ (s2.slots i).job } i, by simp only [step, del, if_neg (Nat.not_le.2 hlt), if_pos hai], ?_, rfl, ?_⟩
    · show s2.gone ++ (s2.slots i).job = _
      rw [e2]; rfl
    · intro j hj
      show upd (upd s2.slots i _) i _ j = _
      rw [upd_other _ _ hj, upd_other _ _ hj]
  · intro hrn
    obtain ⟨x', d', h1, h2, he⟩ := expire_eq I2 ⟨hlt, hai, hrn⟩
    rw [e2] at h1 h2
    cases h1; cases h2
    exact ⟨_, he, rfl, rfl, fun j hj => upd_other _ _ hj⟩

/-- A handler that deletes its own timer deletes nothing. -/
theorem C87_self (n : Nat) (os : List Op) (s : State) (h : run (State.init n) os = some s) (i : Nat) (hr : s.running = some i) : step s (.del i) = some s := by
  obtain ⟨_, l, I⟩ := inv_of_run h
  obtain ⟨h1, h2⟩ := I.run i hr
  simp only [step, del, if_neg (Nat.not_le.2 h1), h2, Bool.false_eq_true, if_false]

/-- Someone sets a timer and is given number 0; it expires. Someone else sets a timer and is given number 0 again. When the first one now deletes number 0, as someone does who no longer needs it, the other one's timer is gone. -/
theorem C87_stale_violation : ∃ s, run (State.init 4) [.add (some 1) 10, .expire 0, .finish, .add (some 2) 20, .del 0] = some s ∧ s.calls = [(1, 10)] ∧ s.gone = [(2, 20)] ∧ pending s.slots 4 = [] := by
  have h : (run (State.init 4) [.add (some 1) 10, .expire 0, .finish, .add (some 2) 20, .del 0]).map (fun s => (s.calls, s.gone, pending s.slots 4)) = some ([(1, 10)], [(2, 20)], []) := by decide +kernel
  obtain ⟨s, hs, ho⟩ := Option.map_eq_some_iff.1 h
  injection ho with h1 ho
  injection ho with h2 h3
  exact ⟨s, hs, h1, h2, h3⟩

/-- A handler that sets its timer again while all others are set is given none, although its own is about to become free: whatever it did time after time stops for good. This is how the resolver and the dynamic configuration are refreshed. -/
theorem C87_again_violation (n : Nat) (os : List Op) (s : State) (h : run (State.init n) os = some s) (i : Nat) (hr : s.running = some i) (hf : (pending s.slots n).length + 1 = n) (x d : Nat) :
    ∃ s', run s [.add (some x) d, .finish] = some s' ∧ s'.running = none ∧ s'.freeN = 1 ∧ pending s'.slots n = pending s.slots n := by
  obtain ⟨hn, l, I⟩ := inv_of_run h
  have hp := places I
  have hl : l = [] := by
    unfold inUse at hp
    rw [hr, hn] at hp
    simp only [Option.toList, List.length_singleton] at hp
    have : l.length = 0 := by omega
    exact List.length_eq_zero_iff.1 this
  rcases add_eq I x d with ⟨_, he⟩ | ⟨k, l', next, hl', _⟩
  · have hz : s.freeN = 0 := by rw [← I.len, hl]; rfl
    refine ⟨put { s with running := none } i, by simp only [run, step, he, Option.map_some, Option.bind_some, finish, hr], rfl, by show s.freeN + 1 = 1; rw [hz], ?_⟩
    show pending (upd s.slots i { s.slots i with data := .link s.head }) n = _
    have hji : ∀ v : Slot, v.armed = false → ∀ k, pending (upd s.slots i v) k = pending s.slots k := by
      intro v hv k
      induction k with
      | zero => rfl
      | succ k ih =>
        simp only [pending, ih]
        by_cases e : k = i
        · subst e; rw [upd_same, job_of hv, job_of (I.run k hr).2]
        · rw [upd_other _ _ e]
    exact hji ⟨(s.slots i).handler, .link s.head, (s.slots i).armed⟩ (I.run i hr).2 n
  · rw [hl] at hl'; cases hl'

/-- NGX_ERROR, which is returned when no timer is free, is not a number that may be deleted; nor is any other outside of the array. -/
theorem C87_range_violation (n i : Nat) (h : n ≤ i) : run (State.init n) [.del i] = none := by
  have : (State.init n).n ≤ i := h
  simp only [run, step, del, if_pos this, Option.bind_none]

end Verif.Timer
