import Verif.Timer.Inv
/-
Counting jobs and timers; what happens to a timer that is not touched.
-/
namespace Verif.Timer

theorem pending_upd (j : Job) (f : Nat → Slot) (i : Nat) (v : Slot) : ∀ n, (pending (upd f i v) n).count j + (if i < n then (f i).job.count j else 0)
    = (pending f n).count j + (if i < n then v.job.count j else 0)
  | 0 => by simp [pending]
  | n + 1 => by
    have ih := pending_upd j f i v n
    simp only [pending, List.count_append]
    by_cases e : n = i
    · subst e
      rw [upd_same]
      simp only [Nat.lt_irrefl, if_false] at ih
      simp only [Nat.lt_succ_self, if_true]
      omega
    · rw [upd_other _ _ e]
      have : (i < n + 1) ↔ (i < n) := by omega
      simp only [this]
      omega

theorem job_off (h : Option Nat) (v : Val) : (Slot.mk h v false).job = [] := rfl

theorem job_of {t : Slot} (h : t.armed = false) : t.job = [] := by
  obtain ⟨a, b, c⟩ := t
  subst h; rfl

theorem job_on {s : State} {l : List Nat} (I : Inv s l) {i : Nat} (h : (s.slots i).armed = true) : ∃ x d, (s.slots i).handler = some x ∧ (s.slots i).data = .user d ∧ (s.slots i).job = [(x, d)] := by
  obtain ⟨_, x, d, h1, h2⟩ := I.armed i h
  exact ⟨x, d, h1, h2, by simp [Slot.job, h, h1, h2]⟩

/-- Everything that became of a job -/
def tally (j : Job) (s : State) : Nat := s.calls.count j + s.gone.count j + (pending s.slots s.n).count j

theorem tally_put {s : State} {i : Nat} (h : (s.slots i).armed = false) (j : Job) : tally j (put s i) = tally j s := by
  have := pending_upd j s.slots i ⟨(s.slots i).handler, .link s.head, (s.slots i).armed⟩ s.n
  rw [job_of h, job_of (t := ⟨(s.slots i).handler, .link s.head, (s.slots i).armed⟩) h] at this
  simp only [List.count_nil, ite_self, Nat.add_zero] at this
  show s.calls.count j + s.gone.count j + (pending (upd s.slots i ⟨(s.slots i).handler, .link s.head, (s.slots i).armed⟩) s.n).count j = _
  rw [this]; rfl

/-- The jobs that an operation brings -/
def brings (s : State) : Op → List Job
  | .add (some h) d => match add s (some h) d with
    | some (_, some _) => [(h, d)]
    | _ => []
  | _ => []

theorem accepted_cons (s : State) (o : Op) (os : List Op) : accepted s (o :: os) = brings s o ++ match step s o with
    | none => []
    | some s' => accepted s' os := by
  cases o with
  | add h d => cases h <;> rfl
  | _ => rfl

theorem tally_step {s s' : State} {l : List Nat} (I : Inv s l) {o : Op} (h : step s o = some s') (j : Job) :
    tally j s' = tally j s + (brings s o).count j := by
  cases o with
  | add h' d =>
    cases h' with
    | none => cases h; rfl
    | some x =>
      rcases add_eq I x d with ⟨_, he⟩ | ⟨i, l', next, hl, hc, he⟩
      · simp only [step, he, Option.map_some] at h
        cases h; simp [brings, he]
      · simp only [step, he, Option.map_some] at h
        cases h
        simp only [brings, he]
        subst hl
        obtain ⟨f1, f2, _⟩ := I.free i (by simp)
        have := pending_upd j s.slots i ⟨some x, .user d, true⟩ s.n
        rw [if_pos f1, if_pos f1, job_of f2] at this
        show s.calls.count j + s.gone.count j + (pending (upd s.slots i ⟨some x, .user d, true⟩) s.n).count j = s.calls.count j + s.gone.count j + (pending s.slots s.n).count j + [(x, d)].count j
        have e : (Slot.mk (some x) (.user d) true).job = [(x, d)] := rfl
        rw [e] at this
        simp only [List.count_nil] at this
        omega
  | del i =>
    show tally j s' = tally j s + 0
    simp only [step, del] at h
    split at h
    · cases h
    · split at h
      · rename_i hi ha
        cases h
        obtain ⟨x, d, _, _, hj⟩ := job_on I ha
        rw [tally_put (by show (upd s.slots i _ i).armed = false; rw [upd_same])]
        have := pending_upd j s.slots i ⟨(s.slots i).handler, (s.slots i).data, false⟩ s.n
        have hi : i < s.n := Nat.not_le.1 hi
        rw [if_pos hi, if_pos hi, job_off] at this
        show s.calls.count j + (s.gone ++ (s.slots i).job).count j + (pending (upd s.slots i ⟨(s.slots i).handler, (s.slots i).data, false⟩) s.n).count j = s.calls.count j + s.gone.count j + (pending s.slots s.n).count j
        rw [List.count_append]
        simp only [List.count_nil] at this
        omega
      · cases h; rfl
  | expire i =>
    show tally j s' = tally j s + 0
    simp only [step] at h
    by_cases hc : i < s.n ∧ (s.slots i).armed = true ∧ s.running = none
    · obtain ⟨x, d, h1, h2, he⟩ := expire_eq I hc
      rw [he] at h; cases h
      obtain ⟨x', d', h1', h2', hj⟩ := job_on I hc.2.1
      rw [h1] at h1'; rw [h2] at h2'; cases h1'; cases h2'
      have := pending_upd j s.slots i ⟨(s.slots i).handler, (s.slots i).data, false⟩ s.n
      rw [if_pos hc.1, if_pos hc.1, job_off, hj] at this
      show (s.calls ++ [(x, d)]).count j + s.gone.count j + (pending (upd s.slots i ⟨(s.slots i).handler, (s.slots i).data, false⟩) s.n).count j = s.calls.count j + s.gone.count j + (pending s.slots s.n).count j
      rw [List.count_append]
      simp only [List.count_nil] at this
      omega
    · simp only [expire, if_neg hc] at h; cases h; rfl
  | finish =>
    cases h
    show tally j (finish s) = tally j s + 0
    unfold finish
    cases hr : s.running with
    | none => rfl
    | some i =>
      show tally j (put { s with running := none } i) = tally j s
      rw [tally_put (s := { s with running := none }) (I.run i hr).2]; rfl

theorem tally_run (j : Job) : ∀ (os : List Op) {s s' : State} {l : List Nat}, Inv s l → run s os = some s' → tally j s' = tally j s + (accepted s os).count j
  | [], _, _, _, _, h => by cases h; rfl
  | o :: os, s, s', l, I, h => by
    have hr := range_of_run (o :: os) I h
    obtain ⟨s1, l1, h1, I1, _⟩ := inv_step I o (fun i e => hr i (by simp [e]))
    simp only [run, h1] at h
    have := tally_run j os I1 h
    rw [accepted_cons, h1, List.count_append, this, tally_step I h1]
    exact Nat.add_assoc _ _ _

theorem pending_length {s : State} {l : List Nat} (I : Inv s l) : ∀ k, (pending s.slots k).length = ((List.range k).filter fun i => (s.slots i).armed).length
  | 0 => rfl
  | k + 1 => by
    rw [List.range_succ, List.filter_append, List.length_append, ← pending_length I k]
    show (pending s.slots k ++ (s.slots k).job).length = _
    rw [List.length_append]
    congr 1
    cases ha : (s.slots k).armed with
    | true =>
      obtain ⟨_, _, _, _, hj⟩ := job_on I ha
      rw [hj]; simp [ha]
    | false => rw [job_of ha]; simp [ha]

theorem places {s : State} {l : List Nat} (I : Inv s l) : l.length + inUse s = s.n := by
  unfold inUse
  rw [pending_length I]
  have hp : (l ++ ((List.range s.n).filter fun i => (s.slots i).armed) ++ s.running.toList).Perm (List.range s.n) := by
    rw [List.perm_ext_iff_of_nodup]
    · intro i
      simp only [List.mem_append, List.mem_filter, List.mem_range, Option.mem_toList]
      constructor
      · rintro ((h | h) | h)
        · exact (I.free i h).1
        · exact h.1
        · exact (I.run i h).1
      · intro h
        rcases I.all i h with h' | h' | h'
        · exact Or.inl (Or.inl h')
        · exact Or.inl (Or.inr ⟨h, h'⟩)
        · exact Or.inr h'
    · rw [List.nodup_append]
      refine ⟨?_, ?_, ?_⟩
      · rw [List.nodup_append]
        refine ⟨I.nodup, List.nodup_range.filter _, ?_⟩
        intro a ha b hb e
        subst e
        have := (I.free a ha).2.1
        rw [(List.mem_filter.1 hb).2] at this; cases this
      · cases s.running <;> simp
      · intro a ha b hb e
        subst e
        have hb : s.running = some a := Option.mem_toList.1 hb
        rcases List.mem_append.1 ha with h | h
        · exact (I.free a h).2.2 hb
        · have := (I.run a hb).2
          rw [(List.mem_filter.1 h).2] at this; cases this
    · exact List.nodup_range
  have := hp.length_eq
  rw [List.length_append, List.length_append, List.length_range] at this
  omega

/-- A slot that is set and not touched stays as it is. -/
theorem slot_step {s s' : State} {l : List Nat} (I : Inv s l) {o : Op} (h : step s o = some s') {i : Nat} (ha : (s.slots i).armed = true) (h1 : o ≠ .del i) (h2 : o ≠ .expire i) :
    s'.slots i = s.slots i := by
  have hnl := not_free I (Or.inl ha)
  cases o with
  | add x d =>
    cases x with
    | none => cases h; rfl
    | some x =>
      rcases add_eq I x d with ⟨_, he⟩ | ⟨k, l', next, hl, hc, he⟩
      · simp only [step, he, Option.map_some] at h; cases h; rfl
      · simp only [step, he, Option.map_some] at h; cases h
        have e : i ≠ k := by intro e; subst e; exact hnl (by simp [hl])
        exact upd_other _ _ e
  | del k =>
    have e : i ≠ k := by intro e; subst e; exact h1 rfl
    simp only [step, del] at h
    split at h
    · cases h
    · split at h
      · cases h
        show upd (upd s.slots k _) k _ i = _
        rw [upd_other _ _ e, upd_other _ _ e]
      · cases h; rfl
  | expire k =>
    have e : i ≠ k := by intro e; subst e; exact h2 rfl
    simp only [step] at h
    by_cases hc : k < s.n ∧ (s.slots k).armed = true ∧ s.running = none
    · obtain ⟨x, d, _, _, he⟩ := expire_eq I hc
      rw [he] at h; cases h
      exact upd_other _ _ e
    · simp only [expire, if_neg hc] at h; cases h; rfl
  | finish =>
    cases h
    show (finish s).slots i = _
    unfold finish
    cases hr : s.running with
    | none => rfl
    | some k =>
      have e : i ≠ k := by intro e; subst e; rw [(I.run i hr).2] at ha; cases ha
      exact upd_other _ _ e

theorem slot_run : ∀ (os : List Op) {s s' : State} {l : List Nat}, Inv s l → run s os = some s' → ∀ {i : Nat}, (s.slots i).armed = true → Untouched i os → s'.slots i = s.slots i
  | [], _, _, _, _, h, _, _, _ => by cases h; rfl
  | o :: os, s, s', l, I, h, i, ha, hu => by
    have hr := range_of_run (o :: os) I h
    obtain ⟨s1, l1, h1, I1, _⟩ := inv_step I o (fun i e => hr i (by simp [e]))
    simp only [run, h1] at h
    have hs := slot_step I h1 ha (fun e => hu.1 (by simp [e])) (fun e => hu.2 (by simp [e]))
    rw [← hs]
    exact slot_run os I1 h (by rw [hs]; exact ha) ⟨fun e => hu.1 (List.mem_cons_of_mem _ e), fun e => hu.2 (List.mem_cons_of_mem _ e)⟩

end Verif.Timer
