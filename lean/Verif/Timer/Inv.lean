import Verif.Timer.Spec
/-
Every timer is free, set or running.
-/
namespace Verif.Timer

theorem upd_same {α : Type} (f : Nat → α) (i : Nat) (v : α) : upd f i v i = v := by simp [upd]
theorem upd_other {α : Type} (f : Nat → α) {i j : Nat} (v : α) (h : j ≠ i) : upd f i v j = f j := by simp [upd, h]

/-- The free list, followed by the links -/
def Chain (f : Nat → Slot) : Option Nat → List Nat → Prop
  | h, [] => h = none
  | h, i :: l => h = some i ∧ ∃ next, (f i).data = .link next ∧ Chain f next l

theorem chain_upd {f : Nat → Slot} {i : Nat} {v : Slot} : ∀ {l : List Nat} {h : Option Nat}, i ∉ l → Chain f h l → Chain (upd f i v) h l
  | [], _, _, h => h
  | j :: l, _, hn, ⟨h1, next, h2, h3⟩ => by
    have hj : j ≠ i := fun e => hn (by simp [e])
    exact ⟨h1, next, by rw [upd_other _ _ hj]; exact h2, chain_upd (fun h => hn (List.mem_cons_of_mem _ h)) h3⟩

structure Inv (s : State) (l : List Nat) : Prop where
  chain : Chain s.slots s.head l
  nodup : l.Nodup
  len : l.length = s.freeN
  free : ∀ i, i ∈ l → i < s.n ∧ (s.slots i).armed = false ∧ s.running ≠ some i
  all : ∀ i, i < s.n → i ∈ l ∨ (s.slots i).armed = true ∨ s.running = some i
  armed : ∀ i, (s.slots i).armed = true → i < s.n ∧ ∃ h d, (s.slots i).handler = some h ∧ (s.slots i).data = .user d
  run : ∀ i, s.running = some i → i < s.n ∧ (s.slots i).armed = false

theorem chain_init (n : Nat) : ∀ k, k ≤ n → Chain (State.init n).slots (if n - k < n then some (n - k) else none) ((List.range' (n - k) k))
  | 0, _ => by simp [Chain]
  | k + 1, h => by
    rw [List.range'_succ]
    refine ⟨by rw [if_pos (by omega)], _, rfl, ?_⟩
    have := chain_init n k (by omega)
    rw [show n - (k + 1) + 1 = n - k by omega]
    exact this

theorem inv_init (n : Nat) : Inv (State.init n) (List.range n) := by
  have hc := chain_init n n (Nat.le_refl n)
  rw [Nat.sub_self] at hc
  constructor
  · rw [List.range_eq_range']
    have : (State.init n).head = if 0 < n then some 0 else none := by
      show (if n = 0 then none else some 0) = _
      by_cases h : n = 0
      · simp [h]
      · rw [if_neg h, if_pos (by omega)]
    rw [this]; exact hc
  · exact List.nodup_range
  · exact List.length_range
  · intro i hi; exact ⟨List.mem_range.1 hi, rfl, by simp [State.init]⟩
  · intro i hi; exact Or.inl (List.mem_range.2 hi)
  · intro i hi; cases hi
  · intro i hi; cases hi

/-- A timer that is neither free nor set nor running is put back. -/
theorem inv_put {s : State} {l : List Nat} {i : Nat} (hi : i < s.n) (hl : i ∉ l) (chain : Chain s.slots s.head l) (nodup : l.Nodup) (len : l.length = s.freeN)
    (free : ∀ j, j ∈ l → j < s.n ∧ (s.slots j).armed = false ∧ s.running ≠ some j)
    (all : ∀ j, j < s.n → j = i ∨ j ∈ l ∨ (s.slots j).armed = true ∨ s.running = some j)
    (armed : ∀ j, (s.slots j).armed = true → j < s.n ∧ ∃ h d, (s.slots j).handler = some h ∧ (s.slots j).data = .user d)
    (run : ∀ j, s.running = some j → j < s.n ∧ (s.slots j).armed = false) (hai : (s.slots i).armed = false) (hri : s.running ≠ some i) :
    Inv (put s i) (i :: l) := by
  have ar : ∀ j, (upd s.slots i { s.slots i with data := .link s.head } j).armed = (s.slots j).armed := by
    intro j
    by_cases e : j = i
    · subst e; rw [upd_same]
    · rw [upd_other _ _ e]
  constructor
  · exact ⟨rfl, s.head, by show (upd s.slots i _ i).data = _; rw [upd_same], chain_upd hl chain⟩
  · exact List.nodup_cons.2 ⟨hl, nodup⟩
  · show l.length + 1 = s.freeN + 1; rw [len]
  · intro j hj
    show j < s.n ∧ (upd s.slots i _ j).armed = false ∧ s.running ≠ some j
    rw [ar]
    rcases List.mem_cons.1 hj with e | h
    · subst e; exact ⟨hi, hai, hri⟩
    · exact free j h
  · intro j hj
    show _ ∨ (upd s.slots i _ j).armed = true ∨ s.running = some j
    rw [ar]
    rcases all j hj with h | h | h
    · exact Or.inl (by simp [h])
    · exact Or.inl (List.mem_cons_of_mem _ h)
    · exact Or.inr h
  · intro j hj
    have hj : (upd s.slots i { s.slots i with data := .link s.head } j).armed = true := hj
    rw [ar] at hj
    have e : j ≠ i := by intro e; rw [e, hai] at hj; cases hj
    show j < s.n ∧ ∃ h d, (upd s.slots i _ j).handler = some h ∧ (upd s.slots i _ j).data = .user d
    rw [upd_other _ _ e]; exact armed j hj
  · intro j hj
    show j < s.n ∧ (upd s.slots i _ j).armed = false
    rw [ar]; exact run j hj

/-- Taking the first free timer -/
theorem get_eq {s : State} {l : List Nat} (I : Inv s l) : (l = [] ∧ s.freeN = 0 ∧ get s = some none) ∨
    ∃ i l' next, l = i :: l' ∧ Chain s.slots next l' ∧ get s = some (some ({ s with head := next, freeN := s.freeN - 1 }, i)) := by
  cases l with
  | nil =>
    have : s.freeN = 0 := I.len.symm
    exact Or.inl ⟨rfl, this, by simp [get, this]⟩
  | cons i l' =>
    obtain ⟨h1, next, h2, h3⟩ := I.chain
    have : s.freeN ≠ 0 := by rw [← I.len]; simp
    exact Or.inr ⟨i, l', next, rfl, h3, by simp [get, this, h1, h2]⟩

/-- A timer is given exactly if one is free. -/
theorem add_eq {s : State} {l : List Nat} (I : Inv s l) (h d : Nat) : (l = [] ∧ add s (some h) d = some (s, none)) ∨
    ∃ i l' next, l = i :: l' ∧ Chain s.slots next l' ∧ add s (some h) d = some ({ s with head := next, freeN := s.freeN - 1, slots := upd s.slots i ⟨some h, .user d, true⟩ }, some i) := by
  rcases get_eq I with ⟨h1, _, h2⟩ | ⟨i, l', next, h1, h2, h3⟩
  · exact Or.inl ⟨h1, by simp [add, h2]⟩
  · exact Or.inr ⟨i, l', next, h1, h2, by simp [add, h3]⟩

theorem inv_add {s : State} {i : Nat} {l' : List Nat} {next : Option Nat} (I : Inv s (i :: l')) (hc : Chain s.slots next l') (h d : Nat) :
    Inv { s with head := next, freeN := s.freeN - 1, slots := upd s.slots i ⟨some h, .user d, true⟩ } l' := by
  have hn := List.nodup_cons.1 I.nodup
  obtain ⟨f1, f2, f3⟩ := I.free i (by simp)
  constructor
  · exact chain_upd hn.1 hc
  · exact hn.2
  · show l'.length = s.freeN - 1; rw [← I.len]; simp
  · intro j hj
    have e : j ≠ i := by intro e; subst e; exact hn.1 hj
    show j < s.n ∧ (upd s.slots i _ j).armed = false ∧ s.running ≠ some j
    rw [upd_other _ _ e]; exact I.free j (List.mem_cons_of_mem _ hj)
  · intro j hj
    show _ ∨ (upd s.slots i _ j).armed = true ∨ s.running = some j
    by_cases e : j = i
    · subst e; rw [upd_same]; exact Or.inr (Or.inl rfl)
    · rw [upd_other _ _ e]
      rcases I.all j hj with h | h
      · exact Or.inl ((List.mem_cons.1 h).resolve_left e)
      · exact Or.inr h
  · intro j hj
    have hj : (upd s.slots i ⟨some h, .user d, true⟩ j).armed = true := hj
    show j < s.n ∧ ∃ h d, (upd s.slots i _ j).handler = some h ∧ (upd s.slots i _ j).data = .user d
    by_cases e : j = i
    · subst e; rw [upd_same]; exact ⟨f1, h, d, rfl, rfl⟩
    · rw [upd_other _ _ e] at hj ⊢; exact I.armed j hj
  · intro j hj
    have hj : s.running = some j := hj
    have e : j ≠ i := by intro e; subst e; exact f3 hj
    show j < s.n ∧ (upd s.slots i _ j).armed = false
    rw [upd_other _ _ e]; exact I.run j hj

theorem not_free {s : State} {l : List Nat} (I : Inv s l) {i : Nat} (h : (s.slots i).armed = true ∨ s.running = some i) : i ∉ l := by
  intro hi
  obtain ⟨_, h2, h3⟩ := I.free i hi
  rcases h with h | h
  · rw [h2] at h; cases h
  · exact h3 h

theorem inv_del {s : State} {l : List Nat} {i : Nat} (I : Inv s l) (ha : (s.slots i).armed = true) (g : List Job) :
    Inv (put { s with slots := upd s.slots i { s.slots i with armed := false }, gone := g } i) (i :: l) := by
  have hl := not_free I (Or.inl ha)
  have hr : s.running ≠ some i := by intro h; rw [(I.run i h).2] at ha; cases ha
  refine inv_put (s := { s with slots := upd s.slots i { s.slots i with armed := false }, gone := g }) (I.armed i ha).1 hl (chain_upd hl I.chain) I.nodup I.len ?_ ?_ ?_ ?_ ?_ hr
  · intro j hj
    have e : j ≠ i := by intro e; subst e; exact hl hj
    show j < s.n ∧ (upd s.slots i _ j).armed = false ∧ _
    rw [upd_other _ _ e]; exact I.free j hj
  · intro j hj
    by_cases e : j = i
    · exact Or.inl e
    · right; show _ ∨ (upd s.slots i _ j).armed = true ∨ _
      rw [upd_other _ _ e]; exact I.all j hj
  · intro j hj
    have hj : (upd s.slots i { s.slots i with armed := false } j).armed = true := hj
    have e : j ≠ i := by intro e; subst e; rw [upd_same] at hj; cases hj
    show j < s.n ∧ ∃ h d, (upd s.slots i _ j).handler = some h ∧ (upd s.slots i _ j).data = .user d
    rw [upd_other _ _ e] at hj ⊢; exact I.armed j hj
  · intro j hj
    have e : j ≠ i := by intro e; subst e; exact hr hj
    show j < s.n ∧ (upd s.slots i _ j).armed = false
    rw [upd_other _ _ e]; exact I.run j hj
  · show (upd s.slots i _ i).armed = false; rw [upd_same]

theorem inv_expire {s : State} {l : List Nat} {i : Nat} (I : Inv s l) (ha : (s.slots i).armed = true) (hr : s.running = none) (cs : List Job) :
    Inv { s with slots := upd s.slots i { s.slots i with armed := false }, running := some i, calls := cs } l := by
  have hl := not_free I (Or.inl ha)
  constructor
  · exact chain_upd hl I.chain
  · exact I.nodup
  · exact I.len
  · intro j hj
    have e : j ≠ i := by intro e; subst e; exact hl hj
    show j < s.n ∧ (upd s.slots i _ j).armed = false ∧ some i ≠ some j
    rw [upd_other _ _ e]
    exact ⟨(I.free j hj).1, (I.free j hj).2.1, fun h => by cases h; exact e rfl⟩
  · intro j hj
    show _ ∨ (upd s.slots i _ j).armed = true ∨ some i = some j
    by_cases e : j = i
    · exact Or.inr (Or.inr (by rw [e]))
    · rw [upd_other _ _ e]
      rcases I.all j hj with h | h | h
      · exact Or.inl h
      · exact Or.inr (Or.inl h)
      · rw [hr] at h; cases h
  · intro j hj
    have hj : (upd s.slots i { s.slots i with armed := false } j).armed = true := hj
    have e : j ≠ i := by intro e; subst e; rw [upd_same] at hj; cases hj
    show j < s.n ∧ ∃ h d, (upd s.slots i _ j).handler = some h ∧ (upd s.slots i _ j).data = .user d
    rw [upd_other _ _ e] at hj ⊢; exact I.armed j hj
  · intro j hj
    have hj : some i = some j := hj
    cases hj
    exact ⟨(I.armed i ha).1, by show (upd s.slots i _ i).armed = false; rw [upd_same]⟩

/-- The handler of a timer that expires is called with its argument. -/
theorem expire_eq {s : State} {l : List Nat} {i : Nat} (I : Inv s l) (hc : i < s.n ∧ (s.slots i).armed = true ∧ s.running = none) :
    ∃ h d, (s.slots i).handler = some h ∧ (s.slots i).data = .user d ∧
      expire s i = some { s with slots := upd s.slots i { s.slots i with armed := false }, running := some i, calls := s.calls ++ [(h, d)] } := by
  obtain ⟨_, h, d, h1, h2⟩ := I.armed i hc.2.1
  refine ⟨h, d, h1, h2, ?_⟩
  unfold expire
  rw [if_pos hc]
  split
  · rename_i e; rw [h1] at e; cases e
  · rename_i h' e
    rw [h1] at e; cases e
    split
    · rename_i e; rw [h2] at e; cases e
    · rename_i d' e; rw [h2] at e; cases e; rfl

theorem inv_finish {s : State} {l : List Nat} (I : Inv s l) : ∃ l', Inv (finish s) l' := by
  unfold finish
  cases hr : s.running with
  | none => exact ⟨l, I⟩
  | some i =>
    obtain ⟨h1, h2⟩ := I.run i hr
    refine ⟨i :: l, inv_put (s := { s with running := none }) h1 (not_free I (Or.inr hr)) I.chain I.nodup I.len ?_ ?_ I.armed ?_ h2 (by simp)⟩
    · intro j hj; exact ⟨(I.free j hj).1, (I.free j hj).2.1, by simp⟩
    · intro j hj
      rcases I.all j hj with h | h | h
      · exact Or.inr (Or.inl h)
      · exact Or.inr (Or.inr (Or.inl h))
      · rw [hr] at h; cases h; exact Or.inl rfl
    · intro j hj; cases hj

/-- Nothing undefined happens as long as numbers of timers are given, and the order is kept. -/
theorem inv_step {s : State} {l : List Nat} (I : Inv s l) (o : Op) (ho : ∀ i, o = .del i → i < s.n) : ∃ s' l', step s o = some s' ∧ Inv s' l' ∧ s'.n = s.n := by
  cases o with
  | add h d =>
    cases h with
    | none => exact ⟨s, l, rfl, I, rfl⟩
    | some h =>
      rcases add_eq I h d with ⟨_, he⟩ | ⟨i, l', next, hl, hc, he⟩
      · exact ⟨s, l, by simp [step, he], I, rfl⟩
      · subst hl
        exact ⟨_, l', by simp only [step, he, Option.map_some], inv_add I hc h d, rfl⟩
  | del i =>
    have hi := ho i rfl
    simp only [step, del, if_neg (Nat.not_le.2 hi)]
    by_cases ha : (s.slots i).armed = true
    · rw [if_pos ha]; exact ⟨_, _, rfl, inv_del I ha _, rfl⟩
    · rw [if_neg ha]; exact ⟨s, l, rfl, I, rfl⟩
  | expire i =>
    simp only [step, expire]
    by_cases hc : i < s.n ∧ (s.slots i).armed = true ∧ s.running = none
    · rw [if_pos hc]
      obtain ⟨h, d, _, _, he⟩ := expire_eq I hc
      simp only [expire, if_pos hc] at he
      exact ⟨_, l, he, inv_expire I hc.2.1 hc.2.2 (s.calls ++ [(h, d)]), rfl⟩
    · rw [if_neg hc]; exact ⟨s, l, rfl, I, rfl⟩
  | finish =>
    obtain ⟨l', h⟩ := inv_finish I
    refine ⟨_, l', rfl, h, ?_⟩
    unfold finish; split <;> rfl

theorem inv_run : ∀ (os : List Op) {s : State} {l : List Nat}, Inv s l → InRange s.n os → ∃ s' l', run s os = some s' ∧ Inv s' l' ∧ s'.n = s.n
  | [], s, l, I, _ => ⟨s, l, rfl, I, rfl⟩
  | o :: os, s, l, I, h => by
    obtain ⟨s1, l1, h1, I1, n1⟩ := inv_step I o (fun i e => h i (by simp [e]))
    obtain ⟨s2, l2, h2, I2, n2⟩ := inv_run os I1 (fun i hi => by rw [n1]; exact h i (List.mem_cons_of_mem _ hi))
    exact ⟨s2, l2, by simp only [run, h1]; exact h2, I2, n2.trans n1⟩

/-- A run that is defined deletes only numbers of timers. -/
theorem range_of_run : ∀ (os : List Op) {s s' : State} {l : List Nat}, Inv s l → run s os = some s' → InRange s.n os
  | [], _, _, _, _, _ => fun _ h => by cases h
  | o :: os, s, s', l, I, h => by
    have ho : ∀ i, o = .del i → i < s.n := by
      intro i e; subst e
      by_cases hi : i < s.n
      · exact hi
      · simp only [run, step, del, if_pos (Nat.not_lt.1 hi)] at h; cases h
    obtain ⟨s1, l1, h1, I1, n1⟩ := inv_step I o ho
    simp only [run, h1] at h
    have := range_of_run os I1 h
    intro i hi
    rcases List.mem_cons.1 hi with e | hi
    · exact ho i e.symm
    · rw [← n1]; exact this i hi

theorem inv_of_run {n : Nat} {os : List Op} {s : State} (h : run (State.init n) os = some s) : s.n = n ∧ ∃ l, Inv s l := by
  obtain ⟨s', l, h1, I, hn⟩ := inv_run os (inv_init n) (range_of_run os (inv_init n) h)
  rw [h] at h1; cases h1
  exact ⟨hn, l, I⟩

end Verif.Timer
