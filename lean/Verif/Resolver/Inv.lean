import Verif.Resolver.Trace
/-
The table is in order in every state.
-/
namespace Verif.Resolver

theorem byte (P : UInt8 → Prop) (h : ∀ n : Fin 256, P (UInt8.ofNat n)) (c : UInt8) : P c := by
  have := h ⟨c.toNat, c.toNat_lt⟩
  simpa using this

theorem lower_small (n : Name) : lower n = small n := by
  unfold lower small
  apply List.map_congr_left
  intro c _
  exact byte (fun c => (if 65 ≤ c ∧ c ≤ 90 then c ||| 0x20 else c) = if 65 ≤ c ∧ c ≤ 90 then c + 32 else c) (by decide +kernel) c

theorem small_small (n : Name) : small (small n) = small n := by
  unfold small
  rw [List.map_map]
  apply List.map_congr_left
  intro c _
  exact byte (fun c => ((fun c : UInt8 => if 65 ≤ c ∧ c ≤ 90 then c + 32 else c) ∘ (fun c : UInt8 => if 65 ≤ c ∧ c ≤ 90 then c + 32 else c)) c = if 65 ≤ c ∧ c ≤ 90 then c + 32 else c) (by decide +kernel) c

theorem lower_lower (n : Name) : lower (lower n) = lower n := by
  rw [lower_small, lower_small, small_small]

theorem slot_lower (c : Conf) (n : Name) : slot c (lower n) = slot c n := by
  unfold slot hash; rw [lower_lower]

theorem upd_same {α : Type} (f : Nat → α) (i : Nat) (v : α) : upd f i v i = v := by simp [upd]
theorem upd_other {α : Type} (f : Nat → α) {i j : Nat} (v : α) (h : j ≠ i) : upd f i v j = f j := by simp [upd, h]

theorem gate_pass (c : Conf) (n : Name) : gate c n = .pass ↔ Plain c n := by
  unfold gate Plain
  by_cases h : n = []
  · simp [h]
  · rw [if_neg h]
    cases ha : c.addr n with
    | some a => by_cases hl : a.length ≤ sockaddrSize <;> simp [hl]
    | none =>
      cases ho : c.on with
      | false => simp
      | true =>
        by_cases hl : maxDomain < n.length
        · have h2 : ¬ n.length ≤ 128 := by unfold maxDomain at hl; omega
          simp [hl, h2]
        · by_cases hz : c.nb = 0
          · simp [hz, hl]
          · have h2 : n.length ≤ 128 := by unfold maxDomain at hl; omega
            have h3 : 0 < c.nb := by omega
            simp [hz, hl, h, h2, h3]

structure Inv (c : Conf) (s : State) : Prop where
  tab_lt : ∀ j i, i ∈ s.bucket j → i < s.nalloc
  tab_low : ∀ j i, i ∈ s.bucket j → lower (s.recs i).name = (s.recs i).name
  tab_slot : ∀ j i, i ∈ s.bucket j → slot c (s.recs i).name = j
  nodup : ∀ j, (s.bucket j).Nodup
  uniq : ∀ j i i', i ∈ s.bucket j → i' ∈ s.bucket j → (s.recs i).name = (s.recs i').name → i = i'
  free_lt : ∀ i, i ∈ s.free → i < s.nalloc
  free_nodup : s.free.Nodup
  free_tab : ∀ j i, i ∈ s.free → i ∉ s.bucket j
  wait_none : ∀ i, (∀ j, i ∉ s.bucket j) → (s.recs i).waiters = []
  len : ∀ i, (s.recs i).addrs.length = 8
  num : ∀ i, (s.recs i).naddrs ≤ 8
  blank : ∀ i, (s.recs i).naddrs = 0 → (s.recs i).addrs = List.replicate 8 []
  wait_zero : ∀ i, (s.recs i).waiters ≠ [] → (s.recs i).naddrs = 0
  wait_fly : ∀ i, (s.recs i).waiters ≠ [] → ∃ n, (i, n) ∈ s.flights

theorem inv_init (c : Conf) : Inv c State.init := by
  constructor <;> simp [State.init, Rec.fresh, maxAddrs]

theorem find_some {c : Conf} {s : State} {n : Name} {i : Nat} (h : find c s n = some i) :
    i ∈ s.bucket (slot c n) ∧ (s.recs i).name = lower n := by
  refine ⟨List.mem_of_find?_eq_some h, ?_⟩
  have := List.find?_some h
  simpa using this

theorem find_none {c : Conf} {s : State} {n : Name} (h : find c s n = none) :
    ∀ i, i ∈ s.bucket (slot c n) → (s.recs i).name ≠ lower n := by
  intro i hi
  have := List.find?_eq_none.1 h i hi
  simpa using this

/-- A name of the table is found. -/
theorem find_of {c : Conf} {s : State} (I : Inv c s) {n : Name} {i j : Nat} (h : i ∈ s.bucket j) (hn : (s.recs i).name = lower n) :
    find c s n = some i := by
  have hj : slot c n = j := by
    have := I.tab_slot j i h
    rw [hn, slot_lower] at this
    exact this
  cases hf : find c s n with
  | none => exact absurd hn (find_none hf i (hj ▸ h))
  | some i' =>
    obtain ⟨hi', hn'⟩ := find_some hf
    rw [hj] at hi'
    rw [I.uniq j i' i hi' h (by rw [hn', hn])]

/-- The record that is taken for a new name -/
theorem create_eq (c : Conf) (s : State) (n : Name) : ∃ i free nalloc,
    create c s n = ({ s with free := free, nalloc := nalloc, recs := upd s.recs i (Rec.fresh (lower n)), bucket := upd s.bucket (slot c n) (i :: s.bucket (slot c n)) }, i)
    ∧ (Inv c s → (∀ j, i ∉ s.bucket j) ∧ s.nalloc ≤ nalloc ∧ i < nalloc ∧ (∀ k ∈ free, k ∈ s.free ∧ k ≠ i) ∧ free.Nodup ∧ (s.nalloc = nalloc ∨ (nalloc = s.nalloc + 1 ∧ i = s.nalloc))) := by
  unfold create
  cases hf : s.free with
  | nil =>
    refine ⟨s.nalloc, s.free, s.nalloc + 1, ?_, fun I => ⟨fun j h => ?_, by omega, by omega, ?_, ?_, Or.inr ⟨rfl, rfl⟩⟩⟩
    · rw [hf]
    · have := I.tab_lt j _ h; omega
    · rw [hf]; simp
    · rw [hf]; simp
  | cons i fr =>
    refine ⟨i, fr, s.nalloc, rfl, fun I => ?_⟩
    have hn := I.free_nodup
    rw [hf] at hn
    have hn' := List.nodup_cons.1 hn
    refine ⟨fun j => I.free_tab j i (by rw [hf]; simp), Nat.le_refl _, I.free_lt i (by rw [hf]; simp), fun k hk => ⟨by simp [hk], ?_⟩, hn'.2, Or.inl rfl⟩
    intro he; subst he; exact hn'.1 hk

theorem inv_create {c : Conf} {s : State} {n : Name} (I : Inv c s) (hf : find c s n = none) : Inv c (create c s n).1 := by
  obtain ⟨i, fr, na, he, hp⟩ := create_eq c s n
  obtain ⟨h1, h2, h3, h4, h5, _⟩ := hp I
  rw [he]
  have old : ∀ j k, k ∈ s.bucket j → k ≠ i := by
    intro j k hk he; subst he; exact h1 j hk
  have mem : ∀ j k, k ∈ upd s.bucket (slot c n) (i :: s.bucket (slot c n)) j ↔ (k = i ∧ j = slot c n) ∨ k ∈ s.bucket j := by
    intro j k
    by_cases hj : j = slot c n
    · subst hj; rw [upd_same]; simp
    · rw [upd_other _ _ hj]; simp [hj]
  constructor
  · intro j k hk
    rcases (mem j k).1 hk with ⟨e, _⟩ | h
    · subst e; exact h3
    · exact Nat.lt_of_lt_of_le (I.tab_lt j k h) h2
  · intro j k hk
    show lower (upd s.recs i (Rec.fresh (lower n)) k).name = (upd s.recs i (Rec.fresh (lower n)) k).name
    rcases (mem j k).1 hk with ⟨e, _⟩ | h
    · subst e; rw [upd_same]; exact lower_lower n
    · rw [upd_other _ _ (old j k h)]; exact I.tab_low j k h
  · intro j k hk
    show slot c (upd s.recs i (Rec.fresh (lower n)) k).name = j
    rcases (mem j k).1 hk with ⟨e, hj⟩ | h
    · subst e; rw [upd_same, hj]; exact slot_lower c n
    · rw [upd_other _ _ (old j k h)]; exact I.tab_slot j k h
  · intro j
    show (upd s.bucket (slot c n) (i :: s.bucket (slot c n)) j).Nodup
    by_cases hj : j = slot c n
    · subst hj; rw [upd_same]; exact List.nodup_cons.2 ⟨h1 _, I.nodup _⟩
    · rw [upd_other _ _ hj]; exact I.nodup j
  · intro j k k' hk hk' hnm
    have hnm : (upd s.recs i (Rec.fresh (lower n)) k).name = (upd s.recs i (Rec.fresh (lower n)) k').name := hnm
    rcases (mem j k).1 hk with ⟨e, hj⟩ | h <;> rcases (mem j k').1 hk' with ⟨e', hj'⟩ | h'
    · rw [e, e']
    · rw [e, upd_same, upd_other _ _ (old j k' h')] at hnm
      exact absurd hnm.symm (find_none hf k' (hj ▸ h'))
    · rw [e', upd_same, upd_other _ _ (old j k h)] at hnm
      exact absurd hnm (find_none hf k (hj' ▸ h))
    · rw [upd_other _ _ (old j k h), upd_other _ _ (old j k' h')] at hnm
      exact I.uniq j k k' h h' hnm
  · intro k hk; exact Nat.lt_of_lt_of_le (I.free_lt k (h4 k hk).1) h2
  · exact h5
  · intro j k hk hb
    rcases (mem j k).1 hb with ⟨e, _⟩ | h
    · exact (h4 k hk).2 e
    · exact I.free_tab j k (h4 k hk).1 h
  · intro k hk
    show (upd s.recs i (Rec.fresh (lower n)) k).waiters = []
    by_cases e : k = i
    · subst e; rw [upd_same]; rfl
    · rw [upd_other _ _ e]; exact I.wait_none k fun j hj => hk j ((mem j k).2 (Or.inr hj))
  · intro k
    show (upd s.recs i (Rec.fresh (lower n)) k).addrs.length = 8
    by_cases e : k = i
    · subst e; rw [upd_same]; rfl
    · rw [upd_other _ _ e]; exact I.len k
  · intro k
    show (upd s.recs i (Rec.fresh (lower n)) k).naddrs ≤ 8
    by_cases e : k = i
    · subst e; rw [upd_same]; exact Nat.zero_le _
    · rw [upd_other _ _ e]; exact I.num k
  · intro k
    show (upd s.recs i (Rec.fresh (lower n)) k).naddrs = 0 → (upd s.recs i (Rec.fresh (lower n)) k).addrs = _
    by_cases e : k = i
    · subst e; rw [upd_same]; intro _; rfl
    · rw [upd_other _ _ e]; exact I.blank k
  · intro k
    show (upd s.recs i (Rec.fresh (lower n)) k).waiters ≠ [] → (upd s.recs i (Rec.fresh (lower n)) k).naddrs = 0
    by_cases e : k = i
    · subst e; rw [upd_same]; intro h; exact absurd rfl h
    · rw [upd_other _ _ e]; exact I.wait_zero k
  · intro k
    show (upd s.recs i (Rec.fresh (lower n)) k).waiters ≠ [] → ∃ n, (k, n) ∈ s.flights
    by_cases e : k = i
    · subst e; rw [upd_same]; intro h; exact absurd rfl h
    · rw [upd_other _ _ e]; exact I.wait_fly k

/-- A record whose name stays and whose addresses and callers are in order may be put in the place of another; the questions under way may change for it alone. -/
theorem inv_upd {c : Conf} {s : State} (I : Inv c s) (i : Nat) (r : Rec) (fl : List (Nat × Name)) (o : List (Caller × Option Addr))
    (hn : r.name = (s.recs i).name) (hl : r.addrs.length = 8) (hm : r.naddrs ≤ 8) (hb : r.naddrs = 0 → r.addrs = List.replicate 8 [])
    (hw : r.waiters ≠ [] → r.naddrs = 0 ∧ (∃ j, i ∈ s.bucket j) ∧ ∃ n, (i, n) ∈ fl)
    (hfl : ∀ k n, k ≠ i → (k, n) ∈ s.flights → (k, n) ∈ fl) :
    Inv c { s with recs := upd s.recs i r, flights := fl, out := o } := by
  have nm : ∀ k, (upd s.recs i r k).name = (s.recs k).name := by
    intro k
    by_cases e : k = i
    · subst e; rw [upd_same, hn]
    · rw [upd_other _ _ e]
  constructor
  · exact I.tab_lt
  · intro j k hk; show lower (upd s.recs i r k).name = (upd s.recs i r k).name; rw [nm]; exact I.tab_low j k hk
  · intro j k hk; show slot c (upd s.recs i r k).name = j; rw [nm]; exact I.tab_slot j k hk
  · exact I.nodup
  · intro j k k' hk hk' h
    have h : (upd s.recs i r k).name = (upd s.recs i r k').name := h
    rw [nm, nm] at h; exact I.uniq j k k' hk hk' h
  · exact I.free_lt
  · exact I.free_nodup
  · exact I.free_tab
  · intro k hk
    show (upd s.recs i r k).waiters = []
    by_cases e : k = i
    · subst e; rw [upd_same]
      cases hr : r.waiters with
      | nil => rfl
      | cons x y =>
        obtain ⟨_, ⟨j, hj⟩, _⟩ := hw (by rw [hr]; simp)
        exact absurd hj (hk j)
    · rw [upd_other _ _ e]; exact I.wait_none k hk
  · intro k; show (upd s.recs i r k).addrs.length = 8
    by_cases e : k = i
    · subst e; rw [upd_same]; exact hl
    · rw [upd_other _ _ e]; exact I.len k
  · intro k; show (upd s.recs i r k).naddrs ≤ 8
    by_cases e : k = i
    · subst e; rw [upd_same]; exact hm
    · rw [upd_other _ _ e]; exact I.num k
  · intro k; show (upd s.recs i r k).naddrs = 0 → (upd s.recs i r k).addrs = _
    by_cases e : k = i
    · subst e; rw [upd_same]; exact hb
    · rw [upd_other _ _ e]; exact I.blank k
  · intro k; show (upd s.recs i r k).waiters ≠ [] → (upd s.recs i r k).naddrs = 0
    by_cases e : k = i
    · subst e; rw [upd_same]; exact fun h => (hw h).1
    · rw [upd_other _ _ e]; exact I.wait_zero k
  · intro k; show (upd s.recs i r k).waiters ≠ [] → ∃ n, (k, n) ∈ fl
    by_cases e : k = i
    · subst e; rw [upd_same]; exact fun h => (hw h).2.2
    · rw [upd_other _ _ e]; intro h
      obtain ⟨n, hn⟩ := I.wait_fly k h
      exact ⟨n, hfl k n e hn⟩

theorem inv_ask {c : Conf} {s : State} (I : Inv c s) {i j : Nat} (hi : i ∈ s.bucket j) (w : Caller) (r : Nat) : Inv c (ask s i w r) := by
  unfold ask
  by_cases h : (s.recs i).naddrs = 0
  · rw [if_pos h]
    exact inv_upd I i _ _ s.out rfl (I.len i) (I.num i) (I.blank i) (fun _ => ⟨h, ⟨j, hi⟩, _, List.mem_append_right _ (List.mem_singleton.2 rfl)⟩)
      (fun k n _ h => List.mem_append_left _ h)
  · rw [if_neg h]
    exact ⟨I.tab_lt, I.tab_low, I.tab_slot, I.nodup, I.uniq, I.free_lt, I.free_nodup, I.free_tab, I.wait_none, I.len, I.num, I.blank, I.wait_zero, I.wait_fly⟩

theorem create_mem (c : Conf) (s : State) (n : Name) : (create c s n).2 ∈ (create c s n).1.bucket (slot c n) := by
  obtain ⟨i, fr, na, he, _⟩ := create_eq c s n
  rw [he]; show i ∈ upd _ _ _ _; rw [upd_same]; simp

theorem inv_start {c : Conf} {s s' : State} (I : Inv c s) {n : Name} {w : Caller} {r : Nat} (h : start c s n w r = some s') : Inv c s' := by
  have triv : ∀ o, Inv c { s with out := o } := fun o => ⟨I.tab_lt, I.tab_low, I.tab_slot, I.nodup, I.uniq, I.free_lt, I.free_nodup, I.free_tab, I.wait_none, I.len, I.num, I.blank, I.wait_zero, I.wait_fly⟩
  unfold start at h
  cases hg : gate c n with
  | empty => rw [hg] at h; cases h; exact I
  | undefined => rw [hg] at h; cases h
  | numeric a => rw [hg] at h; cases h; exact triv _
  | refused => rw [hg] at h; cases h; exact triv _
  | pass =>
    rw [hg] at h
    cases hf : find c s n with
    | some i => rw [hf] at h; cases h; exact inv_ask I (find_some hf).1 w r
    | none => rw [hf] at h; cases h; exact inv_ask (inv_create I hf) (create_mem c s n) w r

theorem inv_add {c : Conf} {s s' : State} (I : Inv c s) {n : Name} (h : add c s n = some s') : Inv c s' := by
  unfold add at h
  cases hg : gate c n with
  | empty => rw [hg] at h; cases h; exact I
  | undefined => rw [hg] at h; cases h
  | numeric a => rw [hg] at h; cases h; exact I
  | refused => rw [hg] at h; cases h; exact I
  | pass =>
    rw [hg] at h
    cases hf : find c s n with
    | some i => rw [hf] at h; cases h; exact I
    | none => rw [hf] at h; cases h; exact inv_create I hf

theorem inv_timer {c : Conf} {s : State} (I : Inv c s) : Inv c (timer c s) := by
  unfold timer
  by_cases h : c.on
  · rw [if_pos h]
    exact ⟨I.tab_lt, I.tab_low, I.tab_slot, I.nodup, I.uniq, I.free_lt, I.free_nodup, I.free_tab, I.wait_none, I.len, I.num, I.blank, I.wait_zero, fun i h => (I.wait_fly i h).imp fun _ h => List.mem_append_left _ h⟩
  · rw [if_neg h]; exact I

/-- What remains of a bucket -/
theorem mem_cut {c : Conf} {s : State} (I : Inv c s) {i j : Nat} (hi : i ∈ s.bucket j) (j' k : Nat) :
    k ∈ upd s.bucket j ((s.bucket j).erase i) j' ↔ k ∈ s.bucket j' ∧ k ≠ i := by
  by_cases e : j' = j
  · subst e; rw [upd_same, (I.nodup j').mem_erase_iff]; exact And.comm
  · rw [upd_other _ _ e]
    refine ⟨fun h => ⟨h, fun hk => ?_⟩, fun h => h.1⟩
    subst hk
    exact e ((I.tab_slot j' k h).symm.trans (I.tab_slot j k hi))

theorem inv_del {c : Conf} {s s' : State} (I : Inv c s) {n : Name} (h : del c s n = some s') : Inv c s' := by
  unfold del at h
  cases hg : gate c n with
  | empty => rw [hg] at h; cases h; exact I
  | undefined => rw [hg] at h; cases h
  | numeric a => rw [hg] at h; cases h; exact I
  | refused => rw [hg] at h; cases h; exact I
  | pass =>
    rw [hg] at h
    cases hf : find c s n with
    | none => rw [hf] at h; cases h; exact I
    | some i =>
      rw [hf] at h; cases h
      obtain ⟨hi, _⟩ := find_some hf
      have J := inv_upd I i { s.recs i with waiters := [] } s.flights (s.out ++ (s.recs i).waiters.map fun w => (w, none)) rfl (I.len i) (I.num i) (I.blank i) (fun h => absurd rfl h) (fun _ _ _ h => h)
      have cut := mem_cut I hi
      refine ⟨fun j k hk => J.tab_lt j k ((cut j k).1 hk).1, fun j k hk => J.tab_low j k ((cut j k).1 hk).1, fun j k hk => J.tab_slot j k ((cut j k).1 hk).1, ?_,
        fun j k k' hk hk' => J.uniq j k k' ((cut j k).1 hk).1 ((cut j k').1 hk').1, ?_, ?_, ?_, ?_, J.len, J.num, J.blank, J.wait_zero, J.wait_fly⟩
      · intro j
        show (upd s.bucket (slot c n) ((s.bucket (slot c n)).erase i) j).Nodup
        by_cases e : j = slot c n
        · subst e; rw [upd_same]; exact (I.nodup _).erase i
        · rw [upd_other _ _ e]; exact I.nodup j
      · intro k hk
        rcases List.mem_cons.1 hk with e | h
        · subst e; exact I.tab_lt _ _ hi
        · exact I.free_lt k h
      · exact List.nodup_cons.2 ⟨fun h => I.free_tab _ i h hi, I.free_nodup⟩
      · intro j k hk hb
        obtain ⟨hb, hne⟩ := (cut j k).1 hb
        rcases List.mem_cons.1 hk with e | h
        · exact hne e
        · exact I.free_tab j k h hb
      · intro k hk
        show (upd s.recs i { s.recs i with waiters := [] } k).waiters = []
        by_cases e : k = i
        · subst e; rw [upd_same]
        · rw [upd_other _ _ e]
          exact I.wait_none k fun j hj => hk j ((cut j k).2 ⟨hj, e⟩)

theorem fill_len (m : Nat) (rnd : Nat → Nat) : ∀ (as : List Addr) (i : Nat) (addrs : List Addr) (ws : List Caller), (fill m rnd i as addrs ws).1.length = addrs.length
  | [], _, _, _ => rfl
  | a :: as, i, addrs, ws => by
    show (fill m rnd (i + 1) as (addrs.set i a) []).1.length = _
    rw [fill_len m rnd as, List.length_set]

theorem inv_land {c : Conf} {s s' : State} (k i : Nat) (nm : Name) (hk : s.flights[k]? = some (i, nm)) (I : Inv c s) {as : List Addr} {rnd : Nat → Nat}
    (h : land { s with flights := s.flights.eraseIdx k } i as rnd = some s') : Inv c s' := by
  have keep : ∀ k' n, k' ≠ i → (k', n) ∈ s.flights → (k', n) ∈ s.flights.eraseIdx k := by
    intro k' n hne hm
    obtain ⟨x, hx, hxe⟩ := List.getElem_of_mem hm
    rw [List.mem_eraseIdx_iff_getElem]
    refine ⟨x, hx, ?_, hxe⟩
    intro e; subst e
    rw [List.getElem?_eq_getElem hx, hxe] at hk
    cases hk; exact hne rfl
  unfold land at h
  cases as with
  | nil =>
    cases h
    exact inv_upd I i { s.recs i with waiters := [] } _ _ rfl (I.len i) (I.num i) (I.blank i) (fun h => absurd rfl h) keep
  | cons a as =>
    simp only at h
    split at h
    · cases h
    · cases h
      refine inv_upd I i _ _ _ rfl ?_ ?_ ?_ (fun h => absurd rfl h) keep
      · show (fill _ _ _ _ _ _).1.length = 8
        rw [fill_len]; exact I.len i
      · show (List.take maxAddrs (a :: as)).length ≤ 8
        rw [List.length_take]; exact Nat.min_le_left _ _
      · show (List.take maxAddrs (a :: as)).length = 0 → _
        intro h; simp [maxAddrs] at h

theorem inv_step {c : Conf} {s s' : State} (I : Inv c s) {o : Op} (h : step c s o = some s') : Inv c s' := by
  cases o with
  | add n => exact inv_add I h
  | del n => exact inv_del I h
  | start n w r => exact inv_start I h
  | timer => cases h; exact inv_timer I
  | result k as rnd =>
    simp only [step] at h
    cases hk : s.flights[k]? with
    | none => rw [hk] at h; cases h; exact I
    | some f => rw [hk] at h; exact inv_land k f.1 f.2 hk I h

theorem inv_run {c : Conf} : ∀ (os : List Op) {s s' : State}, Inv c s → run c s os = some s' → Inv c s'
  | [], _, _, I, h => by cases h; exact I
  | o :: os, s, s', I, h => by
    simp only [run] at h
    cases hs : step c s o with
    | none => rw [hs] at h; cases h
    | some s1 => rw [hs] at h; exact inv_run os (inv_step I hs) h

end Verif.Resolver
