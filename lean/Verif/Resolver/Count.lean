import Verif.Resolver.Inv
/-
Every caller is called once or waits.
-/
namespace Verif.Resolver

theorem waiting_upd (w : Caller) (f : Nat → Rec) (i : Nat) (r : Rec) : ∀ n, (waiting (upd f i r) n).count w + (if i < n then (f i).waiters.count w else 0)
    = (waiting f n).count w + (if i < n then r.waiters.count w else 0)
  | 0 => by simp [waiting]
  | n + 1 => by
    have ih := waiting_upd w f i r n
    simp only [waiting, List.count_append]
    by_cases e : n = i
    · subst e
      rw [upd_same]
      simp only [Nat.lt_irrefl, if_false] at ih
      simp only [Nat.lt_succ_self, if_true]
      omega
    · rw [upd_other _ _ e]
      have : (i < n + 1) ↔ (i < n) := by omega
      simp only [this]
      omega

theorem serve_ids (addrs : List Addr) (m : Nat) : ∀ (ws : List Caller) (n : Nat), (serve addrs m n ws).map Prod.fst = ws
  | [], _ => rfl
  | w :: ws, n => by simp [serve, serve_ids addrs m ws]

theorem fill_ids (m : Nat) (rnd : Nat → Nat) (a : Addr) (as : List Addr) (i : Nat) (addrs : List Addr) (ws : List Caller) :
    (fill m rnd i (a :: as) addrs ws).2.map Prod.fst = ws := by
  have h0 : ∀ (as : List Addr) (i : Nat) (addrs : List Addr), (fill m rnd i as addrs []).2 = [] := by
    intro as
    induction as with
    | nil => intros; rfl
    | cons b bs ih => intro i addrs; show serve _ _ _ [] ++ (fill m rnd (i + 1) bs _ []).2 = []; rw [ih]; rfl
  show (serve _ _ _ ws ++ (fill m rnd (i + 1) as _ []).2).map Prod.fst = ws
  rw [h0, List.append_nil, serve_ids]

/-- Calls of `w` so far and its waits -/
def tally (w : Caller) (s : State) : Nat := (s.out.map Prod.fst).count w + (waiting s.recs s.nalloc).count w

theorem waiting_grow (f : Nat → Rec) (n : Nat) (h : (f n).waiters = []) : waiting f (n + 1) = waiting f n := by
  simp [waiting, h]

theorem tally_create {c : Conf} {s : State} {n : Name} (I : Inv c s) (w : Caller) : tally w (create c s n).1 = tally w s := by
  obtain ⟨i, fr, na, he, hp⟩ := create_eq c s n
  obtain ⟨h1, h2, h3, _, _, h6⟩ := hp I
  rw [he]
  show (s.out.map Prod.fst).count w + (waiting (upd s.recs i (Rec.fresh (lower n))) na).count w = (s.out.map Prod.fst).count w + (waiting s.recs s.nalloc).count w
  have hw := I.wait_none i h1
  have := waiting_upd w s.recs i (Rec.fresh (lower n)) na
  rw [if_pos h3, if_pos h3, hw] at this
  have e : (waiting s.recs na) = waiting s.recs s.nalloc := by
    rcases h6 with h | ⟨h, hi⟩
    · rw [h]
    · rw [h]; exact waiting_grow _ _ (hi ▸ hw)
  rw [e] at this
  have z : (Rec.fresh (lower n)).waiters.count w = 0 := rfl
  simp only [List.count_nil] at this
  omega

theorem tally_ask {c : Conf} {s : State} (I : Inv c s) {i j : Nat} (hi : i ∈ s.bucket j) (v : Caller) (r : Nat) (w : Caller) :
    tally w (ask s i v r) = tally w s + [v].count w := by
  unfold ask
  by_cases h : (s.recs i).naddrs = 0
  · rw [if_pos h]
    show (s.out.map Prod.fst).count w + (waiting (upd s.recs i ⟨(s.recs i).name, (s.recs i).naddrs, (s.recs i).addrs, v :: (s.recs i).waiters⟩) s.nalloc).count w = (s.out.map Prod.fst).count w + (waiting s.recs s.nalloc).count w + [v].count w
    have := waiting_upd w s.recs i { s.recs i with waiters := v :: (s.recs i).waiters } s.nalloc
    rw [if_pos (I.tab_lt j i hi), if_pos (I.tab_lt j i hi)] at this
    have e : (v :: (s.recs i).waiters).count w = (s.recs i).waiters.count w + [v].count w := by
      rw [List.count_cons, List.count_singleton]
    simp only [e] at this
    omega
  · rw [if_neg h]
    show ((s.out ++ [(v, (s.recs i).addrs[r % (s.recs i).naddrs]?)]).map Prod.fst).count w + (waiting s.recs s.nalloc).count w = (s.out.map Prod.fst).count w + (waiting s.recs s.nalloc).count w + [v].count w
    rw [List.map_append, List.count_append]
    show (s.out.map Prod.fst).count w + [v].count w + (waiting s.recs s.nalloc).count w = (s.out.map Prod.fst).count w + (waiting s.recs s.nalloc).count w + [v].count w
    omega

/-- Whoever waits at a record of the table is called -/
theorem tally_flush {c : Conf} {s : State} (I : Inv c s) (i : Nat) (r : Rec) (o : List (Caller × Option Addr)) (hr : r.waiters = [])
    (ho : o.map Prod.fst = (s.recs i).waiters) (w : Caller) :
    ((s.out ++ o).map Prod.fst).count w + (waiting (upd s.recs i r) s.nalloc).count w = tally w s := by
  have := waiting_upd w s.recs i r s.nalloc
  rw [List.map_append, List.count_append, ho]
  unfold tally
  by_cases hi : i < s.nalloc
  · rw [if_pos hi, if_pos hi, hr] at this
    simp only [List.count_nil] at this
    omega
  · rw [if_neg hi, if_neg hi] at this
    have : (s.recs i).waiters = [] := I.wait_none i fun j hj => hi (I.tab_lt j i hj)
    rw [this]
    simp only [List.count_nil]
    omega

/-- Who asks by an operation -/
theorem tally_step {c : Conf} {s s' : State} (I : Inv c s) {o : Op} (h : step c s o = some s') (w : Caller) :
    tally w s' = tally w s + (asked [o]).count w := by
  cases o with
  | add n =>
    show tally w s' = tally w s + 0
    simp only [step, add] at h
    split at h
    · cases h
    · split at h
      · cases h; rfl
      · cases h; exact tally_create I w
    · cases h; rfl
  | del n =>
    show tally w s' = tally w s + 0
    simp only [step, del] at h
    split at h
    · cases h
    · split at h
      · cases h; rfl
      · cases h
        exact tally_flush I _ _ _ rfl (by rw [List.map_map]; exact List.map_id _) w
    · cases h; rfl
  | start n v r =>
    simp only [step, start] at h
    have one : ∀ (x : Option Addr), tally w { s with out := s.out ++ [(v, x)] } = tally w s + [v].count w := by
      intro x
      show ((s.out ++ [(v, x)]).map Prod.fst).count w + (waiting s.recs s.nalloc).count w = (s.out.map Prod.fst).count w + (waiting s.recs s.nalloc).count w + [v].count w
      rw [List.map_append, List.count_append]
      show (s.out.map Prod.fst).count w + [v].count w + (waiting s.recs s.nalloc).count w = (s.out.map Prod.fst).count w + (waiting s.recs s.nalloc).count w + [v].count w
      omega
    cases hg : gate c n with
    | empty =>
      rw [hg] at h; cases h
      have : n = [] := by
        unfold gate at hg
        by_cases hn : n = []
        · exact hn
        · rw [if_neg hn] at hg
          revert hg
          repeat' split
          all_goals simp
      simp [asked, this]
    | undefined => rw [hg] at h; cases h
    | numeric a =>
      rw [hg] at h; cases h
      have : n ≠ [] := by intro e; subst e; cases hg
      simp only [asked, if_neg this]; exact one _
    | refused =>
      rw [hg] at h; cases h
      have : n ≠ [] := by intro e; subst e; cases hg
      simp only [asked, if_neg this]; exact one _
    | pass =>
      rw [hg] at h
      have : n ≠ [] := ((gate_pass c n).1 hg).1
      simp only [asked, if_neg this]
      cases hf : find c s n with
      | some i => rw [hf] at h; cases h; exact tally_ask I (find_some hf).1 v r w
      | none =>
        rw [hf] at h; cases h
        rw [← tally_create I (n := n) w]
        exact tally_ask (inv_create I hf) (create_mem c s n) v r w
  | timer =>
    cases h
    show tally w (timer c s) = tally w s + 0
    unfold timer
    by_cases h : c.on
    · rw [if_pos h]; rfl
    · rw [if_neg h]; rfl
  | result k as rnd =>
    show tally w s' = tally w s + 0
    simp only [step] at h
    split at h
    · cases h; rfl
    · rename_i i nm hk
      unfold land at h
      cases as with
      | nil =>
        cases h
        exact tally_flush I _ _ _ rfl (by rw [List.map_map]; exact List.map_id _) w
      | cons a as =>
        simp only at h
        split at h
        · cases h
        · cases h
          exact tally_flush I i _ _ rfl (fill_ids _ _ _ _ _ _ _) w

theorem asked_cons (o : Op) (os : List Op) : asked (o :: os) = asked [o] ++ asked os := by
  cases o <;> simp [asked]
  split <;> simp

theorem tally_run {c : Conf} (w : Caller) : ∀ (os : List Op) {s s' : State}, Inv c s → run c s os = some s' → tally w s' = tally w s + (asked os).count w
  | [], _, _, _, h => by cases h; rfl
  | o :: os, s, s', I, h => by
    simp only [run] at h
    cases hs : step c s o with
    | none => rw [hs] at h; cases h
    | some s1 =>
      rw [hs] at h
      have := tally_run w os (inv_step I hs) h
      rw [this, tally_step I hs w, asked_cons o os, List.count_append]
      omega

end Verif.Resolver
