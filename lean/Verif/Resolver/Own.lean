import Verif.Resolver.Inv
/-
As long as no name is removed while a question for it is under way, every record has what was learned for its name.
-/
namespace Verif.Resolver

/-- `t`: what was learned; `H`: what was ever answered for a name; `L`: who asks for what -/
structure Own (c : Conf) (L : Caller → Name → Prop) (t : Table) (H : Name → Addr → Prop) (s : State) : Prop where
  fly : ∀ i n, (i, n) ∈ s.flights → (∃ j, i ∈ s.bucket j) ∧ (s.recs i).name = n
  tab : ∀ j i, i ∈ s.bucket j → t (s.recs i).name = some ((s.recs i).addrs.take (s.recs i).naddrs)
  known : ∀ n, t n ≠ none → ∃ j i, i ∈ s.bucket j ∧ (s.recs i).name = n
  wait : ∀ i w, w ∈ (s.recs i).waiters → ∃ n, L w n ∧ small n = (s.recs i).name
  addr : ∀ j i a, i ∈ s.bucket j → a ∈ (s.recs i).addrs → a = [] ∨ H (s.recs i).name a
  out : ∀ w a, (w, some a) ∈ s.out → ∃ n, L w n ∧ (a = [] ∨ c.addr n = some a ∨ H (small n) a)

theorem own_init (c : Conf) (L : Caller → Name → Prop) (H : Name → Addr → Prop) : Own c L (fun _ => none) H State.init := by
  constructor <;> simp [State.init, Rec.fresh]

theorem Own.mono {c : Conf} {L : Caller → Name → Prop} {t : Table} {H H' : Name → Addr → Prop} {s : State} (O : Own c L t H s) (h : ∀ n a, H n a → H' n a) :
    Own c L t H' s :=
  ⟨O.fly, O.tab, O.known, O.wait, fun j i a hi ha => (O.addr j i a hi ha).imp id (h _ _), fun w a hw => (O.out w a hw).imp fun _ hn => hn.imp id (Or.imp id (Or.imp id (h _ _)))⟩

theorem set_same (t : Table) (n : Name) (v : Option (List Addr)) : t.set n v n = v := by simp [Table.set]
theorem set_other (t : Table) {n m : Name} (v : Option (List Addr)) (h : m ≠ n) : t.set n v m = t m := by simp [Table.set, h]

/-- A name that is in the table is entered again. -/
theorem entered_known {t : Table} {n : Name} {l : List Addr} (h : t (small n) = some l) : t.after (.entered n) = t := by
  simp [Table.after, h]

theorem own_create {c : Conf} {L : Caller → Name → Prop} {t : Table} {H : Name → Addr → Prop} {s : State} {n : Name} (I : Inv c s) (O : Own c L t H s) (hf : find c s n = none) :
    Own c L (t.after (.entered n)) H (create c s n).1 := by
  obtain ⟨i, fr, na, he, hp⟩ := create_eq c s n
  obtain ⟨h1, _, _, _, _, _⟩ := hp I
  rw [he]
  have old : ∀ j k, k ∈ s.bucket j → k ≠ i := by
    intro j k hk he; subst he; exact h1 j hk
  have mem : ∀ j k, k ∈ upd s.bucket (slot c n) (i :: s.bucket (slot c n)) j ↔ (k = i ∧ j = slot c n) ∨ k ∈ s.bucket j := by
    intro j k
    by_cases hj : j = slot c n
    · subst hj; rw [upd_same]; simp
    · rw [upd_other _ _ hj]; simp [hj]
  have ht : t (small n) = none := by
    cases hx : t (small n) with
    | none => rfl
    | some l =>
      obtain ⟨j, k, hk, hnm⟩ := O.known (small n) (by rw [hx]; simp)
      rw [← lower_small] at hnm
      rw [find_of I hk hnm] at hf
      cases hf
  have hs : t.after (.entered n) = t.set (lower n) (some []) := by
    rw [lower_small]; simp [Table.after, ht]
  rw [hs]
  have ne : ∀ j k, k ∈ s.bucket j → (s.recs k).name ≠ lower n := by
    intro j k hk e
    rw [find_of I hk e] at hf; cases hf
  constructor
  · intro k m hk
    obtain ⟨⟨j, hj⟩, hm⟩ := O.fly k m hk
    refine ⟨⟨j, (mem j k).2 (Or.inr hj)⟩, ?_⟩
    show (upd s.recs i (Rec.fresh (lower n)) k).name = m
    rw [upd_other _ _ (old j k hj)]; exact hm
  · intro j k hk
    show t.set (lower n) (some []) (upd s.recs i (Rec.fresh (lower n)) k).name = some ((upd s.recs i (Rec.fresh (lower n)) k).addrs.take (upd s.recs i (Rec.fresh (lower n)) k).naddrs)
    rcases (mem j k).1 hk with ⟨e, _⟩ | h
    · subst e; rw [upd_same]; exact set_same _ _ _
    · rw [upd_other _ _ (old j k h), set_other _ _ (ne j k h)]; exact O.tab j k h
  · intro m hm
    by_cases e : m = lower n
    · subst e
      refine ⟨slot c n, i, (mem _ _).2 (Or.inl ⟨rfl, rfl⟩), ?_⟩
      show (upd s.recs i (Rec.fresh (lower n)) i).name = _
      rw [upd_same]; rfl
    · rw [set_other _ _ e] at hm
      obtain ⟨j, k, hk, hnm⟩ := O.known m hm
      refine ⟨j, k, (mem _ _).2 (Or.inr hk), ?_⟩
      show (upd s.recs i (Rec.fresh (lower n)) k).name = _
      rw [upd_other _ _ (old j k hk)]; exact hnm
  · intro k w hw
    have hw : w ∈ (upd s.recs i (Rec.fresh (lower n)) k).waiters := hw
    show ∃ m, L w m ∧ small m = (upd s.recs i (Rec.fresh (lower n)) k).name
    by_cases e : k = i
    · subst e; rw [upd_same] at hw; exact absurd hw (by simp [Rec.fresh])
    · rw [upd_other _ _ e] at hw ⊢; exact O.wait k w hw
  · intro j k a hk ha
    have ha : a ∈ (upd s.recs i (Rec.fresh (lower n)) k).addrs := ha
    show _ ∨ H (upd s.recs i (Rec.fresh (lower n)) k).name a
    rcases (mem j k).1 hk with ⟨e, _⟩ | h
    · subst e; rw [upd_same] at ha
      exact Or.inl (List.eq_of_mem_replicate ha)
    · rw [upd_other _ _ (old j k h)] at ha ⊢; exact O.addr j k a h ha
  · exact O.out

theorem own_known {c : Conf} {L : Caller → Name → Prop} {t : Table} {H : Name → Addr → Prop} {s : State} {n : Name} (O : Own c L t H s) {i : Nat} (hf : find c s n = some i) :
    t.after (.entered n) = t := by
  obtain ⟨hi, hn⟩ := find_some hf
  have := O.tab _ i hi
  rw [hn, lower_small] at this
  exact entered_known this

theorem own_ask {c : Conf} {L : Caller → Name → Prop} {t : Table} {H : Name → Addr → Prop} {s : State} (O : Own c L t H s) {i j : Nat} (hi : i ∈ s.bucket j) (w : Caller) (r : Nat)
    (hw : ∃ n, L w n ∧ small n = (s.recs i).name) : Own c L t H (ask s i w r) := by
  unfold ask
  by_cases h : (s.recs i).naddrs = 0
  · rw [if_pos h]
    have same : ∀ k, (upd s.recs i { s.recs i with waiters := w :: (s.recs i).waiters } k).name = (s.recs k).name ∧ (upd s.recs i { s.recs i with waiters := w :: (s.recs i).waiters } k).addrs = (s.recs k).addrs ∧ (upd s.recs i { s.recs i with waiters := w :: (s.recs i).waiters } k).naddrs = (s.recs k).naddrs := by
      intro k
      by_cases e : k = i
      · subst e; rw [upd_same]; exact ⟨rfl, rfl, rfl⟩
      · rw [upd_other _ _ e]; exact ⟨rfl, rfl, rfl⟩
    constructor
    · intro k m hk
      show _ ∧ (upd s.recs i _ k).name = m
      rw [(same k).1]
      rcases List.mem_append.1 hk with h | h
      · exact O.fly k m h
      · cases List.mem_singleton.1 h; exact ⟨⟨j, hi⟩, rfl⟩
    · intro j' k hk
      show t (upd s.recs i _ k).name = some ((upd s.recs i _ k).addrs.take (upd s.recs i _ k).naddrs)
      rw [(same k).1, (same k).2.1, (same k).2.2]; exact O.tab j' k hk
    · intro m hm
      obtain ⟨j', k, hk, hnm⟩ := O.known m hm
      refine ⟨j', k, hk, ?_⟩
      show (upd s.recs i _ k).name = m
      rw [(same k).1]; exact hnm
    · intro k v hv
      have hv : v ∈ (upd s.recs i { s.recs i with waiters := w :: (s.recs i).waiters } k).waiters := hv
      show ∃ m, L v m ∧ small m = (upd s.recs i _ k).name
      rw [(same k).1]
      by_cases e : k = i
      · subst e; rw [upd_same] at hv
        rcases List.mem_cons.1 hv with e | h
        · subst e; exact hw
        · exact O.wait k v h
      · rw [upd_other _ _ e] at hv; exact O.wait k v hv
    · intro j' k a hk ha
      have ha : a ∈ (upd s.recs i { s.recs i with waiters := w :: (s.recs i).waiters } k).addrs := ha
      show _ ∨ H (upd s.recs i _ k).name a
      rw [(same k).1]; rw [(same k).2.1] at ha; exact O.addr j' k a hk ha
    · exact O.out
  · rw [if_neg h]
    refine ⟨O.fly, O.tab, O.known, O.wait, O.addr, ?_⟩
    intro v a hv
    rcases List.mem_append.1 hv with h | h
    · exact O.out v a h
    · have h := List.mem_singleton.1 h
      injection h with h1 h2
      subst h1
      obtain ⟨m, hm, hs⟩ := hw
      refine ⟨m, hm, ?_⟩
      rw [hs]
      rcases O.addr j i a hi (List.mem_of_getElem? h2.symm) with e | e
      · exact Or.inl e
      · exact Or.inr (Or.inr e)

theorem own_out {c : Conf} {L : Caller → Name → Prop} {t : Table} {H : Name → Addr → Prop} {s : State} (O : Own c L t H s) (w : Caller) (x : Option Addr)
    (h : ∃ n, L w n ∧ ∀ a, x = some a → c.addr n = some a) : Own c L t H { s with out := s.out ++ [(w, x)] } := by
  refine ⟨O.fly, O.tab, O.known, O.wait, O.addr, ?_⟩
  intro v a hv
  rcases List.mem_append.1 hv with h' | h'
  · exact O.out v a h'
  · have h' := List.mem_singleton.1 h'
    injection h' with h1 h2
    subst h1
    obtain ⟨m, hm, h⟩ := h
    exact ⟨m, hm, Or.inr (Or.inl (h a h2.symm))⟩

theorem gate_numeric {c : Conf} {n : Name} {a : Addr} (h : gate c n = .numeric a) : c.addr n = some a := by
  unfold gate at h
  revert h
  repeat' split
  all_goals simp_all

theorem own_del {c : Conf} {L : Caller → Name → Prop} {t : Table} {H : Name → Addr → Prop} {s : State} {n : Name} (I : Inv c s) (O : Own c L t H s) {i : Nat} (hf : find c s n = some i)
    (hq : ∀ f ∈ s.flights, small f.2 ≠ small n) :
    Own c L (t.set (small n) none) H { s with
        bucket := upd s.bucket (slot c n) ((s.bucket (slot c n)).erase i)
        out := s.out ++ (s.recs i).waiters.map fun w => (w, none)
        recs := upd s.recs i { s.recs i with waiters := [] }
        free := i :: s.free } := by
  obtain ⟨hi, hnm⟩ := find_some hf
  have cut := mem_cut I hi
  have nm : ∀ k, (upd s.recs i { s.recs i with waiters := [] } k).name = (s.recs k).name := by
    intro k
    by_cases e : k = i
    · subst e; rw [upd_same]
    · rw [upd_other _ _ e]
  have ne : ∀ j k, k ∈ s.bucket j → k ≠ i → (s.recs k).name ≠ small n := by
    intro j k hk hne e
    rw [← lower_small] at e
    have := find_of I hk e
    rw [hf] at this; cases this; exact hne rfl
  constructor
  · intro k m hk
    have hk : (k, m) ∈ s.flights := hk
    obtain ⟨⟨j, hj⟩, hm⟩ := O.fly k m hk
    have hne : k ≠ i := by
      intro e; subst e
      apply hq _ hk
      show small m = small n
      rw [← hm, hnm, lower_small, small_small]
    refine ⟨⟨j, (cut j k).2 ⟨hj, hne⟩⟩, ?_⟩
    show (upd s.recs i _ k).name = m
    rw [nm]; exact hm
  · intro j k hk
    obtain ⟨hk, hne⟩ := (cut j k).1 hk
    show t.set (small n) none (upd s.recs i _ k).name = some ((upd s.recs i _ k).addrs.take (upd s.recs i _ k).naddrs)
    rw [upd_other _ _ hne, set_other _ _ (ne j k hk hne)]; exact O.tab j k hk
  · intro m hm
    by_cases e : m = small n
    · subst e; rw [set_same] at hm; exact absurd rfl hm
    · rw [set_other _ _ e] at hm
      obtain ⟨j, k, hk, hkn⟩ := O.known m hm
      refine ⟨j, k, (cut j k).2 ⟨hk, ?_⟩, ?_⟩
      · intro e'; subst e'; rw [← lower_small] at e; exact e (hkn.symm.trans hnm)
      · show (upd s.recs i _ k).name = m
        rw [nm]; exact hkn
  · intro k w hw
    have hw : w ∈ (upd s.recs i { s.recs i with waiters := [] } k).waiters := hw
    show ∃ m, L w m ∧ small m = (upd s.recs i _ k).name
    rw [nm]
    by_cases e : k = i
    · subst e; rw [upd_same] at hw; exact absurd hw (by simp)
    · rw [upd_other _ _ e] at hw; exact O.wait k w hw
  · intro j k a hk ha
    obtain ⟨hk, hne⟩ := (cut j k).1 hk
    have ha : a ∈ (upd s.recs i { s.recs i with waiters := [] } k).addrs := ha
    show _ ∨ H (upd s.recs i _ k).name a
    rw [nm]; rw [upd_other _ _ hne] at ha; exact O.addr j k a hk ha
  · intro w a hw
    rcases List.mem_append.1 hw with h | h
    · exact O.out w a h
    · obtain ⟨v, _, hv⟩ := List.mem_map.1 h
      injection hv with _ h2; cases h2

theorem serve_mem (addrs : List Addr) (m : Nat) : ∀ (ws : List Caller) (n : Nat) (w : Caller) (a : Addr), (w, some a) ∈ serve addrs m n ws → w ∈ ws ∧ a ∈ addrs
  | [], _, _, _, h => by simp [serve] at h
  | v :: ws, n, w, a, h => by
    rcases List.mem_cons.1 h with h | h
    · injection h with h1 h2
      exact ⟨by simp [h1], List.mem_of_getElem? h2.symm⟩
    · obtain ⟨h1, h2⟩ := serve_mem addrs m ws _ w a h
      exact ⟨List.mem_cons_of_mem _ h1, h2⟩

/-- What the loop leaves in the places: the answer, then what was there -/
theorem fill_addrs (m : Nat) (rnd : Nat → Nat) : ∀ (as : List Addr) (i : Nat) (addrs : List Addr) (ws : List Caller), i + as.length ≤ addrs.length →
    (fill m rnd i as addrs ws).1 = addrs.take i ++ as ++ addrs.drop (i + as.length)
  | [], i, addrs, ws, _ => by simp [fill]
  | a :: as, i, addrs, ws, h => by
    show (fill m rnd (i + 1) as (addrs.set i a) []).1 = _
    simp only [List.length_cons] at h
    rw [fill_addrs m rnd as (i + 1) (addrs.set i a) [] (by rw [List.length_set]; omega)]
    rw [List.take_add_one, List.getElem?_set_self (by omega), List.take_set_of_le (by omega), List.drop_set_of_lt (by omega)]
    simp only [List.length_cons, Option.toList, List.append_assoc, List.cons_append, List.nil_append]
    rw [show i + (as.length + 1) = i + 1 + as.length by omega]

theorem fill_out (m : Nat) (rnd : Nat → Nat) (a : Addr) (as : List Addr) (addrs : List Addr) (ws : List Caller) :
    (fill m rnd 0 (a :: as) addrs ws).2 = serve (addrs.set 0 a) m (rnd 0 % m) ws := by
  have h0 : ∀ (as : List Addr) (i : Nat) (addrs : List Addr), (fill m rnd i as addrs []).2 = [] := by
    intro as
    induction as with
    | nil => intros; rfl
    | cons b bs ih => intro i addrs; show serve _ _ _ [] ++ (fill m rnd (i + 1) bs _ []).2 = []; rw [ih]; rfl
  show serve _ _ _ ws ++ (fill m rnd 1 as _ []).2 = _
  rw [h0, List.append_nil]

/-- What was answered so far, with one more answer -/
def more (H : Name → Addr → Prop) (n : Name) (as : List Addr) : Name → Addr → Prop := fun m a => H m a ∨ (m = n ∧ a ∈ as)

theorem own_land {c : Conf} {L : Caller → Name → Prop} {t : Table} {H : Name → Addr → Prop} {s s' : State} (I : Inv c s) (O : Own c L t H s) {k i : Nat} {n : Name} {as : List Addr} {rnd : Nat → Nat}
    (hk : s.flights[k]? = some (i, n)) (h : land { s with flights := s.flights.eraseIdx k } i as rnd = some s') :
    Own c L (t.after (.answered n as)) (more H (small n) as) s' := by
  obtain ⟨⟨j, hj⟩, hnm⟩ := O.fly i n (List.mem_of_getElem? hk)
  have hlow : small n = n := by rw [← hnm, ← lower_small]; exact I.tab_low j i hj
  have htn : t n = some ((s.recs i).addrs.take (s.recs i).naddrs) := by rw [← hnm]; exact O.tab j i hj
  have sub : ∀ f, f ∈ s.flights.eraseIdx k → f ∈ s.flights := fun f hf => List.mem_of_mem_eraseIdx hf
  have O := O.mono (H' := more H (small n) as) fun _ _ h => Or.inl h
  unfold land at h
  cases as with
  | nil =>
    cases h
    have : t.after (.answered n []) = t := by simp [Table.after]
    rw [this]
    have nm : ∀ k, (upd s.recs i { s.recs i with waiters := [] } k).name = (s.recs k).name ∧ (upd s.recs i { s.recs i with waiters := [] } k).addrs = (s.recs k).addrs ∧ (upd s.recs i { s.recs i with waiters := [] } k).naddrs = (s.recs k).naddrs := by
      intro k
      by_cases e : k = i
      · subst e; rw [upd_same]; exact ⟨rfl, rfl, rfl⟩
      · rw [upd_other _ _ e]; exact ⟨rfl, rfl, rfl⟩
    constructor
    · intro x m hx
      show _ ∧ (upd s.recs i _ x).name = m
      rw [(nm x).1]; exact O.fly x m (sub _ hx)
    · intro j' x hx
      show t (upd s.recs i _ x).name = some ((upd s.recs i _ x).addrs.take (upd s.recs i _ x).naddrs)
      rw [(nm x).1, (nm x).2.1, (nm x).2.2]; exact O.tab j' x hx
    · intro m hm
      obtain ⟨j', x, hx, hxn⟩ := O.known m hm
      refine ⟨j', x, hx, ?_⟩
      show (upd s.recs i _ x).name = m
      rw [(nm x).1]; exact hxn
    · intro x w hw
      have hw : w ∈ (upd s.recs i { s.recs i with waiters := [] } x).waiters := hw
      show ∃ m, L w m ∧ small m = (upd s.recs i _ x).name
      rw [(nm x).1]
      by_cases e : x = i
      · subst e; rw [upd_same] at hw; exact absurd hw (by simp)
      · rw [upd_other _ _ e] at hw; exact O.wait x w hw
    · intro j' x a hx ha
      have ha : a ∈ (upd s.recs i { s.recs i with waiters := [] } x).addrs := ha
      show _ ∨ more H (small n) [] (upd s.recs i _ x).name a
      rw [(nm x).1]; rw [(nm x).2.1] at ha; exact O.addr j' x a hx ha
    · intro w a hw
      rcases List.mem_append.1 hw with h | h
      · exact O.out w a h
      · obtain ⟨v, _, hv⟩ := List.mem_map.1 h
        injection hv with _ h2; cases h2
  | cons a as =>
    simp only at h
    split at h
    · cases h
    · cases h
      have ht : t.after (.answered n (a :: as)) = t.set n (some ((a :: as).take 8)) := by
        simp only [Table.after, hlow, htn]
      rw [ht]
      have hl8 : ((a :: as).take maxAddrs).length ≤ 8 := by rw [List.length_take]; exact Nat.min_le_left _ _
      have hfa := fill_addrs ((a :: as).take maxAddrs).length rnd ((a :: as).take maxAddrs) 0 (s.recs i).addrs (s.recs i).waiters (by rw [I.len i]; omega)
      rw [List.take_zero, List.nil_append, Nat.zero_add] at hfa
      have hfo := fill_out ((a :: as).take maxAddrs).length rnd a (as.take 7) (s.recs i).addrs (s.recs i).waiters
      have hcons : (a :: as).take maxAddrs = a :: as.take 7 := rfl
      rw [← hcons] at hfo
      generalize hN : (a :: as).take maxAddrs = l at *
      have hmem : ∀ x, x ∈ l → x ∈ a :: as := by intro x hx; rw [← hN] at hx; exact List.mem_of_mem_take hx
      have hal : ∀ x, x ∈ l ++ (s.recs i).addrs.drop l.length → x = [] ∨ more H (small n) (a :: as) (s.recs i).name x := by
        intro x hx
        rcases List.mem_append.1 hx with h | h
        · exact Or.inr (Or.inr ⟨by rw [hlow]; exact hnm, hmem x h⟩)
        · exact O.addr j i x hj (List.mem_of_mem_drop h)
      constructor
      · intro x m hx
        obtain ⟨h1, h2⟩ := O.fly x m (sub _ hx)
        refine ⟨h1, ?_⟩
        show (upd s.recs i _ x).name = m
        by_cases e : x = i
        · subst e; rw [upd_same]; exact h2
        · rw [upd_other _ _ e]; exact h2
      · intro j' x hx
        show t.set n _ (upd s.recs i _ x).name = some ((upd s.recs i _ x).addrs.take (upd s.recs i _ x).naddrs)
        by_cases e : x = i
        · subst e; rw [upd_same]
          show t.set n _ (s.recs x).name = some (List.take l.length (fill l.length rnd 0 l (s.recs x).addrs (s.recs x).waiters).1)
          rw [hnm, set_same, hfa, List.take_left, ← hN]; rfl
        · rw [upd_other _ _ e]
          have : (s.recs x).name ≠ n := by
            intro e'
            have hjj : j' = j := by rw [← I.tab_slot j' x hx, ← I.tab_slot j i hj, e', hnm]
            subst hjj
            exact e (I.uniq j' x i hx hj (by rw [e', hnm]))
          rw [set_other _ _ this]; exact O.tab j' x hx
      · intro m hm
        have : ∃ j x, x ∈ s.bucket j ∧ (s.recs x).name = m := by
          by_cases e : m = n
          · exact ⟨j, i, hj, by rw [hnm, e]⟩
          · rw [set_other _ _ e] at hm; exact O.known m hm
        obtain ⟨j', x, hx, hxn⟩ := this
        refine ⟨j', x, hx, ?_⟩
        show (upd s.recs i _ x).name = m
        by_cases e : x = i
        · subst e; rw [upd_same]; exact hxn
        · rw [upd_other _ _ e]; exact hxn
      · intro x w hw
        by_cases e : x = i
        · subst e
          have hw : w ∈ (upd s.recs x _ x).waiters := hw
          rw [upd_same] at hw; exact absurd hw (by simp)
        · have hw : w ∈ (upd s.recs i _ x).waiters := hw
          show ∃ m, L w m ∧ small m = (upd s.recs i _ x).name
          rw [upd_other _ _ e] at hw ⊢; exact O.wait x w hw
      · intro j' x b hx hb
        have hb : b ∈ (upd s.recs i _ x).addrs := hb
        show _ ∨ more H (small n) _ (upd s.recs i _ x).name b
        by_cases e : x = i
        · subst e; rw [upd_same] at hb ⊢
          have hb : b ∈ (fill l.length rnd 0 l (s.recs x).addrs (s.recs x).waiters).1 := hb
          rw [hfa] at hb
          exact hal b hb
        · rw [upd_other _ _ e] at hb ⊢; exact O.addr j' x b hx hb
      · intro w b hw
        rcases List.mem_append.1 hw with h | h
        · exact O.out w b h
        · have h : (w, some b) ∈ (fill l.length rnd 0 l (s.recs i).addrs (s.recs i).waiters).2 := h
          rw [hfo] at h
          obtain ⟨h1, h2⟩ := serve_mem _ _ _ _ _ _ h
          obtain ⟨m, hm, hs⟩ := O.wait i w h1
          refine ⟨m, hm, ?_⟩
          rw [hs]
          have : b = a ∨ b ∈ (s.recs i).addrs := (List.mem_or_eq_of_mem_set h2).symm
          rcases this with e | e
          · right; right; right
            exact ⟨by rw [hlow]; exact hnm, by simp [e]⟩
          · rcases O.addr j i b hj e with e | e
            · exact Or.inl e
            · exact Or.inr (Or.inr e)

end Verif.Resolver
