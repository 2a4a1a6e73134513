import Verif.Resolver.Own
/-
A run, step by step, beside what an observer notes of it.
-/
namespace Verif.Resolver

/-- What was answered by an event -/
def heard1 (H : Name → Addr → Prop) : Event → Name → Addr → Prop
  | .answered n as => more H (small n) as
  | _ => H

theorem own_step {c : Conf} {L : Caller → Name → Prop} {t : Table} {H : Name → Addr → Prop} {s s' : State} (I : Inv c s) (O : Own c L t H s) {o : Op}
    (hl : ∀ n w r, o = .start n w r → L w n) (hq : ∀ n, o = .del n → ∀ f ∈ s.flights, small f.2 ≠ small n) (h : step c s o = some s') :
    Own c L (t.after (event c s o)) (heard1 H (event c s o)) s' := by
  cases o with
  | add n =>
    simp only [step, add] at h
    simp only [event]
    cases hg : gate c n with
    | pass =>
      rw [hg] at h
      rw [if_pos ((gate_pass c n).1 hg)]
      cases hf : find c s n with
      | some i => rw [hf] at h; cases h; rw [own_known O hf]; exact O
      | none => rw [hf] at h; cases h; exact own_create I O hf
    | undefined => rw [hg] at h; cases h
    | _ =>
      rw [hg] at h; cases h
      rw [if_neg (by rw [← gate_pass, hg]; simp)]; exact O
  | del n =>
    simp only [step, del] at h
    simp only [event]
    cases hg : gate c n with
    | pass =>
      rw [hg] at h
      rw [if_pos ((gate_pass c n).1 hg)]
      cases hf : find c s n with
      | some i => rw [hf] at h; cases h; exact own_del I O hf (hq n rfl)
      | none =>
        rw [hf] at h; cases h
        have : t.after (.removed n) = t := by
          funext m
          show t.set (small n) none m = t m
          by_cases e : m = small n
          · subst e; rw [set_same]
            cases hx : t (small n) with
            | none => rfl
            | some l =>
              obtain ⟨j, k, hk, hnm⟩ := O.known (small n) (by rw [hx]; simp)
              rw [← lower_small] at hnm
              rw [find_of I hk hnm] at hf; cases hf
          · exact set_other _ _ e
        rw [this]; exact O
    | undefined => rw [hg] at h; cases h
    | _ =>
      rw [hg] at h; cases h
      rw [if_neg (by rw [← gate_pass, hg]; simp)]; exact O
  | start n w r =>
    have hw := hl n w r rfl
    simp only [step, start] at h
    simp only [event]
    cases hg : gate c n with
    | pass =>
      rw [hg] at h
      rw [if_pos ((gate_pass c n).1 hg)]
      cases hf : find c s n with
      | some i =>
        rw [hf] at h; cases h; rw [own_known O hf]
        obtain ⟨hi, hn⟩ := find_some hf
        exact own_ask O hi w r ⟨n, hw, by rw [hn, lower_small]⟩
      | none =>
        rw [hf] at h; cases h
        refine own_ask (own_create I O hf) (create_mem c s n) w r ?_
        obtain ⟨i, fr, na, he, _⟩ := create_eq c s n
        rw [he]
        refine ⟨n, hw, ?_⟩
        show small n = (upd s.recs i (Rec.fresh (lower n)) i).name
        rw [upd_same, ← lower_small]; rfl
    | undefined => rw [hg] at h; cases h
    | empty =>
      rw [hg] at h; cases h
      rw [if_neg (by rw [← gate_pass, hg]; simp)]; exact O
    | numeric a =>
      rw [hg] at h; cases h
      rw [if_neg (by rw [← gate_pass, hg]; simp)]
      exact own_out O w _ ⟨n, hw, fun b hb => by cases hb; exact gate_numeric hg⟩
    | refused =>
      rw [hg] at h; cases h
      rw [if_neg (by rw [← gate_pass, hg]; simp)]
      exact own_out O w _ ⟨n, hw, fun b hb => by cases hb⟩
  | timer =>
    cases h
    show Own c L t H (timer c s)
    unfold timer
    by_cases h : c.on
    · rw [if_pos h]
      refine ⟨?_, O.tab, O.known, O.wait, O.addr, O.out⟩
      intro i m hm
      rcases List.mem_append.1 hm with h | h
      · exact O.fly i m h
      · obtain ⟨k, hk, he⟩ := List.mem_map.1 h
        obtain ⟨j, _, hj⟩ := List.mem_flatMap.1 hk
        cases he
        exact ⟨⟨j, hj⟩, rfl⟩
    · rw [if_neg h]; exact O
  | result k as rnd =>
    simp only [step] at h
    simp only [event]
    cases hk : s.flights[k]? with
    | none => rw [hk] at h; cases h; exact O
    | some f => rw [hk] at h; exact own_land I O hk h

theorem own_run {c : Conf} {L : Caller → Name → Prop} : ∀ (os : List Op) {t : Table} {H : Name → Addr → Prop} {s s' : State}, Inv c s → Own c L t H s →
    (∀ n w r, Op.start n w r ∈ os → L w n) → Calm c s os → run c s os = some s' → Own c L ((events c s os).foldl Table.after t) ((events c s os).foldl heard1 H) s'
  | [], _, _, _, _, _, O, _, _, h => by cases h; exact O
  | o :: os, t, H, s, s', I, O, hl, hq, h => by
    simp only [run] at h
    cases hs : step c s o with
    | none => rw [hs] at h; cases h
    | some s1 =>
      rw [hs] at h
      have O1 := own_step I O (fun n w r e => hl n w r (by simp [e])) hq.1 hs
      have := own_run os (inv_step I hs) O1 (fun n w r e => hl n w r (List.mem_cons_of_mem _ e)) (hq.2 s1 hs) h
      simp only [events, hs, List.foldl_cons]
      exact this

theorem heard_fold : ∀ (es : List Event) (H : Name → Addr → Prop) (n : Name) (a : Addr), es.foldl heard1 H (small n) a → H (small n) a ∨ Heard es n a
  | [], _, _, _, h => Or.inl h
  | e :: es, H, n, a, h => by
    have up : Heard es n a → Heard (e :: es) n a := fun ⟨m, as, h1, h2⟩ => ⟨m, as, List.mem_cons_of_mem _ h1, h2⟩
    rcases heard_fold es (heard1 H e) n a h with h | h
    · cases e with
      | answered m as =>
        rcases h with h | ⟨h1, h2⟩
        · exact Or.inl h
        · exact Or.inr ⟨m, as, by simp, h1.symm, h2⟩
      | _ => exact Or.inl h
    · exact Or.inr (up h)

/-- The first caller who waits gets the place drawn, the next one the next place. -/
theorem serve_eq (addrs : List Addr) (m : Nat) : ∀ (ws : List Caller) (n : Nat),
    serve addrs m (n % m) ws = ws.zipIdx.map fun p => (p.1, addrs[(n + p.2) % m]?)
  | [], _ => rfl
  | w :: ws, n => by
    have : (n % m + 1) % m = (n + 1) % m := by rw [Nat.mod_add_mod]
    simp only [serve, this, List.zipIdx_cons, List.map_cons, Nat.add_zero, Nat.zero_add]
    rw [serve_eq addrs m ws (n + 1), List.zipIdx_succ]
    simp only [List.map_map]
    congr 1
    apply List.map_congr_left
    intro p _
    simp only [Function.comp, Nat.add_assoc, Nat.add_comm 1]

end Verif.Resolver
