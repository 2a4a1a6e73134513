import Verif.TsDash.MpdStart
/- The rate of a stream; when it is known -/
namespace Verif.TsDash
open Verif Verif.TsIn

/-- Time and number of bytes -/
def sizeOf' (u : Es × List Bytes) : Nat × Nat := (u.1.dts, u.2.flatten.length)

/-- What has been measured of a stream -/
structure Measured (c : Conf) (r : Rep) (us : List (Nat × Nat)) : Prop where
  rate : r.bandwidth ≠ 0 → Spec.Rate c.analyze us r.bandwidth
  bytes : r.bandwidth = 0 → r.bwBytes = (us.map (·.2)).sum
  start : r.bandwidth = 0 → (us.find? fun u => decide (u.2 ≠ 0)).map (·.1) = if r.bwBytes = 0 then none else some r.bwDts

theorem sum_none : ∀ {us : List (Nat × Nat)}, (us.map (·.2)).sum = 0 → ∀ u ∈ us, u.2 = 0
  | [], _, u, h => nomatch h
  | x :: us, hs, u, h => by
    rw [List.map_cons, List.sum_cons] at hs
    rcases List.mem_cons.1 h with h1 | h1
    · rw [h1]; omega
    · exact sum_none (by omega) u h1

theorem sum_zeros : ∀ {us : List (Nat × Nat)}, (∀ u ∈ us, u.2 = 0) → (us.map (·.2)).sum = 0
  | [], _ => rfl
  | x :: us, h => by
    rw [List.map_cons, List.sum_cons, h x List.mem_cons_self, sum_zeros fun u hu => h u (List.mem_cons_of_mem _ hu)]

theorem rate_more {ms rate : Nat} {us : List (Nat × Nat)} (h : Spec.Rate ms us rate) (v : List (Nat × Nat)) : Spec.Rate ms (us ++ v) rate := by
  obtain ⟨a, b, d, h1, h2, h3⟩ := h
  exact ⟨a, b, d ++ v, by rw [h1]; simp, h2, h3⟩

theorem find_split : ∀ {us : List (Nat × Nat)} {t : Nat}, (us.find? fun u => decide (u.2 ≠ 0)).map (·.1) = some t → ∃ skip n rest, us = skip ++ (t, n) :: rest ∧ (∀ u ∈ skip, u.2 = 0) ∧ n ≠ 0
  | [], t, h => nomatch h
  | x :: us, t, h => by
    by_cases hx : x.2 = 0
    · rw [List.find?_cons_of_neg (by simpa using hx)] at h
      obtain ⟨skip, n, rest, h1, h2, h3⟩ := find_split h
      refine ⟨x :: skip, n, rest, by rw [h1]; rfl, ?_, h3⟩
      intro u hu
      rcases List.mem_cons.1 hu with h4 | h4
      · rw [h4]; exact hx
      · exact h2 u h4
    · rw [List.find?_cons_of_pos (by simpa using hx)] at h
      simp only [Option.map_some, Option.some.injEq] at h
      exact ⟨[], x.2, us, by rw [← h]; rfl, fun _ hu => absurd hu (by simp), hx⟩

theorem measured_update {c : Conf} {r r1 : Rep} {us : List (Nat × Nat)} {bufs : List Bytes} {dts : Nat} (hA : 0 < c.analyze) (hm : Measured c r us) (h : updateBandwidth c r bufs dts = some r1) :
    Measured c r1 (us ++ [(dts, bufs.flatten.length)]) ∧
      (r.bandwidth = 0 → ∀ t, ((us ++ [(dts, bufs.flatten.length)]).find? fun u => decide (u.2 ≠ 0)).map (·.1) = some t → t + c.analyze * 90 ≤ dts →
        dts - t ≤ ((us ++ [(dts, bufs.flatten.length)]).map (·.2)).sum * 8 * 90000 → r1.bandwidth ≠ 0) := by
  unfold updateBandwidth at h
  by_cases hb : r.bandwidth ≠ 0
  · rw [if_pos hb] at h
    injection h with h
    subst h
    exact ⟨⟨fun _ => rate_more (hm.rate hb) _, fun h0 => absurd h0 hb, fun h0 => absurd h0 hb⟩, fun h0 => absurd h0 hb⟩
  have hb : r.bandwidth = 0 := by omega
  rw [if_neg (by simpa using hb)] at h
  dsimp only at h
  have hbytes := hm.bytes hb
  have hstart := hm.start hb
  generalize hn : bufs.flatten.length = n at h ⊢
  generalize hs : (if r.bwBytes = 0 then dts else r.bwDts) = start at h
  have hsum : ((us ++ [(dts, n)]).map (·.2)).sum = r.bwBytes + n := by rw [hbytes]; simp
  have hfirst : r.bwBytes + n ≠ 0 → ((us ++ [(dts, n)]).find? fun u => decide (u.2 ≠ 0)).map (·.1) = some start := by
    intro h0
    rw [List.find?_append]
    by_cases hz : r.bwBytes = 0
    · rw [if_pos hz] at hstart hs
      have : (us.find? fun u => decide (u.2 ≠ 0)) = none := Option.map_eq_none_iff.1 hstart
      rw [this, Option.none_or, List.find?_cons_of_pos (by simpa using (show n ≠ 0 by omega)), ← hs]
      rfl
    · rw [if_neg hz] at hstart hs
      rw [Option.map_or, hstart, ← hs]
      rfl
  have hzero : r.bwBytes + n = 0 → (us ++ [(dts, n)]).find? (fun u => decide (u.2 ≠ 0)) = none := by
    intro h0
    refine List.find?_eq_none.2 fun u hu => ?_
    have := sum_none (hsum.trans h0) u hu
    simpa using this
  by_cases hd : ((c.analyze * 90 : Nat) : Int) ≤ (dts : Int) - start
  · rw [if_pos hd] at h
    split at h
    · exact nomatch h
    injection h with h
    subst h
    dsimp only
    have hle : start + c.analyze * 90 ≤ dts := by omega
    have htn : ((dts : Int) - start).toNat = dts - start := by omega
    rw [htn]
    have hne : r.bwBytes + n ≠ 0 := by
      intro h0
      have hz : r.bwBytes = 0 := by omega
      rw [if_pos hz] at hs
      omega
    refine ⟨⟨?_, ?_, ?_⟩, ?_⟩
    · intro hr
      obtain ⟨skip, m, rest, h1, h2, h3⟩ := find_split (hfirst hne)
      refine ⟨skip, (start, m) :: rest, [], by rw [h1]; simp, h2, (start, m), (dts, n), rfl, h3, ?_, hle, ?_⟩
      · have hl := congrArg List.getLast? h1
        rw [List.getLast?_concat, List.getLast?_append] at hl
        rw [hl, List.getLast?_cons]
        rfl
      · have h4 := congrArg (fun l => (l.map (·.2)).sum) h1
        rw [hsum, List.map_append, List.sum_append, sum_zeros h2, Nat.zero_add] at h4
        rw [h4]
    · intro _; exact hsum.symm
    · intro _
      rw [if_neg hne]
      exact hfirst hne
    · intro _ t ht _ h5
      rw [hfirst hne] at ht
      injection ht with ht
      subst ht
      rw [hsum] at h5
      have hpos : 0 < dts - start := by omega
      have := Nat.div_pos h5 hpos
      omega
  · rw [if_neg hd] at h
    injection h with h
    subst h
    dsimp only
    refine ⟨⟨fun h0 => absurd hb h0, fun _ => hsum.symm, fun _ => ?_⟩, ?_⟩
    · by_cases h0 : r.bwBytes + n = 0
      · rw [if_pos h0, hzero h0]; rfl
      · rw [if_neg h0]; exact hfirst h0
    · intro _ t ht hle _
      by_cases h0 : r.bwBytes + n = 0
      · rw [hzero h0] at ht; exact nomatch ht
      · rw [hfirst h0] at ht
        injection ht with ht
        subst ht
        omega

theorem Measured.like {c : Conf} {r r' : Rep} {us : List (Nat × Nat)} (h : Measured c r us) (h1 : r'.bandwidth = r.bandwidth) (h2 : r'.bwBytes = r.bwBytes) (h3 : r'.bwDts = r.bwDts) : Measured c r' us :=
  ⟨by rw [h1]; exact h.rate, by rw [h1, h2]; exact h.bytes, by rw [h1, h2, h3]; exact h.start⟩

theorem measured_new (c : Conf) (type : Nat) (video : Bool) : Measured c (newRep c type video) [] := ⟨fun h => absurd rfl h, fun _ => rfl, fun _ => rfl⟩

theorem measured_run {c : Conf} (hA : 0 < c.analyze) : ∀ (us : List (Es × List Bytes)) (pre : List (Nat × Nat)) (r r' : Rep), Measured c r pre → run c r us = some (r', true) →
    Measured c r' (pre ++ us.map sizeOf') ∧ (r.bandwidth ≠ 0 → r'.bandwidth ≠ 0) ∧
      ∀ a u b, us = a ++ u :: b → ∀ t, ((pre ++ (a ++ [u]).map sizeOf').find? fun u => decide (u.2 ≠ 0)).map (·.1) = some t → t + c.analyze * 90 ≤ u.1.dts →
        u.1.dts - t ≤ ((pre ++ (a ++ [u]).map sizeOf').map (·.2)).sum * 8 * 90000 → r'.bandwidth ≠ 0
  | [], pre, r, r', hm, h => by
    have : r = r' := congrArg Prod.fst (Option.some.inj h)
    subst this
    exact ⟨by simpa using hm, fun h => h, fun a u b h => by simp at h⟩
  | v :: us, pre, r, r', hm, h => by
    unfold run at h
    obtain ⟨x, hx, h⟩ := Option.bind_eq_some_iff.1 h
    split at h
    rotate_left
    · exact nomatch congrArg Prod.snd (Option.some.inj h)
    rename_i hb
    have hx' : unit c r v.1 v.2 = some (x.1, x.2.1, true) := by rw [hx, ← hb]
    obtain ⟨r1, r2, s1, -, s3, s4, -, -, s7⟩ := unit_steps hA hx'
    obtain ⟨k1, k2⟩ := measured_update hA hm s1
    have b1 : x.1.bandwidth = r1.bandwidth := by rw [s7.bandwidth, s4.bandwidth]
    have k3 : Measured c x.1 (pre ++ [sizeOf' v]) := k1.like b1 (by rw [s7.bwBytes, s4.bwBytes]) (by rw [s7.bwDts, s4.bwDts])
    obtain ⟨i1, i2, i3⟩ := measured_run hA us (pre ++ [sizeOf' v]) x.1 r' k3 h
    refine ⟨by simpa using i1, ?_, ?_⟩
    · intro h0
      refine i2 ?_
      rw [b1, bandwidth_kept s1 h0]
      exact h0
    · intro a u b he t ht h4 h5
      cases a with
      | nil =>
        rw [List.nil_append, List.cons.injEq] at he
        obtain ⟨e1, -⟩ := he
        subst e1
        refine i2 ?_
        rw [b1]
        by_cases h0 : r.bandwidth = 0
        · exact k2 h0 t ht h4 h5
        · rw [bandwidth_kept s1 h0]
          exact h0
      | cons w a =>
        rw [List.cons_append, List.cons.injEq] at he
        obtain ⟨e1, e2⟩ := he
        subst e1
        exact i3 a u b e2 t (by simpa using ht) h4 (by simpa using h5)

/-- As soon as there is a rate, one is known. -/
theorem known_run {c : Conf} (hA : 0 < c.analyze) {type : Nat} {video : Bool} {us : List (Es × List Bytes)} {r' : Rep} (h : run c (newRep c type video) us = some (r', true)) {rate : Nat} (hr : rate ≠ 0)
    (hm : Spec.Rate c.analyze (us.map sizeOf') rate) : r'.bandwidth ≠ 0 := by
  obtain ⟨skip, stretch, rest, h1, h2, first, last, h3, h4, h5, h6, h7⟩ := hm
  obtain ⟨ab, b, e1, e2, -⟩ := List.map_eq_append_iff.1 h1
  obtain ⟨a1, a2, e3, e4, e5⟩ := List.map_eq_append_iff.1 e2
  have hne : a2 ≠ [] := by
    intro h0
    rw [h0] at e5
    rw [← e5] at h3
    exact nomatch h3
  obtain ⟨a3, u, e6⟩ : ∃ a3 u, a2 = a3 ++ [u] := ⟨_, _, (List.dropLast_concat_getLast hne).symm⟩
  have hu : sizeOf' u = last := by
    rw [← e5, e6, List.map_append, List.map_singleton, List.getLast?_concat] at h5
    exact Option.some.inj h5
  have hd : u.1.dts = last.1 := by rw [← hu]; rfl
  have hall : (a1 ++ a3 ++ [u]).map sizeOf' = skip ++ stretch := by rw [List.append_assoc, ← e6, List.map_append, e4, e5]
  have hfirst : ((skip ++ stretch).find? fun u => decide (u.2 ≠ 0)).map (·.1) = some first.1 := by
    rw [List.find?_append, List.find?_eq_none.2 (fun u hu => by simpa using h2 u hu), Option.none_or]
    cases stretch with
    | nil => exact nomatch h3
    | cons x l =>
      rw [List.head?_cons, Option.some.injEq] at h3
      rw [List.find?_cons_of_pos (by rw [h3]; simpa using h4), h3]
      rfl
  have hsum : ((skip ++ stretch).map (·.2)).sum = (stretch.map (·.2)).sum := by rw [List.map_append, List.sum_append, sum_zeros h2, Nat.zero_add]
  refine (measured_run hA us [] _ _ (measured_new c type video) h).2.2 (a1 ++ a3) u b ?_ first.1 ?_ ?_ ?_
  · rw [e1, e3, e6]; simp
  · rw [List.nil_append, hall]; exact hfirst
  · rw [hd]; exact h6
  · rw [List.nil_append, hall, hsum, hd]
    have hpos : 0 < last.1 - first.1 := by omega
    refine Nat.le_of_not_lt fun hlt => hr ?_
    rw [h7]
    exact Nat.div_eq_of_lt hlt

end Verif.TsDash
