import Verif.Rtmp.BandwidthModel
/-
C36: bandwidth estimation.
-/
namespace Verif.Bandwidth

/-- Specification: cut a history into measuring intervals. An interval starts with an update at time `t` and has all
following updates up to time `t + 10`; the next update starts a new one. -/
def intervals : List (Nat × Nat) → List (Nat × List Nat)
  | [] => []
  | (t, b) :: rest =>
    (t, b :: (rest.takeWhile (fun u => u.1 ≤ t + 10)).map Prod.snd) ::
      intervals (rest.dropWhile (fun u => u.1 ≤ t + 10))
termination_by h => h.length
decreasing_by
  have := (List.dropWhile_suffix (l := rest) (fun u => decide (u.1 ≤ t + 10))).length_le
  simp only [List.length_cons]; omega

def total (h : List (Nat × Nat)) : Nat := (h.map Prod.snd).sum

/-- C36 (totals): the byte counter is the sum of all updates, none lost. -/
theorem C36_total (h : List (Nat × Nat)) : (run h).bytes = total h % 2 ^ 64 := by
  have : ∀ (h : List (Nat × Nat)) (bw : Bw), bw.bytes < 2 ^ 64 →
      (run h bw).bytes = (bw.bytes + total h) % 2 ^ 64 := by
    intro h
    induction h with
    | nil => intro bw hb; simp [run, total, Nat.mod_eq_of_lt hb]
    | cons u h ih =>
      intro bw hb
      have e : run (u :: h) bw = run h (update bw u.1 u.2) := rfl
      have e2 : (update bw u.1 u.2).bytes = (bw.bytes + u.2) % 2 ^ 64 := by
        unfold update; split <;> rfl
      rw [e, ih _ (by rw [e2]; exact Nat.mod_lt _ (by decide)), e2]
      simp only [total, List.map_cons, List.sum_cons]
      omega
  simpa using this h {} (by decide)

theorem run_append (h1 h2 : List (Nat × Nat)) (bw : Bw) : run (h1 ++ h2) bw = run h2 (run h1 bw) := by
  simp [run, List.foldl_append]

theorem total_append (h1 h2 : List (Nat × Nat)) : total (h1 ++ h2) = total h1 + total h2 := by
  simp [total, List.map_append, List.sum_append]

/-- Updates inside the current interval only add up. -/
theorem run_inside (h : List (Nat × Nat)) (bw : Bw) (hin : ∀ u ∈ h, u.1 ≤ bw.intlEnd)
    (hs : bw.intlBytes + total h < 2 ^ 64) :
    (run h bw).intlEnd = bw.intlEnd ∧ (run h bw).bandwidth = bw.bandwidth ∧
    (run h bw).intlBytes = bw.intlBytes + total h := by
  induction h generalizing bw with
  | nil => simp [run, total]
  | cons u h ih =>
    have e : run (u :: h) bw = run h (update bw u.1 u.2) := rfl
    have hu := hin u (by simp)
    have hn : ¬ u.1 > bw.intlEnd := by omega
    have ht : total (u :: h) = u.2 + total h := by simp [total]
    rw [ht] at hs
    have e2 : update bw u.1 u.2 = { bw with bytes := (bw.bytes + u.2) % 2 ^ 64, intlBytes := bw.intlBytes + u.2 } := by
      simp only [update, hn, ↓reduceIte]
      rw [Nat.mod_eq_of_lt (a := bw.intlBytes + u.2) (by omega)]
    rw [e, e2]
    have := ih { bw with bytes := (bw.bytes + u.2) % 2 ^ 64, intlBytes := bw.intlBytes + u.2 }
      (fun x hx => hin x (by simp [hx])) (by simp only; omega)
    simp only at this
    refine ⟨this.1, this.2.1, ?_⟩
    rw [this.2.2, ht]; omega

/-- Effect of the first update of a new interval. -/
theorem update_new (bw : Bw) (t b : Nat) (ht : t > bw.intlEnd) (hb : b < 2 ^ 64) :
    update bw t b =
      { bytes := (bw.bytes + b) % 2 ^ 64
        bandwidth := if t > bw.intlEnd + 10 then 0 else bw.intlBytes / 10
        intlEnd := t + 10
        intlBytes := b } := by
  simp only [update, ht, ↓reduceIte, INTERVAL, Nat.zero_add, Nat.mod_eq_of_lt hb]
  rfl

theorem run_intervals (h : List (Nat × Nat)) (bw : Bw) (hs : total h < 2 ^ 64)
    (hstart : ∀ t b rest, h = (t, b) :: rest → t > bw.intlEnd) :
    (∀ gs t1 bs1, intervals h = gs ++ [(t1, bs1)] →
      (run h bw).intlEnd = t1 + 10 ∧ (run h bw).intlBytes = bs1.sum ∧
      (gs = [] → (run h bw).bandwidth = if t1 > bw.intlEnd + 10 then 0 else bw.intlBytes / 10) ∧
      (∀ gs' t0 bs0, gs = gs' ++ [(t0, bs0)] →
        (run h bw).bandwidth = if t1 ≤ t0 + 20 then bs0.sum / 10 else 0)) := by
  fun_induction intervals h generalizing bw with
  | case1 => intro gs t1 bs1 h; simp at h
  | case2 t b rest ih =>
    intro gs t1 bs1 hgs
    have ht : t > bw.intlEnd := hstart t b rest rfl
    let p : Nat × Nat → Bool := fun u => decide (u.1 ≤ t + 10)
    have hsplit : rest.takeWhile p ++ rest.dropWhile p = rest := List.takeWhile_append_dropWhile
    have htot : total ((t, b) :: rest) = b + total rest := by simp [total]
    have htot2 : total rest = total (rest.takeWhile p) + total (rest.dropWhile p) := by
      rw [← total_append, hsplit]
    rw [htot] at hs
    have e1 : run ((t, b) :: rest) bw = run (rest.dropWhile p) (run (rest.takeWhile p) (update bw t b)) := by
      rw [← run_append, hsplit]; rfl
    rw [e1]
    have hu := update_new bw t b ht (by omega)
    have hin := run_inside (rest.takeWhile p) (update bw t b)
      (by intro u hu'; rw [hu]; have := List.all_takeWhile (l := rest) (p := p)
          rw [List.all_eq_true] at this; simpa [p] using this u hu')
      (by rw [hu]; simp only; omega)
    rw [hu] at hin
    simp only at hin
    rw [← hu] at hin
    generalize hbw1 : run (rest.takeWhile p) (update bw t b) = bw1 at *
    obtain ⟨i1, i2, i3⟩ := hin
    rcases hd : rest.dropWhile p with _ | ⟨⟨t', b'⟩, rest'⟩
    · rw [show (rest.dropWhile fun u => decide (u.1 ≤ t + 10)) = [] from hd] at hgs
      simp only [intervals] at hgs
      have hgs0 : gs = [] := by
        cases gs with
        | nil => rfl
        | cons a l => simp at hgs
      subst hgs0
      simp at hgs
      obtain ⟨rfl, rfl⟩ := hgs
      refine ⟨i1, ?_, fun _ => i2, ?_⟩
      · simp only [run, List.foldl_nil]; rw [i3]; simp [total, p]
      · intro gs' t0 bs0 h; simp at h
    · have hstart' : ∀ t2 b2 r2, rest.dropWhile p = (t2, b2) :: r2 → t2 > bw1.intlEnd := by
        intro t2 b2 r2 he
        have hh := List.head?_dropWhile_not p rest
        rw [he] at hh
        simp only [List.head?_cons, p] at hh
        rw [i1]; simpa using hh
      have ih := ih bw1 (by show total (rest.dropWhile p) < _; omega) hstart'
      have hne : gs ≠ [] := by
        rintro rfl
        rw [show (rest.dropWhile fun u => decide (u.1 ≤ t + 10)) = (t', b') :: rest' from hd] at hgs
        rw [intervals] at hgs
        simp at hgs
      obtain ⟨g, gs2, rfl⟩ := List.exists_cons_of_ne_nil hne
      simp only [List.cons_append, List.cons.injEq] at hgs
      obtain ⟨hg, hgs⟩ := hgs
      have ih := ih gs2 t1 bs1 hgs
      rw [← hd]
      refine ⟨ih.1, ih.2.1, by simp, ?_⟩
      intro gs' t0 bs0 hcat
      rcases gs' with _ | ⟨g', gs'⟩
      · simp only [List.nil_append, List.cons.injEq] at hcat
        obtain ⟨rfl, rfl⟩ := hcat
        have hb1 := ih.2.2.1 rfl
        rw [show (rest.dropWhile fun u => decide (u.1 ≤ t + 10)) = rest.dropWhile p from rfl] at hb1
        rw [hb1, i1, i3]
        simp only [Prod.mk.injEq] at hg
        obtain ⟨rfl, rfl⟩ := hg
        have hsum : (b :: List.map Prod.snd (rest.takeWhile fun u => decide (u.1 ≤ t + 10))).sum
            = b + total (rest.takeWhile p) := by simp [total, p]
        rw [hsum]
        by_cases hc : t1 > t + 10 + 10
        · rw [if_pos hc, if_neg (by omega)]
        · rw [if_neg hc, if_pos (by omega)]
      · simp only [List.cons_append, List.cons.injEq] at hcat
        exact ih.2.2.2 gs' t0 bs0 hcat.2

/-- C36 (rate): while an interval is running, the reported rate is what the previous interval counted divided by
ten seconds, or zero if more than one interval length passed without an update; the counter holds exactly the bytes of the
running interval. (Times positive, fewer than 2^64 bytes in all.) -/
theorem C36_rate (h : List (Nat × Nat)) (hs : total h < 2 ^ 64) (hpos : ∀ u ∈ h, 0 < u.1)
    (gs : List (Nat × List Nat)) (t0 t1 : Nat) (bs0 bs1 : List Nat)
    (hg : intervals h = gs ++ [(t0, bs0), (t1, bs1)]) :
    (run h).bandwidth = (if t1 ≤ t0 + 20 then bs0.sum / 10 else 0) ∧ (run h).intlBytes = bs1.sum := by
  have := run_intervals h {} hs (by rintro t b rest rfl; exact hpos (t, b) (by simp)) (gs ++ [(t0, bs0)]) t1 bs1
    (by simpa using hg)
  exact ⟨this.2.2.2 gs t0 bs0 rfl, this.2.1⟩

/-- C36: before a first interval has been completed the rate is zero. -/
theorem C36_rate_first (h : List (Nat × Nat)) (hs : total h < 2 ^ 64) (hpos : ∀ u ∈ h, 0 < u.1)
    (t1 : Nat) (bs1 : List Nat) (hg : intervals h = [(t1, bs1)]) : (run h).bandwidth = 0 := by
  have := (run_intervals h {} hs (by rintro t b rest rfl; exact hpos (t, b) (by simp)) [] t1 bs1
    (by simpa using hg)).2.2.1 rfl
  rw [this]; split <;> simp

/-- C36 (no byte falls between intervals): the intervals partition the history. -/
theorem C36_intervals_partition (h : List (Nat × Nat)) :
    ((intervals h).map Prod.snd).flatten = h.map Prod.snd := by
  fun_induction intervals h with
  | case1 => rfl
  | case2 t b rest ih =>
    simp only [List.map_cons, List.flatten_cons, ih]
    rw [List.cons_append, ← List.map_append, List.takeWhile_append_dropWhile]

example : intervals [(5, 100), (9, 20), (15, 30), (16, 7), (40, 1)] = [(5, [100, 20, 30]), (16, [7]), (40, [1])] := by
  simp [intervals, List.takeWhile, List.dropWhile]
example : (run [(5, 100), (9, 20), (15, 30), (16, 7)]).bandwidth = 15 := by decide
example : (run [(5, 100), (9, 20), (15, 30), (16, 7), (40, 1)]).bandwidth = 0 := by decide

end Verif.Bandwidth
