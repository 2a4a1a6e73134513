import Verif.Pulls.Lemmas
/-
The parts of a reading after the loop, and what holds after it.
-/
namespace Verif.Pulls

theorem walk_spec : ∀ (links : List Nat) (f : Nat) (s : State) (h : Option Nat), links.length ≤ f → Chain s.next h links → links.Nodup → (∀ i ∈ links, i ∉ s.free) →
    ∃ s', walk f s h = some s' ∧ s'.recs = s.recs ∧ s'.live = s.live ∧ s'.ctx = s.ctx ∧ s'.sids = s.sids ∧ s'.nalloc = s.nalloc ∧ s'.stopped = s.stopped ∧
      s'.free = links.reverse ++ s.free ∧ (∀ j, j ∉ links → s'.next j = s.next j) ∧ s'.pulls.Sublist s.pulls ∧
      ∀ j, j ∈ s'.pulls ↔ j ∈ s.pulls ∧ ∀ i ∈ links, (s.recs j).stream ≠ (s.recs i).stream
  | [], f, s, h, _, hc, _, _ => by
    have hc : h = none := hc
    subst hc
    refine ⟨s, by unfold walk; rfl, rfl, rfl, rfl, rfl, rfl, rfl, rfl, fun _ _ => rfl, List.Sublist.refl _, fun j => ⟨fun h => ⟨h, fun i hi => (by cases hi)⟩, fun h => h.1⟩⟩
  | i :: l, 0, _, _, hl, _, _, _ => by simp at hl
  | i :: l, f + 1, s, h, hl, hc, hn, hf => by
    obtain ⟨rfl, hc⟩ := hc
    obtain ⟨n1, n2⟩ := List.nodup_cons.1 hn
    have hl' : l.length ≤ f := by simpa using hl
    have key := walk_spec l f (put { s with pulls := s.pulls.filter fun j => (s.recs j).stream != (s.recs i).stream } i) (s.next i) hl' (chain_upd n1 hc) n2 (by
      intro j hj h
      rcases List.mem_cons.1 h with h | h
      · exact n1 (h ▸ hj)
      · exact hf j (List.mem_cons_of_mem _ hj) h)
    obtain ⟨s', k0, k1, k2, k3, k4, k5, k6, k7, k8, k9, k10⟩ := key
    refine ⟨s', ?_, k1, k2, k3, k4, k5, k6, ?_, ?_, k9.trans List.filter_sublist, ?_⟩
    · unfold walk
      rw [if_neg (hf i (by simp))]; exact k0
    · rw [k7]
      show l.reverse ++ i :: s.free = (i :: l).reverse ++ s.free
      simp
    · intro j hj
      rw [k8 j (fun h => hj (List.mem_cons_of_mem _ h))]
      exact upd_other _ _ (fun e => hj (by simp [e]))
    · intro j
      rw [k10 j]
      show j ∈ s.pulls.filter _ ∧ (∀ a ∈ l, (s.recs j).stream ≠ (s.recs a).stream) ↔ _
      rw [List.mem_filter, bne_iff_ne]
      constructor
      · rintro ⟨⟨a, b⟩, c⟩
        exact ⟨a, fun x hx => (List.mem_cons.1 hx).elim (fun e => e ▸ b) (c x)⟩
      · rintro ⟨a, b⟩
        exact ⟨⟨a, b i (by simp)⟩, fun x hx => b x (List.mem_cons_of_mem _ hx)⟩

theorem stop_spec : ∀ (l : List Nat) (s : State), (l.map fun i => (s.recs i).stream).Nodup → (∀ i ∈ l, ∃ d, (s.recs i).session = some d ∧ s.live d = some (s.recs i).stream) →
    ∃ s', stop s l = some s' ∧ s'.recs = s.recs ∧ s'.ctx = s.ctx ∧ s'.sids = s.sids ∧ s'.nalloc = s.nalloc ∧ s'.free = l.reverse ++ s.free ∧ (∀ j, j ∉ l → s'.next j = s.next j) ∧
      (∀ d, (∃ i ∈ l, (s.recs i).session = some d) → s'.live d = none ∧ d ∈ s'.stopped) ∧ (∀ d, (∀ i ∈ l, (s.recs i).session ≠ some d) → s'.live d = s.live d) ∧
      (∀ d, d ∈ s.stopped → d ∈ s'.stopped) ∧ ∀ d, d ∈ s'.stopped → d ∈ s.stopped ∨ ∃ i ∈ l, (s.recs i).session = some d
  | [], s, _, _ => ⟨s, rfl, rfl, rfl, rfl, rfl, rfl, fun _ _ => rfl, fun d ⟨i, hi, _⟩ => (by cases hi), fun _ _ => rfl, fun _ h => h, fun _ h => Or.inl h⟩
  | i :: l, s, hn, hs => by
    obtain ⟨n1, n2⟩ := List.nodup_cons.1 hn
    obtain ⟨d, h1, h2⟩ := hs i (by simp)
    have hne : ∀ j ∈ l, ∀ e, (s.recs j).session = some e → s.live e = some (s.recs j).stream → e ≠ d := by
      intro j hj e _ he hed
      subst hed
      rw [h2] at he
      injection he with he
      exact n1 (List.mem_map.2 ⟨j, hj, he.symm⟩)
    have key := stop_spec l (put { s with live := upd s.live d none, stopped := s.stopped ++ [d] } i) n2 (by
      intro j hj
      obtain ⟨e, e1, e2⟩ := hs j (List.mem_cons_of_mem _ hj)
      refine ⟨e, e1, ?_⟩
      show upd s.live d none e = _
      rw [upd_other _ _ (hne j hj e e1 e2)]; exact e2)
    obtain ⟨s', k0, k1, k2, k3, k4, k5, k6, k7, k8, k9, k10⟩ := key
    refine ⟨s', ?_, k1, k2, k3, k4, ?_, ?_, ?_, ?_, ?_, ?_⟩
    · unfold stop
      rw [h1]
      dsimp only
      rw [h2, if_neg (by simp)]; exact k0
    · rw [k5]
      show l.reverse ++ i :: s.free = (i :: l).reverse ++ s.free
      simp
    · intro j hj
      rw [k6 j (fun h => hj (List.mem_cons_of_mem _ h))]
      exact upd_other _ _ (fun e => hj (by simp [e]))
    · rintro e ⟨j, hj, he⟩
      rcases List.mem_cons.1 hj with hj | hj
      · subst hj
        rw [h1] at he
        injection he with he
        subst he
        refine ⟨?_, k9 d (List.mem_append_right _ (by simp))⟩
        rw [k8 d (fun j hj hjd => ?_)]
        · exact upd_same _ _ _
        · obtain ⟨e, e1, e2⟩ := hs j (List.mem_cons_of_mem _ hj)
          have hjd : (s.recs j).session = some d := hjd
          rw [hjd] at e1
          injection e1 with e1
          exact hne j hj e (by rw [← e1]; exact hjd) e2 e1.symm
      · exact k7 e ⟨j, hj, he⟩
    · intro e he
      rw [k8 e (fun j hj => he j (List.mem_cons_of_mem _ hj))]
      refine upd_other _ _ (fun hed => he i (by simp) (by rw [h1, hed]))
    · exact fun e he => k9 e (List.mem_append_left _ he)
    · intro e he
      rcases k10 e he with h | ⟨j, hj, h⟩
      · rcases List.mem_append.1 h with h | h
        · exact Or.inl h
        · exact Or.inr ⟨i, by simp, by rw [h1, List.mem_singleton.1 h]⟩
      · exact Or.inr ⟨j, List.mem_cons_of_mem _ hj, h⟩

theorem begin_spec : ∀ (l : List Nat) (s : State), (l.map fun i => (s.recs i).stream).Nodup →
    (∀ i ∈ l, (s.recs i).session = none ∨ ∃ d, (s.recs i).session = some d ∧ s.live d = some (s.recs i).stream) → (∀ d p, s.live d = some p → d < s.sids) →
    ∃ s', begin_ [] s l = some s' ∧ s'.free = s.free ∧ s'.next = s.next ∧ s'.nalloc = s.nalloc ∧ s'.stopped = s.stopped ∧
      (∀ i, (s'.recs i).stream = (s.recs i).stream) ∧ (∀ i d, (s.recs i).session = some d → (s'.recs i).session = some d) ∧
      (∀ i ∈ l, ∃ d, (s'.recs i).session = some d ∧ s'.live d = some (s.recs i).stream ∧ s'.ctx d = i) ∧
      (∀ d p, s.live d = some p → s'.live d = some p) ∧ (∀ d p, s'.live d = some p → s.live d = some p ∨ ∃ i ∈ l, (s'.recs i).session = some d ∧ (s.recs i).stream = p) ∧
      (∀ d p, s'.live d = some p → d < s'.sids) ∧ (∀ d, (∀ j ∈ l, (s'.recs j).session ≠ some d) → s'.ctx d = s.ctx d) ∧ ∀ d, d < s.sids → s'.live d = s.live d
  | [], s, _, _, hb => ⟨s, rfl, rfl, rfl, rfl, rfl, fun _ => rfl, fun _ _ h => h, fun i h => (by cases h), fun _ _ h => h, fun _ _ h => Or.inl h, hb, fun _ _ => rfl, fun _ _ => rfl⟩
  | i :: l, s, hn, hs, hb => by
    obtain ⟨n1, n2⟩ := List.nodup_cons.1 hn
    have hil : ∀ j ∈ l, j ≠ i := fun j hj e => n1 (List.mem_map.2 ⟨j, hj, by rw [e]⟩)
    cases hse : (s.recs i).session with
    | none =>
      have hfresh : s.live s.sids = none := by
        cases h : s.live s.sids with
        | none => rfl
        | some p => exact absurd (hb _ _ h) (Nat.lt_irrefl _)
      have hcr : create [] s i = ⟨upd s.recs i ⟨(s.recs i).stream, some s.sids⟩, s.next, s.nalloc, s.free, s.pulls, upd s.live s.sids (some (s.recs i).stream), upd s.ctx s.sids i, s.sids + 1, s.stopped⟩ := by
        unfold create; rw [if_neg (by simp)]
      have hst : ∀ j, (upd s.recs i ⟨(s.recs i).stream, some s.sids⟩ j).stream = (s.recs j).stream := by
        intro j
        by_cases e : j = i
        · rw [e, upd_same]
        · rw [upd_other _ _ e]
      have hlv : ∀ d p, s.live d = some p → upd s.live s.sids (some (s.recs i).stream) d = some p := by
        intro d p h
        rw [upd_other _ _ (fun e => by rw [e, hfresh] at h; cases h)]; exact h
      have key := begin_spec l (create [] s i) (by
          rw [hcr]
          show (l.map fun j => (upd s.recs i ⟨(s.recs i).stream, some s.sids⟩ j).stream).Nodup
          rw [List.map_congr_left (fun j _ => hst j)]; exact n2) (by
          rw [hcr]
          intro j hj
          show (upd s.recs i _ j).session = none ∨ ∃ d, (upd s.recs i _ j).session = some d ∧ upd s.live s.sids _ d = some (upd s.recs i _ j).stream
          rw [upd_other _ _ (hil j hj)]
          rcases hs j (List.mem_cons_of_mem _ hj) with h | ⟨d, h1, h2⟩
          · exact Or.inl h
          · exact Or.inr ⟨d, h1, hlv d _ h2⟩) (by
          rw [hcr]
          intro d p h
          show d < s.sids + 1
          have h : upd s.live s.sids (some (s.recs i).stream) d = some p := h
          by_cases e : d = s.sids
          · omega
          · rw [upd_other _ _ e] at h
            exact Nat.lt_succ_of_lt (hb d p h))
      obtain ⟨s', k0, k1, k2, k3, k4, k5, k6, k7, k8, k9, k10, k11, k12⟩ := key
      have t5 : ∀ j, (s'.recs j).stream = (s.recs j).stream := fun j => by rw [k5 j, hcr]; exact hst j
      have tses : (s'.recs i).session = some s.sids := k6 i s.sids (by rw [hcr]; show (upd s.recs i _ i).session = _; rw [upd_same])
      have tlive : s'.live s.sids = some (s.recs i).stream := k8 _ _ (by rw [hcr]; exact upd_same _ _ _)
      refine ⟨s', ?_, by rw [k1, hcr], by rw [k2, hcr], by rw [k3, hcr], by rw [k4, hcr], t5, ?_, ?_, ?_, ?_, k10, ?_, ?_⟩
      · unfold begin_; rw [hse]; exact k0
      · intro j d h
        have e : j ≠ i := fun e => by rw [e, hse] at h; cases h
        refine k6 j d ?_
        rw [hcr]
        show (upd s.recs i _ j).session = _
        rw [upd_other _ _ e]; exact h
      · intro j hj
        rcases List.mem_cons.1 hj with hj | hj
        · subst hj
          refine ⟨s.sids, tses, tlive, ?_⟩
          rw [k11 s.sids (fun a ha hsa => ?_)]
          · rw [hcr]; exact upd_same _ _ _
          · obtain ⟨d, d1, d2, _⟩ := k7 a ha
            rw [hsa] at d1
            injection d1 with d1
            rw [← d1, tlive] at d2
            injection d2 with d2
            rw [← k5 a, t5 a] at d2
            exact n1 (List.mem_map.2 ⟨a, ha, d2.symm⟩)
        · obtain ⟨d, d1, d2, d3⟩ := k7 j hj
          exact ⟨d, d1, by rw [d2, ← k5 j, t5 j], d3⟩
      · intro d p h
        exact k8 d p (by rw [hcr]; exact hlv d p h)
      · intro d p h
        rcases k9 d p h with h | ⟨j, hj, h1, h2⟩
        · rw [hcr] at h
          have h : upd s.live s.sids (some (s.recs i).stream) d = some p := h
          by_cases e : d = s.sids
          · rw [e, upd_same] at h
            injection h with h
            exact Or.inr ⟨i, by simp, by rw [e]; exact tses, h⟩
          · rw [upd_other _ _ e] at h; exact Or.inl h
        · exact Or.inr ⟨j, List.mem_cons_of_mem _ hj, h1, by rw [← h2, ← k5 j, t5 j]⟩
      · intro d h
        rw [k11 d (fun j hj => h j (List.mem_cons_of_mem _ hj)), hcr]
        exact upd_other _ _ (fun e => h i (by simp) (by rw [e]; exact tses))
      · intro d h
        rw [k12 d (by rw [hcr]; exact Nat.lt_succ_of_lt h), hcr]
        exact upd_other _ _ (Nat.ne_of_lt h)
    | some d0 =>
      have hl0 : s.live d0 = some (s.recs i).stream := by
        rcases hs i (by simp) with h | ⟨d, h1, h2⟩
        · rw [hse] at h; cases h
        · rw [hse] at h1; injection h1 with h1; rw [h1]; exact h2
      have key := begin_spec l { s with ctx := upd s.ctx d0 i } n2 (fun j hj => hs j (List.mem_cons_of_mem _ hj)) hb
      obtain ⟨s', k0, k1, k2, k3, k4, k5, k6, k7, k8, k9, k10, k11, k12⟩ := key
      refine ⟨s', ?_, k1, k2, k3, k4, k5, k6, ?_, k8, ?_, k10, ?_, k12⟩
      · unfold begin_; rw [hse]; dsimp only; rw [hl0, if_neg (by simp)]; exact k0
      · intro j hj
        rcases List.mem_cons.1 hj with hj | hj
        · subst hj
          refine ⟨d0, k6 j d0 hse, k8 _ _ hl0, ?_⟩
          rw [k11 d0 (fun a ha hsa => ?_)]
          · exact upd_same _ _ _
          · obtain ⟨d, d1, d2, _⟩ := k7 a ha
            rw [hsa] at d1
            injection d1 with d1
            rw [← d1, k8 _ _ hl0] at d2
            injection d2 with d2
            exact n1 (List.mem_map.2 ⟨a, ha, d2.symm⟩)
        · exact k7 j hj
      · intro d p h
        rcases k9 d p h with h | ⟨j, hj, h1, h2⟩
        · exact Or.inl h
        · exact Or.inr ⟨j, List.mem_cons_of_mem _ hj, h1, h2⟩
      · intro d h
        rw [k11 d (fun j hj => h j (List.mem_cons_of_mem _ hj))]
        exact upd_other _ _ (fun e => h i (by simp) (by rw [e]; exact k6 i d0 hse))

/-- A reading of a configuration without duplicates -/
theorem reload_spec {s : State} (I : Inv s) (ps : List Nat) (hp : ps.Nodup) :
    ∃ s', reload s ps [] = some s' ∧ Inv s' ∧ s'.pulls.map (fun i => (s'.recs i).stream) = ps ∧
      (∀ d p, s.live d = some p → p ∈ ps → s'.live d = some p) ∧ (∀ d p, s.live d = some p → p ∉ ps → s'.live d = none ∧ d ∈ s'.stopped) ∧
      (∀ d, d ∈ s.stopped → d ∈ s'.stopped) ∧ ∀ d, d ∈ s'.stopped → d ∈ s.stopped ∨ ∃ p, s.live d = some p ∧ p ∉ ps := by
  obtain ⟨done, links, w, hc, M⟩ := mid_collect I ps (mid_init I)
  have hc : collect ⟨s, [], none, none⟩ ps = (true, w) ∧ done = ps := by
    rcases hc with ⟨hc, hd, _⟩ | ⟨_, hn⟩
    · exact ⟨hc, by simpa using hd⟩
    · exact absurd hp (by simpa using hn)
  obtain ⟨hc, hd⟩ := hc
  subst hd
  obtain ⟨s2, a0, a1, a2, a3, a4, a5, a6, a7, a8, a9, a10⟩ := walk_spec links (w.new.length + w.s.nalloc) w.s w.head (Nat.le_trans M.len (Nat.le_add_right _ _)) M.chain M.lnd
    (fun i hi => (M.old i (M.lsub i hi).1).2.2)
  -- the records that remain are those of streams that are no longer wanted
  have hrem : ∀ j, j ∈ s2.pulls ↔ j ∈ s.pulls ∧ (s.recs j).stream ∉ done := by
    intro j
    rw [a10 j, M.pulls]
    constructor
    · rintro ⟨hj, h⟩
      refine ⟨hj, fun hd => ?_⟩
      exact h j (M.lall j hj hd) rfl
    · rintro ⟨hj, h⟩
      refine ⟨hj, fun i hi e => ?_⟩
      rw [(M.old j hj).1, (M.old i (M.lsub i hi).1).1] at e
      exact h (e ▸ (M.lsub i hi).2)
  have hrec2 : ∀ j ∈ s.pulls, s2.recs j = s.recs j := fun j hj => by rw [a1]; exact (M.old j hj).1
  have hnd2 : (s2.pulls.map fun i => (s2.recs i).stream).Nodup := by
    have h1 : (s2.pulls.map fun i => (s2.recs i).stream) = s2.pulls.map fun i => (s.recs i).stream :=
      List.map_congr_left (fun j hj => by rw [hrec2 j ((hrem j).1 hj).1])
    rw [h1]
    have h2 : s2.pulls.Sublist s.pulls := by rw [← M.pulls]; exact a9
    exact I.nd.sublist (h2.map _)
  obtain ⟨s3, b0, b1, b2, b3, b4, b5, b6, b7, b8, b9, b10⟩ := stop_spec s2.pulls s2 hnd2 (by
    intro i hi
    have hi' := ((hrem i).1 hi).1
    obtain ⟨d, h1, h2, _⟩ := I.reg i hi'
    refine ⟨d, by rw [hrec2 i hi']; exact h1, ?_⟩
    rw [a2, M.live, hrec2 i hi']; exact h2)
  have hrec3 : s3.recs = w.s.recs := b1.trans a1
  have hlive2 : s2.live = s.live := a2.trans M.live
  -- sessions of streams that are wanted are not stopped
  have hkeep : ∀ d p, s.live d = some p → p ∈ done → s3.live d = some p := by
    intro d p h hpd
    rw [b8 d, hlive2]
    · exact h
    · intro i hi e
      have hi' := (hrem i).1 hi
      rw [hrec2 i hi'.1] at e
      obtain ⟨d', h1, h2, _⟩ := I.reg i hi'.1
      rw [e] at h1
      injection h1 with h1
      rw [← h1, h] at h2
      injection h2 with h2
      exact hi'.2 (h2 ▸ hpd)
  have hgone : ∀ d p, s.live d = some p → p ∉ done → s3.live d = none ∧ d ∈ s3.stopped := by
    intro d p h hpd
    obtain ⟨i, hi, h1, h2⟩ := I.own d p h
    exact b7 d ⟨i, (hrem i).2 ⟨hi, h2 ▸ hpd⟩, by rw [hrec2 i hi]; exact h1⟩
  have hsub : ∀ d p, s3.live d = some p → s.live d = some p ∧ p ∈ done := by
    intro d p h
    by_cases hx : ∃ i ∈ s2.pulls, (s2.recs i).session = some d
    · rw [(b7 d hx).1] at h; cases h
    · have h' := b8 d (fun i hi e => hx ⟨i, hi, e⟩)
      rw [h', hlive2] at h
      refine ⟨h, Classical.byContradiction fun hn => ?_⟩
      have := (hgone d p h hn).1
      rw [h', hlive2, h] at this; cases this
  obtain ⟨s4, c0, c1, c2, c3, c4, c5, c6, c7, c8, c9, c10, _, c12⟩ := begin_spec w.new s3 (by rw [hrec3, M.new]; exact hp) (by
    intro i hi
    rw [hrec3]
    cases hf : find s s.pulls (w.s.recs i).stream with
    | none => exact Or.inl (by rw [M.sess i hi, hf]; rfl)
    | some j =>
      obtain ⟨hj, hjs⟩ := find_some hf
      obtain ⟨d, h1, h2, _⟩ := I.reg j hj
      refine Or.inr ⟨d, by rw [M.sess i hi, hf]; exact h1, ?_⟩
      rw [hjs] at h2
      refine hkeep d _ h2 ?_
      have := M.new
      rw [← this]
      exact List.mem_map_of_mem (f := fun i => (w.s.recs i).stream) hi) (by
    intro d p h
    rw [b3, a4, M.sids]
    exact I.sid d p (hsub d p h).1)
  have hstr : s4.recs = s4.recs := rfl
  have hnew : w.new.map (fun i => (s4.recs i).stream) = done := by
    rw [← M.new]
    exact List.map_congr_left (fun i _ => by rw [c5 i, hrec3])
  refine ⟨{ s4 with pulls := w.new }, ?_, ?_, hnew, ?_, ?_, ?_, ?_⟩
  · unfold reload
    rw [hc]
    dsimp only
    rw [a0, Option.bind_some, b0, Option.bind_some, c0]; rfl
  · refine ⟨?_, ?_, by show (w.new.map fun i => (s4.recs i).stream).Nodup; rw [hnew]; exact hp, ?_, ?_, ?_, c10⟩
    · intro i hi
      obtain ⟨d, h1, h2, h3⟩ := c7 i hi
      exact ⟨d, h1, by show s4.live d = some (s4.recs i).stream; rw [h2, c5 i], h3⟩
    · intro d p h
      rcases c9 d p h with h | ⟨i, hi, h1, h2⟩
      · obtain ⟨h1, h2⟩ := hsub d p h
        obtain ⟨j, hj, e1, e2⟩ := I.own d p h1
        rw [← M.new] at h2
        obtain ⟨i, hi, e⟩ := List.mem_map.1 h2
        refine ⟨i, hi, c6 i d ?_, by show (s4.recs i).stream = p; rw [c5 i, hrec3]; exact e⟩
        rw [hrec3, M.sess i hi]
        have e : (w.s.recs i).stream = p := e
        rw [e]
        cases hf : find s s.pulls p with
        | none => exact absurd e2 (find_none hf j hj)
        | some j' =>
          obtain ⟨q1, q2⟩ := find_some hf
          have : j' = j := inj_of_nodup I.nd j' q1 j hj (q2.trans e2.symm)
          rw [this]; exact e1
      · exact ⟨i, hi, h1, by show (s4.recs i).stream = p; rw [c5 i]; exact h2⟩
    · intro i hi
      obtain ⟨f1, f2, f3, f4⟩ := M.fresh i hi
      have hnl : i ∉ links := fun h => f1 (M.lsub i h).1
      have hnp : i ∉ s2.pulls := fun h => f1 ((hrem i).1 h).1
      refine ⟨by show i < s4.nalloc; rw [c3, b4, a5]; exact f3, ?_, ?_⟩
      · show i ∉ s4.free
        rw [c1, b5, a7]
        simp only [List.mem_append, List.mem_reverse, not_or]
        exact ⟨hnp, hnl, f2⟩
      · show s4.next i = none
        rw [c2, b6 i hnp, a8 i hnl]; exact f4
    · show s4.free.Nodup
      rw [c1, b5, a7]
      have hpn : s2.pulls.Nodup := by
        have : ∀ l : List Nat, (l.map fun i => (s2.recs i).stream).Nodup → l.Nodup := by
          intro l
          induction l with
          | nil => intro _; exact List.nodup_nil
          | cons a l ih =>
            intro h
            rw [List.map_cons, List.nodup_cons] at h
            exact List.nodup_cons.2 ⟨fun hm => h.1 (List.mem_map_of_mem hm), ih h.2⟩
        exact this _ hnd2
      rw [List.nodup_append]
      refine ⟨List.pairwise_reverse.2 (hpn.imp Ne.symm), ?_, ?_⟩
      · rw [List.nodup_append]
        refine ⟨List.pairwise_reverse.2 (M.lnd.imp Ne.symm), M.fnd, fun a ha b hb e => ?_⟩
        subst e
        exact (M.old a (M.lsub a (List.mem_reverse.1 ha)).1).2.2 hb
      · intro a ha b hb e
        subst e
        have ha := (hrem a).1 (List.mem_reverse.1 ha)
        rcases List.mem_append.1 hb with hb | hb
        · exact ha.2 (M.lsub a (List.mem_reverse.1 hb)).2
        · exact (M.old a ha.1).2.2 hb
    · intro i hi
      show i < s4.nalloc
      have hi : i ∈ s4.free := hi
      rw [c3, b4, a5]
      rw [c1, b5, a7] at hi
      simp only [List.mem_append, List.mem_reverse] at hi
      rcases hi with h | h | h
      · exact (M.old i ((hrem i).1 h).1).2.1
      · exact (M.old i (M.lsub i h).1).2.1
      · exact M.flt i h
  · intro d p h hpd
    exact c8 d p (hkeep d p h hpd)
  · intro d p h hpd
    refine ⟨?_, by show d ∈ s4.stopped; rw [c4]; exact (hgone d p h hpd).2⟩
    show s4.live d = none
    cases hl : s4.live d with
    | none => rfl
    | some q =>
      exfalso
      rcases c9 d q hl with h' | ⟨i, hi, h1, h2⟩
      · rw [(hgone d p h hpd).1] at h'; cases h'
      · rw [c12 d (by rw [b3, a4, M.sids]; exact I.sid d p h)] at hl
        rw [(hgone d p h hpd).1] at hl; cases hl
  · intro d h
    show d ∈ s4.stopped
    rw [c4]; exact b9 d (by rw [a6, M.stopped]; exact h)
  · intro d h
    have h : d ∈ s4.stopped := h
    rw [c4] at h
    rcases b10 d h with h | ⟨i, hi, h⟩
    · rw [a6, M.stopped] at h; exact Or.inl h
    · have hi' := (hrem i).1 hi
      rw [hrec2 i hi'.1] at h
      obtain ⟨d', h1, h2, _⟩ := I.reg i hi'.1
      rw [h] at h1
      injection h1 with h1
      exact Or.inr ⟨_, by rw [h1]; exact h2, hi'.2⟩

/-- A session that is made again -/
theorem inv_again {s : State} (I : Inv s) (d : Nat) : Inv (again s d true) ∧ (again s d true).pulls = s.pulls ∧ ∀ i, ((again s d true).recs i).stream = (s.recs i).stream := by
  unfold again
  cases hl : s.live d with
  | none => exact ⟨I, rfl, fun _ => rfl⟩
  | some p =>
    obtain ⟨i, hi, h1, h2⟩ := I.own d p hl
    obtain ⟨d', e1, e2, e3⟩ := I.reg i hi
    rw [h1] at e1
    injection e1 with e1
    subst e1
    dsimp only
    rw [e3]
    have hcr : create (if true = true then [] else [(s.recs i).stream]) { s with live := upd s.live d none } i =
        ⟨upd s.recs i ⟨(s.recs i).stream, some s.sids⟩, s.next, s.nalloc, s.free, s.pulls, upd (upd s.live d none) s.sids (some (s.recs i).stream), upd s.ctx s.sids i, s.sids + 1, s.stopped⟩ := by
      unfold create; rw [if_pos rfl, if_neg (by simp)]
    rw [hcr]
    have hst : ∀ j, (upd s.recs i ⟨(s.recs i).stream, some s.sids⟩ j).stream = (s.recs j).stream := by
      intro j
      by_cases e : j = i
      · rw [e, upd_same]
      · rw [upd_other _ _ e]
    refine ⟨⟨?_, ?_, ?_, I.lt, I.fnd, I.flt, ?_⟩, rfl, hst⟩
    · intro j hj
      show ∃ e, (upd s.recs i _ j).session = some e ∧ upd (upd s.live d none) s.sids _ e = some (upd s.recs i _ j).stream ∧ upd s.ctx s.sids i e = j
      by_cases e : j = i
      · subst e
        exact ⟨s.sids, by rw [upd_same], by rw [upd_same, upd_same], upd_same _ _ _⟩
      · obtain ⟨x, x1, x2, x3⟩ := I.reg j hj
        have hx1 : x ≠ s.sids := fun e => by have := I.sid x _ x2; omega
        have hx2 : x ≠ d := fun e' => by rw [e', e3] at x3; exact e x3.symm
        refine ⟨x, by rw [upd_other _ _ e]; exact x1, ?_, by rw [upd_other _ _ hx1]; exact x3⟩
        rw [upd_other _ _ hx1, upd_other _ _ hx2, upd_other _ _ e]; exact x2
    · intro x q h
      have h : upd (upd s.live d none) s.sids (some (s.recs i).stream) x = some q := h
      show ∃ j ∈ s.pulls, (upd s.recs i _ j).session = some x ∧ (upd s.recs i _ j).stream = q
      by_cases e : x = s.sids
      · rw [e, upd_same] at h
        injection h with h
        exact ⟨i, hi, by rw [upd_same, e], by rw [upd_same]; exact h⟩
      · rw [upd_other _ _ e] at h
        by_cases e' : x = d
        · rw [e', upd_same] at h; cases h
        · rw [upd_other _ _ e'] at h
          obtain ⟨j, hj, j1, j2⟩ := I.own x q h
          have : j ≠ i := fun e => by rw [e, h1] at j1; injection j1 with j1; exact e' j1.symm
          exact ⟨j, hj, by rw [upd_other _ _ this]; exact j1, by rw [upd_other _ _ this]; exact j2⟩
    · show (s.pulls.map fun j => (upd s.recs i ⟨(s.recs i).stream, some s.sids⟩ j).stream).Nodup
      rw [List.map_congr_left (fun j _ => hst j)]; exact I.nd
    · intro x q h
      have h : upd (upd s.live d none) s.sids (some (s.recs i).stream) x = some q := h
      show x < s.sids + 1
      by_cases e : x = s.sids
      · omega
      · rw [upd_other _ _ e] at h
        by_cases e' : x = d
        · rw [e', upd_same] at h; cases h
        · rw [upd_other _ _ e'] at h
          exact Nat.lt_succ_of_lt (I.sid x q h)

end Verif.Pulls
