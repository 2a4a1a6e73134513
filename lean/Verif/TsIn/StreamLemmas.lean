import Verif.TsIn.TableLemmas
/-
Lemmas about packets of several streams, once the tables are known, for C69 (`ReadProps`).
-/
namespace Verif.TsIn
open Verif

/-- A packet of no stream changes nothing. -/
theorem toProg_other (h : Header) (b : Bytes) (ps : List Prog) (he : ∀ p ∈ ps, p.es ≠ []) (hn : ∀ e ∈ allEs ps, e.pid ≠ h.pid) :
    toProg h b ps = none ∨ toProg h b ps = some (.ok (ps, [])) := by
  induction ps with
  | nil => exact .inl rfl
  | cons p ps ih =>
    simp only [toProg]
    split
    · right
      have : readPmt p h b = .ok (p, []) := by unfold readPmt; rw [if_pos (he p (by simp))]
      rw [this]
      rfl
    · rw [toEs_none p h b p.es (fun e hx => hn e (by simp [allEs, hx]))]
      dsimp only
      rcases ih (fun q hq => he q (by simp [hq])) (fun e hx => hn e (by simp only [allEs, List.flatMap_cons, List.mem_append]; exact .inr hx)) with g | g
      · rw [g]; exact .inl rfl
      · rw [g]; exact .inr rfl

theorem step_other (s : St) (h : Header) (b : Bytes) (hr : Ready s.progs) (hn : ∀ e ∈ allEs s.progs, e.pid ≠ h.pid) : step s h b = .ok s := by
  unfold step
  split
  · unfold readPat
    rw [if_pos hr.1]
  · rcases toProg_other h b s.progs hr.2.1 hn with g | g
    · rw [g]
    · rw [g]
      simp

theorem toEs_at (prog : Prog) (h : Header) (b : Bytes) (u v : List Es) (e : Es) (hu : ∀ x ∈ u, x.pid ≠ h.pid) (he : e.pid = h.pid) :
    toEs prog h b (u ++ e :: v) = some ((readPes prog e h b).bind fun x => .ok (x.1, u ++ x.2.1 :: v, x.2.2)) := by
  induction u with
  | nil =>
    simp only [List.nil_append, toEs]
    rw [if_pos he.symm]
  | cons y u ih =>
    simp only [List.cons_append, toEs]
    rw [if_neg (fun x => hu y (by simp) x.symm), ih (fun x hx => hu x (by simp [hx]))]
    cases readPes prog e h b <;> rfl

/-- A stream in its program. -/
theorem place (ps : List Prog) (e : Es) (h : e ∈ allEs ps) : ∃ a P c u v, ps = a ++ P :: c ∧ P.es = u ++ e :: v := by
  simp only [allEs, List.mem_flatMap] at h
  obtain ⟨P, h1, h2⟩ := h
  obtain ⟨a, c, rfl⟩ := List.append_of_mem h1
  obtain ⟨u, v, h3⟩ := List.append_of_mem h2
  exact ⟨a, P, c, u, v, rfl, h3⟩

theorem allEs_place {a c : List Prog} {P : Prog} {u v : List Es} {e : Es} (h : P.es = u ++ e :: v) :
    allEs (a ++ P :: c) = (allEs a ++ u) ++ e :: (v ++ allEs c) := by
  simp [allEs, h]

/-- The program with its stream replaced. -/
def put (P : Prog) (e : Es) (h : Header) (u v : List Es) (e' : Es) : Prog := { setPcr P e h with es := u ++ e' :: v }

theorem setPcr_keeps (P : Prog) (e : Es) (h : Header) : (setPcr P e h).pid = P.pid ∧ (setPcr P e h).pcrPid = P.pcrPid ∧ (setPcr P e h).es = P.es := by
  unfold setPcr
  split
  · split <;> exact ⟨rfl, rfl, rfl⟩
  · exact ⟨rfl, rfl, rfl⟩

/-- A packet of a stream. -/
theorem step_at (s : St) (h : Header) (b : Bytes) (hr : Ready s.progs) (a c : List Prog) (P : Prog) (u v : List Es) (e : Es) (hs : s.progs = a ++ P :: c)
    (hP : P.es = u ++ e :: v) (he : e.pid = h.pid) :
    step s h b = (esStep e h b).bind fun x =>
      .ok { s with progs := a ++ put P e h u v x.1 :: c, events := s.events ++ toEvents (setPcr P e h) x.2 } := by
  obtain ⟨-, -, h3, h4⟩ := hr
  have hall := allEs_place (a := a) (c := c) hP
  rw [← hs] at hall
  have hmem : e ∈ allEs s.progs := by rw [hall]; simp
  obtain ⟨e0, e1⟩ := h4 e hmem
  have hbefore : ∀ x ∈ allEs a ++ u, x.pid ≠ h.pid := by
    intro x hx
    rw [hall] at h3
    simp only [List.map_append, List.map_cons, List.nodup_append] at h3
    have := h3.2.2 x.pid (by simp only [← List.map_append]; exact List.mem_map_of_mem hx) e.pid (by simp)
    rw [← he]
    exact this
  have hstr : Strange h.pid a := by
    intro p hp
    refine ⟨by rw [← he]; exact e1 p (by rw [hs]; simp [hp]), ?_⟩
    intro x hx
    exact hbefore x (by simp only [allEs, List.mem_append, List.mem_flatMap]; exact .inl ⟨p, hp, hx⟩)
  unfold step
  rw [if_neg (by rw [← he]; exact e0), hs, toProg_skip h b a (P :: c) hstr]
  simp only [toProg]
  rw [if_neg (fun x => e1 P (by rw [hs]; simp) (by rw [he, x])), hP, toEs_at P h b u v e (fun x hx => hbefore x (by simp [hx])) he, readPes_eq]
  dsimp only [Option.map_some]
  cases esStep e h b with
  | ub => rfl
  | error => rfl
  | ok x => rfl

theorem ready_put {a c : List Prog} {P : Prog} {u v : List Es} {e e' : Es} {h : Header} (hP : P.es = u ++ e :: v) (he : e'.pid = e.pid)
    (hr : Ready (a ++ P :: c)) : Ready (a ++ put P e h u v e' :: c) := by
  obtain ⟨h1, h2, h3, h4⟩ := hr
  have hp' : (put P e h u v e').es = u ++ e' :: v := rfl
  have hpid : (put P e h u v e').pid = P.pid := (setPcr_keeps P e h).1
  refine ⟨by simp, ?_, ?_, ?_⟩
  · intro p hp
    simp only [List.mem_append, List.mem_cons] at hp
    rcases hp with hp | rfl | hp
    · exact h2 p (by simp [hp])
    · rw [hp']; simp
    · exact h2 p (by simp [hp])
  · rw [allEs_place hp']
    rw [allEs_place hP] at h3
    simpa [he] using h3
  · intro x hx
    have hpids : ∀ p ∈ a ++ put P e h u v e' :: c, ∃ p0 ∈ a ++ P :: c, p0.pid = p.pid := by
      intro p hp
      simp only [List.mem_append, List.mem_cons] at hp
      rcases hp with hp | rfl | hp
      · exact ⟨p, by simp [hp], rfl⟩
      · exact ⟨P, by simp, hpid.symm⟩
      · exact ⟨p, by simp [hp], rfl⟩
    have hx0 : ∃ x0 ∈ allEs (a ++ P :: c), x0.pid = x.pid := by
      rw [allEs_place hp'] at hx
      rw [allEs_place hP]
      simp only [List.mem_append, List.mem_cons] at hx
      rcases hx with (hx | hx) | rfl | hx | hx
      · exact ⟨x, by simp [hx], rfl⟩
      · exact ⟨x, by simp [hx], rfl⟩
      · exact ⟨e, by simp, he.symm⟩
      · exact ⟨x, by simp [hx], rfl⟩
      · exact ⟨x, by simp [hx], rfl⟩
    obtain ⟨x0, k1, k2⟩ := hx0
    obtain ⟨g1, g2⟩ := h4 x0 k1
    refine ⟨by rw [← k2]; exact g1, ?_⟩
    intro p hp
    obtain ⟨p0, m1, m2⟩ := hpids p hp
    rw [← m2, ← k2]
    exact g2 p0 m1

theorem ausOf_events (q : Nat) (P : Prog) (o : Outs) (p : Nat) (ho : ∀ y ∈ o, y.1.pid = p) : ausOf q (toEvents P o) = if p = q then aus o else [] := by
  induction o with
  | nil => simp [toEvents, ausOf, aus]
  | cons y o ih =>
    have h1 := ho y (by simp)
    have h2 := ih (fun z hz => ho z (by simp [hz]))
    simp only [toEvents, List.map_cons, ausOf] at h2 ⊢
    rw [h2, h1]
    split <;> simp [aus]

/-- What each stream makes of its packets, whatever else is between them. -/
theorem steps_streams (ps : List Spec.Pkt) (s : St) (hr : Ready s.progs) (W : Nat → List Spec.Au)
    (H : ∀ e ∈ allEs s.progs, ∃ e' o, runEs e ((ps.filter (·.pid == e.pid)).map feedOf) = .ok (e', o) ∧ aus o = W e.pid) :
    ∃ s' ev, steps s ps = .ok s' ∧ s'.events = s.events ++ ev ∧ Ready s'.progs ∧ s'.buf = s.buf ∧ ∀ e ∈ allEs s.progs, ausOf e.pid ev = W e.pid := by
  induction ps generalizing s W with
  | nil =>
    refine ⟨s, [], rfl, by simp, hr, rfl, ?_⟩
    intro e he
    obtain ⟨e', o, h1, h2⟩ := H e he
    simp only [List.filter_nil, List.map_nil, runEs, Res.ok.injEq, Prod.mk.injEq] at h1
    rw [← h2, ← h1.2]
    rfl
  | cons p ps ih =>
    by_cases hin : ∃ e ∈ allEs s.progs, e.pid = p.pid
    · obtain ⟨e, he, hp⟩ := hin
      obtain ⟨a, P, c, u, v, hs, hP⟩ := place s.progs e he
      obtain ⟨ef, o, h1, h2⟩ := H e he
      rw [List.filter_cons_of_pos (by simp [hp]), List.map_cons] at h1
      simp only [runEs, feedOf] at h1
      cases e1 : esStep e (hdr p) p.payload with
      | ub => rw [e1] at h1; cases h1
      | error => rw [e1] at h1; cases h1
      | ok x =>
        obtain ⟨en, o1⟩ := x
        rw [e1] at h1
        simp only [bind_ok] at h1
        cases e2 : runEs en ((ps.filter (·.pid == e.pid)).map feedOf) with
        | ub => rw [show List.map feedOf _ = List.map feedOf _ from rfl] at h1; rw [e2] at h1; cases h1
        | error => rw [e2] at h1; cases h1
        | ok z =>
          obtain ⟨ez, o2⟩ := z
          rw [e2] at h1
          simp only [bind_ok, Res.ok.injEq, Prod.mk.injEq] at h1
          obtain ⟨rfl, rfl⟩ := h1
          obtain ⟨q1, q2⟩ := esStep_pid e1
          have hst := step_at s (hdr p) p.payload hr a c P u v e hs hP hp
          rw [e1] at hst
          simp only [bind_ok] at hst
          have hr' : Ready (a ++ put P e (hdr p) u v en :: c) := ready_put hP q1 (by rw [← hs]; exact hr)
          have hall : allEs s.progs = (allEs a ++ u) ++ e :: (v ++ allEs c) := by rw [hs]; exact allEs_place hP
          have hall' : allEs (a ++ put P e (hdr p) u v en :: c) = (allEs a ++ u) ++ en :: (v ++ allEs c) := allEs_place rfl
          have hd : ∀ x, x ∈ allEs a ++ u ∨ x ∈ v ++ allEs c → x.pid ≠ e.pid := by
            have h3 := hr.2.2.1
            rw [hall] at h3
            rw [List.map_append, List.nodup_append] at h3
            obtain ⟨-, n2, n3⟩ := h3
            rw [List.map_cons, List.nodup_cons] at n2
            intro x hx
            rcases hx with hx | hx
            · exact n3 x.pid (List.mem_map_of_mem hx) e.pid (by simp)
            · intro heq
              exact n2.1 (by rw [← heq]; exact List.mem_map_of_mem hx)
          obtain ⟨s', ev, k1, k2, k3, k4, k5⟩ := ih { s with progs := a ++ put P e (hdr p) u v en :: c, events := s.events ++ toEvents (setPcr P e (hdr p)) o1 } hr'
            (fun q => if q = e.pid then aus o2 else W q) (by
              intro x hx
              dsimp only at hx
              rw [hall'] at hx
              rw [List.mem_append, List.mem_cons] at hx
              have hcase : x = en ∨ (x ∈ allEs a ++ u ∨ x ∈ v ++ allEs c) := by
                rcases hx with hx | hx | hx
                · exact .inr (.inl hx)
                · exact .inl hx
                · exact .inr (.inr hx)
              rcases hcase with rfl | hx'
              · refine ⟨ez, o2, by rw [q1]; exact e2, by rw [q1]; simp⟩
              · have hne := hd x hx'
                obtain ⟨x', ox, g1, g2⟩ := H x (by
                  rw [hall, List.mem_append, List.mem_cons]
                  rcases hx' with hx' | hx'
                  · exact .inl hx'
                  · exact .inr (.inr hx'))
                rw [List.filter_cons_of_neg (by simp; rw [← hp]; exact fun z => hne z.symm)] at g1
                exact ⟨x', ox, g1, by rw [g2]; simp [hne]⟩)
          refine ⟨s', toEvents (setPcr P e (hdr p)) o1 ++ ev, ?_, ?_, k3, k4, ?_⟩
          · simp only [steps, hst, bind_ok, k1]
          · rw [k2, List.append_assoc]
          · intro x hx
            rw [ausOf_append, ausOf_events x.pid _ o1 e.pid q2]
            rw [hall, List.mem_append, List.mem_cons] at hx
            have hcase : x = e ∨ (x ∈ allEs a ++ u ∨ x ∈ v ++ allEs c) := by
              rcases hx with hx | hx | hx
              · exact .inr (.inl hx)
              · exact .inl hx
              · exact .inr (.inr hx)
            rcases hcase with rfl | hx'
            · have := k5 en (by dsimp only; rw [hall']; simp)
              rw [q1] at this
              simp only [if_true] at this
              rw [if_pos rfl, this, ← h2, aus_append]
            · have hne := hd x hx'
              have := k5 x (by
                dsimp only
                rw [hall', List.mem_append, List.mem_cons]
                rcases hx' with hx' | hx'
                · exact .inl hx'
                · exact .inr (.inr hx'))
              rw [if_neg (fun z => hne z.symm), this]
              simp [hne]
    · have hn : ∀ e ∈ allEs s.progs, e.pid ≠ (hdr p).pid := fun e he x => hin ⟨e, he, x⟩
      obtain ⟨s', ev, k1, k2⟩ := ih s hr W (by
        intro e he
        obtain ⟨e', o, h1, h2⟩ := H e he
        rw [List.filter_cons_of_neg (by simp; exact fun z => hn e he z.symm)] at h1
        exact ⟨e', o, h1, h2⟩)
      refine ⟨s', ev, ?_, k2⟩
      simp only [steps, step_other s (hdr p) p.payload hr hn, bind_ok, k1]

/-! ### The clock -/

theorem lastPcr_append (v : Nat) (a b : List Spec.Pkt) : lastPcr v (a ++ b) = lastPcr (lastPcr v a) b := by
  induction a generalizing v with
  | nil => rfl
  | cons p a ih => exact ih _

theorem find_put {a c : List Prog} {P P' : Prog} {f : Prog → Bool} (h : f P' = f P) :
    (a ++ P' :: c).find? f = ((a ++ P :: c).find? f).map fun x => if (a.find? f).isNone ∧ f P = true then P' else x := by
  rw [List.find?_append, List.find?_append, List.find?_cons, List.find?_cons, h]
  cases a.find? f with
  | some y => simp
  | none =>
    cases f P with
    | true => simp
    | false => cases c.find? f <;> simp

theorem clock_step {a c : List Prog} {P : Prog} {u v : List Es} {e e' : Es} {p : Spec.Pkt} (hP : P.es = u ++ e :: v) (he : e'.pid = e.pid) (hp : e.pid = p.pid)
    (hr : Ready (a ++ P :: c)) (q : Nat) :
    clockOf (a ++ put P e (hdr p) u v e' :: c) q = (clockOf (a ++ P :: c) q).map fun v => if p.pid = q then p.pcr.getD v else v := by
  have hf : (fun P : Prog => P.pcrPid == q && P.es.any (·.pid == q)) (put P e (hdr p) u v e') = (fun P : Prog => P.pcrPid == q && P.es.any (·.pid == q)) P := by
    have h1 : (put P e (hdr p) u v e').pcrPid = P.pcrPid := (setPcr_keeps P e (hdr p)).2.1
    have h2 : (put P e (hdr p) u v e').es = u ++ e' :: v := rfl
    simp only [h1, h2, hP, List.any_append, List.any_cons, he]
  unfold clockOf
  obtain ⟨f, hff⟩ : ∃ f, (fun P : Prog => P.pcrPid == q && P.es.any (·.pid == q)) = f := ⟨_, rfl⟩
  rw [hff] at hf ⊢
  rw [find_put hf]
  have hnodup := hr.2.2.1
  rw [allEs_place hP] at hnodup
  rw [List.map_append, List.nodup_append] at hnodup
  obtain ⟨-, n2, n3⟩ := hnodup
  rw [List.map_cons, List.nodup_cons] at n2
  -- streams of the other programs have other PIDs
  have hoa : ∀ X ∈ a, X.es.any (·.pid == e.pid) = false := by
    intro X hX
    rw [List.any_eq_false]
    intro x hx
    have : x ∈ allEs a ++ u := by simp only [allEs, List.mem_append, List.mem_flatMap]; exact .inl ⟨X, hX, hx⟩
    have := n3 x.pid (List.mem_map_of_mem this) e.pid (by simp)
    simpa using this
  have hoc : ∀ X ∈ c, X.es.any (·.pid == e.pid) = false := by
    intro X hX
    rw [List.any_eq_false]
    intro x hx
    have : x ∈ v ++ allEs c := by simp only [allEs, List.mem_append, List.mem_flatMap]; exact .inr ⟨X, hX, hx⟩
    intro heq
    simp at heq
    exact n2.1 (by rw [← heq]; exact List.mem_map_of_mem this)
  rw [List.find?_append, List.find?_cons]
  by_cases hq : p.pid = q
  · -- the PID of this packet: only `P` can be meant
    have ha : a.find? f = none := by
      rw [List.find?_eq_none]
      intro X hX
      rw [← hff]
      have := hoa X hX
      rw [hp, hq] at this
      simp [this]
    have hc : c.find? f = none := by
      rw [List.find?_eq_none]
      intro X hX
      rw [← hff]
      have := hoc X hX
      rw [hp, hq] at this
      simp [this]
    rw [ha, hc]
    cases hfp : f P with
    | false => simp
    | true =>
      have hpp : P.pcrPid = e.pid := by
        rw [← hff] at hfp
        simp only [Bool.and_eq_true, beq_iff_eq] at hfp
        rw [hfp.1, hp, hq]
      simp only [Option.none_or, Option.map_some, Option.isNone_none, and_self, if_true, hq, Option.some.injEq]
      unfold put setPcr hdr
      cases p.pcr with
      | none => rfl
      | some w => simp [hpp]
  · simp only [hq, if_false]
    have hpc : f P = true → (put P e (hdr p) u v e').pcr = P.pcr := by
      intro hfp
      rw [← hff] at hfp
      simp only [Bool.and_eq_true, beq_iff_eq] at hfp
      unfold put setPcr
      cases (hdr p).pcr with
      | none => rfl
      | some w =>
        dsimp only
        rw [if_neg (by rw [hfp.1, hp]; exact fun x => hq x.symm)]
    cases a.find? f with
    | some y => simp
    | none =>
      cases hfp : f P with
      | true => simp [hpc hfp]
      | false => cases c.find? f <;> simp

/-- The clock after packets is the last reference on its PID. -/
theorem steps_clock (ps : List Spec.Pkt) (s s' : St) (hr : Ready s.progs) (h : steps s ps = .ok s') (q : Nat) :
    Ready s'.progs ∧ clockOf s'.progs q = (clockOf s.progs q).map fun v => lastPcr v (ps.filter (·.pid == q)) := by
  induction ps generalizing s with
  | nil =>
    simp only [steps, Res.ok.injEq] at h
    subst h
    refine ⟨hr, ?_⟩
    simp [lastPcr]
  | cons p ps ih =>
    simp only [steps] at h
    by_cases hin : ∃ e ∈ allEs s.progs, e.pid = p.pid
    · obtain ⟨e, he, hp⟩ := hin
      obtain ⟨a, P, c, u, v, hs, hP⟩ := place s.progs e he
      rw [step_at s (hdr p) p.payload hr a c P u v e hs hP hp] at h
      cases e1 : esStep e (hdr p) p.payload with
      | ub => rw [e1] at h; cases h
      | error => rw [e1] at h; cases h
      | ok x =>
        rw [e1] at h
        simp only [bind_ok] at h
        obtain ⟨q1, -⟩ := esStep_pid (o := x.2) e1
        have hr0 := hr
        rw [hs] at hr0
        obtain ⟨k1, k2⟩ := ih _ (ready_put (h := hdr p) hP q1 hr0) h
        refine ⟨k1, ?_⟩
        rw [k2]
        dsimp only
        rw [clock_step hP q1 hp hr0 q, hs, Option.map_map]
        congr 1
        funext w
        by_cases hq : p.pid = q
        · simp [hq, lastPcr]
        · simp [hq]
    · have hn : ∀ e ∈ allEs s.progs, e.pid ≠ (hdr p).pid := fun e he x => hin ⟨e, he, x⟩
      rw [step_other s (hdr p) p.payload hr hn] at h
      obtain ⟨k1, k2⟩ := ih s hr h
      refine ⟨k1, ?_⟩
      rw [k2]
      by_cases hq : p.pid = q
      · have : clockOf s.progs q = none := by
          unfold clockOf
          rw [Option.map_eq_none_iff, List.find?_eq_none]
          intro X hX
          have : X.es.any (·.pid == q) = false := by
            rw [List.any_eq_false]
            intro x hx
            have := hn x (by simp only [allEs, List.mem_flatMap]; exact ⟨X, hX, hx⟩)
            rw [← hq]
            simp only [beq_iff_eq]
            exact this
          simp [this]
        rw [this]
        rfl
      · rw [List.filter_cons_of_neg (by simpa using hq)]

/-- An access unit on the PID of the clock goes with the clock after the packet that made it. -/
theorem step_event (s s' : St) (p : Spec.Pkt) (hr : Ready s.progs) (h : step s (hdr p) p.payload = .ok s') :
    ∃ ev, s'.events = s.events ++ ev ∧ ∀ P e bufs, Event.pes P e bufs ∈ ev → P.pcrPid = e.pid → clockOf s'.progs e.pid = some P.pcr ∧ e.pid = p.pid := by
  by_cases hin : ∃ e ∈ allEs s.progs, e.pid = p.pid
  · obtain ⟨e, he, hp⟩ := hin
    obtain ⟨a, P, c, u, v, hs, hP⟩ := place s.progs e he
    rw [step_at s (hdr p) p.payload hr a c P u v e hs hP hp] at h
    cases e1 : esStep e (hdr p) p.payload with
    | ub => rw [e1] at h; cases h
    | error => rw [e1] at h; cases h
    | ok x =>
      rw [e1] at h
      simp only [bind_ok, Res.ok.injEq] at h
      subst h
      obtain ⟨q1, q2⟩ := esStep_pid (o := x.2) e1
      refine ⟨_, rfl, ?_⟩
      intro P' e' bufs hev hpc
      simp only [toEvents, List.mem_map, Event.pes.injEq] at hev
      obtain ⟨y, hy, rfl, rfl, rfl⟩ := hev
      have hy' := q2 y hy
      refine ⟨?_, by rw [hy', hp]⟩
      rw [hy'] at hpc ⊢
      have hr' : Ready (a ++ put P e (hdr p) u v x.1 :: c) := ready_put hP q1 (by rw [← hs]; exact hr)
      have hoa : ∀ X ∈ a, X.es.any (·.pid == e.pid) = false := by
        intro X hX
        rw [List.any_eq_false]
        intro z hz
        have h3 := hr'.2.2.1
        rw [allEs_place (e := x.1) rfl, List.map_append, List.nodup_append] at h3
        have := h3.2.2 z.pid (List.mem_map_of_mem (by simp only [allEs, List.mem_append, List.mem_flatMap]; exact .inl ⟨X, hX, hz⟩)) e.pid (by simp [q1])
        simpa using this
      unfold clockOf
      rw [List.find?_append, List.find?_eq_none.2 (by intro X hX; simp [hoa X hX]), Option.none_or, List.find?_cons]
      have : ((put P e (hdr p) u v x.1).pcrPid == e.pid && (put P e (hdr p) u v x.1).es.any (·.pid == e.pid)) = true := by
        have h1 : (put P e (hdr p) u v x.1).pcrPid = (setPcr P e (hdr p)).pcrPid := rfl
        have h2 : (put P e (hdr p) u v x.1).es = u ++ x.1 :: v := rfl
        rw [h1, h2, hpc]
        simp [q1]
      rw [this]
      rfl
  · have hn : ∀ e ∈ allEs s.progs, e.pid ≠ (hdr p).pid := fun e he x => hin ⟨e, he, x⟩
    rw [step_other s (hdr p) p.payload hr hn] at h
    cases h
    exact ⟨[], by simp, by simp⟩

end Verif.TsIn
