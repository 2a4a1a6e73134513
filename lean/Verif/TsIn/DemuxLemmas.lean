import Verif.TsIn.ReadLemmas
/-
Lemmas about the units of one stream and about packets of several streams for C69 (`ReadProps`).
-/
namespace Verif.TsIn
open Verif

@[simp] theorem bind_ok {α β : Type} (a : α) (f : α → Res β) : (Res.ok a).bind f = f a := rfl
@[simp] theorem bind_ub {α β : Type} (f : α → Res β) : (Res.ub : Res α).bind f = .ub := rfl
@[simp] theorem bind_error {α β : Type} (f : α → Res β) : (Res.error : Res α).bind f = .error := rfl

theorem ausOf_append (pid : Nat) (a b : List Event) : ausOf pid (a ++ b) = ausOf pid a ++ ausOf pid b := by
  induction a with
  | nil => rfl
  | cons e a ih => cases e <;> simp [ausOf, ih]

/-- What a stream hands on: itself and the payload. -/
abbrev Outs := List (Es × List Bytes)

def aus (l : Outs) : List Spec.Au := l.map fun y => auOf y.1 y.2

/-- `finishPes` without the program. -/
def finishEs (es : Es) (flush : Bool) : Res (Es × Outs) :=
  match parsePes flush es.bufs with
  | .again sid => .ok ({ es with sid := sid.getD es.sid }, [])
  | .bad => .error
  | .padding sid => .ok ({ es with sid := sid, bufs := [] }, [])
  | .full sid stamps bufs =>
    let es := { es with sid := sid, pts := (stamps.map (·.1)).getD es.pts, dts := (stamps.map (·.2)).getD es.dts, ptsf := stamps.isSome }
    .ok ({ es with bufs := [] }, [(es, bufs)])

/-- `readPes` without the program. -/
def esStep (es : Es) (h : Header) (b : Bytes) : Res (Es × Outs) :=
  (if es.bufs ≠ [] ∧ h.pusi then finishEs es true else .ok (es, [])).bind fun x =>
    let es := setRand x.1 h
    (finishEs { es with bufs := appendBuf h.pusi es.bufs b } false).bind fun y => .ok (y.1, x.2 ++ y.2)

def toEvents (prog : Prog) (l : Outs) : List Event := l.map fun y => .pes prog y.1 y.2

theorem finish_eq (prog : Prog) (es : Es) (flush : Bool) :
    finishPes prog es flush = (finishEs es flush).bind fun x => .ok (x.1, toEvents prog x.2) := by
  unfold finishPes finishEs
  cases parsePes flush es.bufs <;> rfl

theorem finishEs_pid {es es' : Es} {flush : Bool} {o : Outs} (h : finishEs es flush = .ok (es', o)) : es'.pid = es.pid ∧ ∀ y ∈ o, y.1.pid = es.pid := by
  unfold finishEs at h
  split at h
  · cases h; exact ⟨rfl, by simp⟩
  · cases h
  · cases h; exact ⟨rfl, by simp⟩
  · cases h; exact ⟨rfl, by simp⟩

theorem setPcr_pid {es es' : Es} (prog : Prog) (h : Header) (hp : es'.pid = es.pid) : setPcr (setPcr prog es h) es' h = setPcr prog es h := by
  unfold setPcr
  rw [hp]
  cases h.pcr with
  | none => rfl
  | some v =>
    dsimp only
    by_cases g : prog.pcrPid = es.pid
    · simp only [if_pos g]
    · simp only [if_neg g]

theorem setPcr_pid' {es es' : Es} (prog : Prog) (h : Header) (hp : es'.pid = es.pid) : setPcr prog es' h = setPcr prog es h := by
  unfold setPcr
  rw [hp]

theorem setRand_pid (es : Es) (h : Header) : (setRand es h).pid = es.pid := by unfold setRand; split <;> rfl

/-- The program is only told the clock. -/
theorem readPes_eq (prog : Prog) (es : Es) (h : Header) (b : Bytes) :
    readPes prog es h b = (esStep es h b).bind fun x => .ok (setPcr prog es h, x.1, toEvents (setPcr prog es h) x.2) := by
  unfold readPes esStep
  by_cases g : es.bufs ≠ [] ∧ h.pusi = true
  · dsimp only
    rw [if_pos g, if_pos g, finish_eq]
    cases e : finishEs es true with
    | ub => rfl
    | error => rfl
    | ok x =>
      obtain ⟨e1, o1⟩ := x
      simp only [bind_ok]
      rw [setPcr_pid prog h (by rw [setRand_pid, (finishEs_pid e).1]), finish_eq]
      cases finishEs _ false with
      | ub => rfl
      | error => rfl
      | ok y => simp [toEvents]
  · dsimp only
    rw [if_neg g, if_neg g]
    simp only [bind_ok]
    rw [setPcr_pid' prog h (setRand_pid es h), finish_eq]
    cases finishEs _ false with
    | ub => rfl
    | error => rfl
    | ok y => simp [toEvents]

theorem esStep_pid {es es' : Es} {h : Header} {b : Bytes} {o : Outs} (g : esStep es h b = .ok (es', o)) : es'.pid = es.pid ∧ ∀ y ∈ o, y.1.pid = es.pid := by
  unfold esStep at g
  have hf : ∀ x, (if es.bufs ≠ [] ∧ h.pusi = true then finishEs es true else .ok (es, [])) = .ok x → x.1.pid = es.pid ∧ ∀ y ∈ x.2, y.1.pid = es.pid := by
    intro x hx
    split at hx
    · exact finishEs_pid (o := x.2) hx
    · cases hx; exact ⟨rfl, by simp⟩
  cases e : (if es.bufs ≠ [] ∧ h.pusi = true then finishEs es true else .ok (es, [])) with
  | ub => rw [e] at g; cases g
  | error => rw [e] at g; cases g
  | ok x =>
    rw [e] at g
    obtain ⟨a1, a2⟩ := hf x e
    simp only [bind_ok] at g
    cases e2 : finishEs { setRand x.1 h with bufs := appendBuf h.pusi (setRand x.1 h).bufs b } false with
    | ub => rw [e2] at g; cases g
    | error => rw [e2] at g; cases g
    | ok y =>
      rw [e2] at g
      obtain ⟨b1, b2⟩ := finishEs_pid (o := y.2) e2
      simp only [bind_ok, Res.ok.injEq, Prod.mk.injEq] at g
      obtain ⟨rfl, rfl⟩ := g
      have hs : (setRand x.1 h).pid = es.pid := by rw [setRand_pid, a1]
      refine ⟨by rw [b1]; exact hs, ?_⟩
      intro y' hy'
      rw [List.mem_append] at hy'
      rcases hy' with hy' | hy'
      · exact a2 y' hy'
      · rw [b2 y' hy']; exact hs

/-- What one stream does with its packets. -/
def runEs (es : Es) : List (Header × Bytes) → Res (Es × Outs)
  | [] => .ok (es, [])
  | x :: l => (esStep es x.1 x.2).bind fun y => (runEs y.1 l).bind fun z => .ok (z.1, y.2 ++ z.2)

theorem runEs_append (es : Es) (a b : List (Header × Bytes)) :
    runEs es (a ++ b) = (runEs es a).bind fun y => (runEs y.1 b).bind fun z => .ok (z.1, y.2 ++ z.2) := by
  induction a generalizing es with
  | nil =>
    simp only [List.nil_append, runEs, bind_ok]
    cases runEs es b <;> rfl
  | cons x a ih =>
    simp only [List.cons_append, runEs]
    cases esStep es x.1 x.2 with
    | ub => rfl
    | error => rfl
    | ok y =>
      simp only [bind_ok]
      rw [ih]
      cases runEs y.1 a with
      | ub => rfl
      | error => rfl
      | ok z =>
        simp only [bind_ok]
        cases runEs z.1 b with
        | ub => rfl
        | error => rfl
        | ok w => simp [List.append_assoc]

/-- The header of a packet of the specification. -/
def hdr (p : Spec.Pkt) : Header := { pusi := p.pusi, pid := p.pid, cont := p.cc, rand := p.rai, pcr := p.pcr }

def feedOf (p : Spec.Pkt) : Header × Bytes := (hdr p, p.payload)

theorem aus_append (a b : Outs) : aus (a ++ b) = aus a ++ aus b := by simp [aus]

/-- A packet that starts no unit, while none is open. -/
theorem readPes_orphan (es : Es) (p : Spec.Pkt) (hb : es.bufs = []) (hp : p.pusi = false) :
    ∃ es', esStep es (hdr p) p.payload = .ok (es', []) ∧ es'.bufs = [] ∧ es'.pid = es.pid := by
  refine ⟨{ es with rand := p.rai }, ?_, hb, rfl⟩
  unfold esStep
  rw [if_neg (by simp [hb])]
  simp only [bind_ok, setRand, hb, if_true]
  unfold finishEs
  simp [appendBuf, hdr, hp, parsePes, rd]

theorem runEs_orphans (es : Es) (l : List Spec.Pkt) (hb : es.bufs = []) (hp : ∀ p ∈ l, p.pusi = false) :
    ∃ es', runEs es (l.map feedOf) = .ok (es', []) ∧ es'.bufs = [] ∧ es'.pid = es.pid := by
  induction l generalizing es with
  | nil => exact ⟨es, rfl, hb, rfl⟩
  | cons p l ih =>
    obtain ⟨e1, h1, h2, h3⟩ := readPes_orphan es p hb (hp p (by simp))
    obtain ⟨e2, g1, g2, g3⟩ := ih e1 h2 (fun q hq => hp q (by simp [hq]))
    refine ⟨e2, ?_, g2, by rw [g3, h3]⟩
    simp only [List.map_cons, runEs, feedOf]
    rw [h1]
    simp only [bind_ok]
    rw [g1]
    rfl

/-- The access unit of a finished packet. -/
theorem finish_full {e : Spec.Pes} (es : Es) (flush : Bool) (h : Spec.readPes es.bufs.flatten = some e)
    (hf : e.bounded = true ∨ flush = true) :
    ∃ es' ev, finishEs es flush = .ok (es', ev) ∧ es'.bufs = [] ∧ es'.pid = es.pid ∧
      aus ev = if e.sid ≠ 0xbe then [⟨es.rand, e.sid, e.stamps, e.data⟩] else [] := by
  unfold finishEs
  rcases parse_ok h flush hf with ⟨h1, h2⟩ | ⟨h1, bufs, h2, h3⟩
  · rw [h2]
    exact ⟨_, _, rfl, rfl, rfl, by rw [if_neg (by simp [h1])]; rfl⟩
  · rw [h2]
    refine ⟨_, _, rfl, rfl, rfl, ?_⟩
    rw [if_pos h1]
    simp only [aus, List.map_cons, List.map_nil, auOf, h3]
    cases e.stamps <;> simp

theorem finish_wait {e : Spec.Pes} {tail : Bytes} (es : Es) (h : Spec.readPes (es.bufs.flatten ++ tail) = some e)
    (ht : e.bounded = true → tail ≠ []) :
    ∃ es', finishEs es false = .ok (es', []) ∧ es'.bufs = es.bufs ∧ es'.pid = es.pid ∧ es'.rand = es.rand := by
  unfold finishEs
  obtain ⟨sid, h1⟩ := parse_wait h ht
  rw [h1]
  exact ⟨_, rfl, rfl, rfl, rfl⟩

/-- What is in the buffers of a stream between units: nothing, or a whole packet whose end is not known. -/
def Pending (es : Es) : Option Spec.Au → Prop
  | none => es.bufs = []
  | some a => es.bufs ≠ [] ∧ es.rand = a.rai ∧ ∃ e, Spec.readPes es.bufs.flatten = some e ∧ e.bounded = false ∧ e.sid = a.sid ∧ e.stamps = a.stamps ∧ e.data = a.data

/-- What a unit that was kept hands on when the next begins. -/
def shown (a : Spec.Au) : List Spec.Au := if a.sid ≠ 0xbe then [a] else []

/-- Packets of a unit after its first, while it is open. -/
theorem runEs_rest {e : Spec.Pes} (es : Es) (l : List Spec.Pkt) (hb : es.bufs ≠ []) (hp : ∀ p ∈ l, p.pusi = false)
    (h : Spec.readPes (es.bufs.flatten ++ Spec.unitBytes l) = some e) (hw : e.bounded = true → Spec.unitBytes l ≠ []) :
    ∃ es' ev, runEs es (l.map feedOf) = .ok (es', ev) ∧ es'.pid = es.pid ∧
      (e.bounded = true → es'.bufs = [] ∧ aus ev = shown ⟨es.rand, e.sid, e.stamps, e.data⟩) ∧
      (e.bounded = false → ev = [] ∧ Pending es' (some ⟨es.rand, e.sid, e.stamps, e.data⟩)) := by
  induction l generalizing es with
  | nil =>
    simp only [Spec.unitBytes, List.map_nil, List.flatten_nil, List.append_nil] at h hw
    have hbf : e.bounded = false := by
      cases g : e.bounded with
      | false => rfl
      | true => exact absurd rfl (hw g)
    refine ⟨es, [], rfl, rfl, ?_, ?_⟩
    · intro x; rw [x] at hbf; cases hbf
    · intro _
      exact ⟨rfl, hb, rfl, e, h, hbf, rfl, rfl, rfl⟩
  | cons p l ih =>
    have hpp := hp p (by simp)
    have hu : Spec.unitBytes (p :: l) = p.payload ++ Spec.unitBytes l := by simp [Spec.unitBytes]
    rw [hu] at h hw
    -- the packet
    have hstep : esStep es (hdr p) p.payload =
        finishEs { es with bufs := es.bufs ++ [p.payload] } false := by
      unfold esStep
      rw [if_neg (by simp [hdr, hpp])]
      simp only [bind_ok, setRand, if_neg hb, List.nil_append]
      have : appendBuf (hdr p).pusi es.bufs p.payload = es.bufs ++ [p.payload] := by
        simp [appendBuf, hdr, hpp, hb]
      rw [this]
      cases finishEs { es with bufs := es.bufs ++ [p.payload] } false <;> rfl
    have hfl : ({ es with bufs := es.bufs ++ [p.payload] } : Es).bufs.flatten = es.bufs.flatten ++ p.payload := by simp
    simp only [List.map_cons, runEs, feedOf]
    rw [hstep]
    by_cases hdone : e.bounded = true ∧ Spec.unitBytes l = []
    · obtain ⟨hbd, hl⟩ := hdone
      rw [hl, List.append_nil] at h
      obtain ⟨es1, ev, g1, g2, g3, g4⟩ := finish_full { es with bufs := es.bufs ++ [p.payload] } false (by rw [hfl]; exact h) (.inl hbd)
      rw [g1]
      simp only [bind_ok]
      obtain ⟨e2, k1, k2, k3⟩ := runEs_orphans es1 l g2 (fun q hq => hp q (by simp [hq]))
      rw [k1]
      refine ⟨e2, ev ++ [], rfl, by rw [k3, g3], ?_, ?_⟩
      · intro _
        refine ⟨k2, ?_⟩
        rw [List.append_nil]
        exact g4
      · intro x; rw [x] at hbd; cases hbd
    · have hw' : e.bounded = true → Spec.unitBytes l ≠ [] := fun x y => hdone ⟨x, y⟩
      rw [← List.append_assoc] at h
      obtain ⟨es1, g1, g2, g3, g4⟩ := finish_wait { es with bufs := es.bufs ++ [p.payload] } (by rw [hfl]; exact h) hw'
      rw [g1]
      simp only [bind_ok]
      obtain ⟨e2, ev, k1, k2, k3, k4⟩ := ih es1 (by rw [g2]; simp) (fun q hq => hp q (by simp [hq]))
        (by rw [g2, hfl]; exact h) hw'
      rw [k1]
      refine ⟨e2, ev, rfl, by rw [k2, g3], ?_, ?_⟩
      · intro x
        obtain ⟨a, b⟩ := k3 x
        rw [g4] at b
        exact ⟨a, b⟩
      · intro x
        obtain ⟨a, b⟩ := k4 x
        rw [g4] at b
        exact ⟨a, b⟩

/-- A unit. -/
theorem runEs_unit {bd : Bool} {a : Spec.Au} (es : Es) (p : Spec.Pkt) (l : List Spec.Pkt) (o : Option Spec.Au) (ho : Pending es o)
    (hpp : p.pusi = true) (hp : ∀ q ∈ l, q.pusi = false) (h : Spec.readUnit (p :: l) = some (bd, a)) :
    ∃ es' ev, runEs es ((p :: l).map feedOf) = .ok (es', ev) ∧ es'.pid = es.pid ∧
      aus ev = (o.map shown).getD [] ++ (if bd then shown a else []) ∧ Pending es' (if bd then none else some a) := by
  simp only [Spec.readUnit, Option.map_eq_some_iff] at h
  obtain ⟨e, he, hea⟩ := h
  simp only [Prod.mk.injEq] at hea
  obtain ⟨rfl, rfl⟩ := hea
  have hu : Spec.unitBytes (p :: l) = p.payload ++ Spec.unitBytes l := by simp [Spec.unitBytes]
  rw [hu] at he
  -- the unit that is open
  have hflush : ∃ es0 ev0, (if es.bufs ≠ [] ∧ (hdr p).pusi = true then finishEs es true else .ok (es, [])) = .ok (es0, ev0) ∧ es0.bufs = [] ∧ es0.pid = es.pid ∧ aus ev0 = (o.map shown).getD [] := by
    cases o with
    | none =>
      have hb : es.bufs = [] := ho
      rw [if_neg (by simp [hb])]
      exact ⟨_, _, rfl, hb, rfl, rfl⟩
    | some a =>
      obtain ⟨hb, hr, e', h1, h2, h3, h4, h5⟩ := ho
      rw [if_pos ⟨hb, hpp⟩]
      obtain ⟨es1, ev, g1, g2, g3, g4⟩ := finish_full es true h1 (.inr rfl)
      rw [g1]
      refine ⟨es1, ev, rfl, g2, g3, ?_⟩
      rw [g4, hr, h3, h4, h5]
      rfl
  obtain ⟨es0, ev0, f1, f2, f3, f4⟩ := hflush
  simp only [List.map_cons, runEs, feedOf]
  unfold esStep
  dsimp only
  rw [f1]
  simp only [bind_ok, setRand, f2, if_true]
  have happ : appendBuf (hdr p).pusi [] p.payload = [p.payload] := by simp [appendBuf, hdr, hpp]
  rw [happ]
  have hfl : ({ es0 with rand := (hdr p).rand, bufs := [p.payload] } : Es).bufs.flatten = p.payload := by simp
  by_cases hdone : e.bounded = true ∧ Spec.unitBytes l = []
  · obtain ⟨hbd, hl⟩ := hdone
    rw [hl, List.append_nil] at he
    obtain ⟨es1, ev, g1, g2, g3, g4⟩ := finish_full { es0 with rand := (hdr p).rand, bufs := [p.payload] } false (by rw [hfl]; exact he) (.inl hbd)
    rw [g1]
    simp only [bind_ok]
    obtain ⟨e2, k1, k2, k3⟩ := runEs_orphans es1 l g2 hp
    rw [k1]
    refine ⟨e2, (ev0 ++ ev) ++ [], rfl, by rw [k3, g3]; exact f3, ?_, by rw [hbd]; exact k2⟩
    rw [List.append_nil, aus_append, f4, hbd]
    rw [g4]
    rfl
  · have hw' : e.bounded = true → Spec.unitBytes l ≠ [] := fun x y => hdone ⟨x, y⟩
    obtain ⟨es1, g1, g2, g3, g4⟩ := finish_wait { es0 with rand := (hdr p).rand, bufs := [p.payload] } (by rw [hfl]; exact he) hw'
    rw [g1]
    simp only [bind_ok]
    obtain ⟨e2, ev, k1, k2, k3, k4⟩ := runEs_rest es1 l (by rw [g2]; simp) hp (by rw [g2, hfl]; exact he) hw'
    rw [k1]
    have hpid : es1.pid = es.pid := by rw [g3]; exact f3
    refine ⟨e2, (ev0 ++ []) ++ ev, rfl, by rw [k2, hpid], ?_, ?_⟩
    · rw [List.append_nil, aus_append, f4]
      congr 1
      cases hbd : e.bounded with
      | true =>
        obtain ⟨-, b⟩ := k3 hbd
        rw [b, g4]
        rfl
      | false =>
        obtain ⟨b, -⟩ := k4 hbd
        rw [b]
        rfl
    · cases hbd : e.bounded with
      | true => exact (k3 hbd).1
      | false =>
        have := (k4 hbd).2
        rw [g4] at this
        exact this

theorem units_orphans (l : List Spec.Pkt) : ∀ p ∈ (Spec.units l).1, p.pusi = false := by
  induction l with
  | nil => simp [Spec.units]
  | cons p l ih =>
    simp only [Spec.units]
    split
    · simp
    · rename_i h
      intro q hq
      simp only [List.mem_cons] at hq
      rcases hq with rfl | hq
      · simpa using h
      · exact ih q hq

theorem units_flat (l : List Spec.Pkt) : (Spec.units l).1 ++ (Spec.units l).2.flatten = l := by
  induction l with
  | nil => rfl
  | cons p l ih =>
    simp only [Spec.units]
    split
    · simp [ih]
    · simp [ih]

/-- Units begin with a start and have no other. -/
theorem units_shape (l : List Spec.Pkt) : ∀ u ∈ (Spec.units l).2, ∃ p r, u = p :: r ∧ p.pusi = true ∧ ∀ q ∈ r, q.pusi = false := by
  induction l with
  | nil => simp [Spec.units]
  | cons p l ih =>
    simp only [Spec.units]
    split
    · rename_i h
      intro u hu
      simp only [List.mem_cons] at hu
      rcases hu with rfl | hu
      · exact ⟨p, _, rfl, h, units_orphans l⟩
      · exact ih u hu
    · exact ih

theorem runEs_units (us : List (List Spec.Pkt)) (hus : ∀ u ∈ us, ∃ p r, u = p :: r ∧ p.pusi = true ∧ ∀ q ∈ r, q.pusi = false) (es : Es)
    (o : Option Spec.Au) (ho : Pending es o) (rs : List (Bool × Spec.Au)) (h : Spec.readUnits us = some rs) :
    ∃ es' ev, runEs es (us.flatten.map feedOf) = .ok (es', ev) ∧ es'.pid = es.pid ∧
      aus ev = Spec.complete ((o.map fun a => (false, a)).toList ++ rs) := by
  induction us generalizing es o rs with
  | nil =>
    simp only [Spec.readUnits, Option.some.injEq] at h
    subst h
    refine ⟨es, [], rfl, rfl, ?_⟩
    cases o <;> simp [Spec.complete, aus]
  | cons u us ih =>
    obtain ⟨p, r, rfl, hp, hr⟩ := hus u (by simp)
    simp only [Spec.readUnits, Option.bind_eq_some_iff, Option.map_eq_some_iff] at h
    obtain ⟨⟨bd, a⟩, h1, rs', h2, rfl⟩ := h
    obtain ⟨e1, ev1, g1, g2, g3, g4⟩ := runEs_unit es p r o ho hp hr h1
    obtain ⟨e2, ev2, k1, k2, k3⟩ := ih (fun x hx => hus x (by simp [hx])) e1 _ g4 rs' h2
    refine ⟨e2, ev1 ++ ev2, ?_, by rw [k2, g2], ?_⟩
    · rw [List.flatten_cons, List.map_append, runEs_append, g1]
      simp only [bind_ok]
      rw [k1]
      rfl
    · rw [aus_append, g3, k3]
      cases o with
      | none =>
        cases bd with
        | true =>
          cases rs' with
          | nil => simp [Spec.complete, shown]
          | cons y l => simp [Spec.complete, shown]
        | false => simp
      | some b =>
        cases bd with
        | true =>
          cases rs' with
          | nil => simp [Spec.complete, shown]
          | cons y l => simp [Spec.complete, shown]
        | false => simp [Spec.complete, shown]

/-- All packets of one stream. -/
theorem runEs_all (es : Es) (l : List Spec.Pkt) (hb : es.bufs = []) (rs : List (Bool × Spec.Au)) (h : Spec.readUnits (Spec.units l).2 = some rs) :
    ∃ es' ev, runEs es (l.map feedOf) = .ok (es', ev) ∧ aus ev = Spec.complete rs := by
  obtain ⟨e1, h1, h2, h3⟩ := runEs_orphans es _ hb (units_orphans l)
  obtain ⟨e2, ev, g1, g2, g3⟩ := runEs_units _ (units_shape l) e1 none h2 rs h
  refine ⟨e2, [] ++ ev, ?_, g3⟩
  have hm : l.map feedOf = (Spec.units l).1.map feedOf ++ (Spec.units l).2.flatten.map feedOf := by rw [← List.map_append, units_flat]
  rw [hm, runEs_append, h1]
  simp only [bind_ok]
  rw [g1]
  rfl

end Verif.TsIn
