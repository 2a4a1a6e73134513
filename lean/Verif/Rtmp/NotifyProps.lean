import Verif.Rtmp.NotifyLemmas
/-
C65: the callbacks of publishers and players. A command with a callback is carried out once and only after an answer that admits it, with the name it
came with; calls end with the session. True for sessions that only publish or only play and do nothing after they closed their stream (`_partial`); not
for others (`_violation`).
-/
namespace Verif.Notify

def Out.isNext : Out → Bool
  | .next _ _ => true
  | _ => false

/-- The name the first command of the session came with. -/
def firstName : List Event → Option Nat
  | [] => none
  | .publish v _ _ :: _ => some v
  | .play v _ _ :: _ => some v
  | _ :: es => firstName es

/-- What an event says about the call of context `i`: an answer, or that there is none. -/
def Event.says : Event → Option (Option Nat)
  | .answer _ code _ => some (some code)
  | .fail _ _ => some none
  | .timer _ _ _ => some none
  | _ => none

/-- The model does exactly what the specification says, and reads no memory that is gone. -/
theorem C65_follows_partial (c : Cfg) (k : Kind) (es : List Event) (ht : tame k false es = true) :
    (run c {} es).2 = (specRun c k {} es).2 ∧ (run c {} es).1.uaf = false ∧ (run c {} es).1.ctxs.length ≤ 1 := by
  obtain ⟨r, o⟩ := sim_run c k es {} {} (R.init c k) (by simp) ht
  refine ⟨o, ?_⟩
  generalize (run c {} es).1 = s at *
  generalize (specRun c k {} es).1 = p at *
  cases r <;> simp

example : tame .publish false [.publish 7 true true, .answer 0 200 true, .timer 0 true true, .answer 0 404 true, .gone true, .timer 0 true true] = true := by decide

/-! ### the specification itself -/

/-- The answer to the start call cannot come any more. -/
def settled (p : Sp) : Prop := p.cmd = true ∧ p.wait ≠ .verdict

theorem settled_step (c : Cfg) (k : Kind) (p : Sp) (h : settled p) (e : Event) :
    settled (spec c k p e).1 ∧ ∀ o ∈ (spec c k p e).2, o.isNext = false := by
  obtain ⟨h1, h2⟩ := h
  have hc : ∀ v got ok, command c k p v got ok = (p, []) := by intro v got ok; simp [command, h1]
  have hh : ∀ code ok, settled (heard c k p code ok).1 ∧ ∀ o ∈ (heard c k p code ok).2, o.isNext = false := by
    intro code ok
    unfold heard
    split
    · simp_all
    · exact ⟨⟨h1, by simp⟩, by simp⟩
    · exact ⟨⟨h1, h2⟩, by simp⟩
  have he : ∀ got, settled (ends c k p got).1 ∧ ∀ o ∈ (ends c k p got).2, o.isNext = false := by
    intro got
    unfold ends
    split
    · exact ⟨⟨h1, h2⟩, by simp⟩
    · refine ⟨⟨h1, by simp⟩, ?_⟩
      dsimp only
      split
      · split <;> simp [Out.isNext]
      · simp
  cases e with
  | publish v got ok => simp only [spec, hc]; exact ⟨⟨h1, h2⟩, by simp⟩
  | play v got ok => simp only [spec, hc]; exact ⟨⟨h1, h2⟩, by simp⟩
  | answer i code ok =>
    cases i with
    | zero => exact hh _ _
    | succ i => exact ⟨⟨h1, h2⟩, by simp [spec]⟩
  | fail i ok =>
    cases i with
    | zero => exact hh _ _
    | succ i => exact ⟨⟨h1, h2⟩, by simp [spec]⟩
  | timer i got ok =>
    cases i with
    | succ i => exact ⟨⟨h1, h2⟩, by simp [spec]⟩
    | zero =>
      simp only [spec]
      split
      · split
        · exact ⟨⟨h1, by simp⟩, by simp [Out.isNext]⟩
        · exact ⟨⟨h1, by simp⟩, by simp⟩
      · exact hh _ _
  | close got =>
    simp only [spec]
    split
    · exact ⟨⟨h1, h2⟩, by simp⟩
    · exact he got
  | gone got =>
    simp only [spec]
    split
    · exact ⟨⟨h1, h2⟩, by simp⟩
    · exact he got

theorem settled_run (c : Cfg) (k : Kind) (es : List Event) (p : Sp) (h : settled p) :
    ∀ o ∈ (specRun c k p es).2.flatten, o.isNext = false := by
  induction es generalizing p with
  | nil => simp [specRun]
  | cons e es ih =>
    have := settled_step c k p h e
    intro o ho
    simp only [specRun, List.flatten_cons, List.mem_append] at ho
    rcases ho with ho | ho
    · exact this.2 o ho
    · exact ih _ this.1 o ho

/-- Before the command: nothing is asked. After it, until the answer: the name asked for is the first. -/
def opening (p : Sp) : Prop := p.cmd = false → p.asked = none ∧ p.wait = .nothing

/-- A step of the specification that runs the rest of the chain. -/
theorem next_step (c : Cfg) (k : Kind) (p : Sp) (hp : opening p) (e : Event) (o : Out) (ho : o ∈ (spec c k p e).2) (hn : o.isNext = true) :
    settled (spec c k p e).1 ∧ ((spec c k p e).2.filter Out.isNext).length = 1 ∧
      ((hook c k = none ∧ p.cmd = false ∧ ∃ v got ok, (e = .publish v got ok ∨ e = .play v got ok) ∧ o = .next k (some v)) ∨
        (∃ ev, hook c k = some ev) ∧ p.wait = .verdict ∧ ∃ v code, p.asked = some v ∧ e.says = some code ∧ admits c code ∧ o = .next k (some v)) := by
  have hc : ∀ v got ok, o ∈ (command c k p v got ok).2 →
      settled (command c k p v got ok).1 ∧ ((command c k p v got ok).2.filter Out.isNext).length = 1 ∧ hook c k = none ∧ p.cmd = false ∧ o = .next k (some v) := by
    intro v got ok h
    unfold command at h ⊢
    split at h
    · cases h
    · rename_i hcond
      rw [if_neg hcond]
      have hcm : p.cmd = false := by cases hx : p.cmd <;> simp_all
      have hw : p.wait ≠ .verdict := by rw [(hp hcm).2]; simp
      cases hk : hook c k with
      | none =>
        simp only [hk] at h
        refine ⟨⟨rfl, hw⟩, ?_, rfl, hcm, ?_⟩
        · cases ok <;> rfl
        · cases ok <;> simp at h
          · rcases h with h | h
            · exact h
            · subst h; simp [Out.isNext] at hn
          · exact h
      | some ev =>
        simp only [hk] at h
        cases got <;> simp at h
        subst h; simp [Out.isNext] at hn
  have hh : ∀ code ok, o ∈ (heard c k p code ok).2 →
      settled (heard c k p code ok).1 ∧ ((heard c k p code ok).2.filter Out.isNext).length = 1 ∧ (∃ ev, hook c k = some ev) ∧ p.wait = .verdict ∧
        ∃ v, p.asked = some v ∧ admits c code ∧ o = .next k (some v) := by
    intro code ok h
    have hcm : p.wait ≠ .nothing → p.cmd = true := by
      intro hw; cases hx : p.cmd
      · exact absurd (hp hx).2 hw
      · rfl
    unfold heard at h ⊢
    split at h
    · rename_i ev v e1 e2 e3
      unfold verdict at h ⊢
      by_cases ha : admits c code
      · simp only [ha, if_true] at h ⊢
        cases ok
        · simp at h
          rcases h with h | h | h
          · exact ⟨⟨hcm (by rw [e3]; simp), by simp⟩, rfl, ⟨ev, e1⟩, e3, v, e2, trivial, h⟩
          · subst h; simp [Out.isNext] at hn
          · subst h; simp [Out.isNext] at hn
        · simp at h
          refine ⟨⟨hcm (by rw [e3]; simp), ?_⟩, rfl, ⟨ev, e1⟩, e3, v, e2, trivial, h⟩
          cases ev.update <;> simp
      · simp only [ha, if_false] at h
        simp at h
        rcases h with h | h <;> (subst h; simp [Out.isNext] at hn)
    · cases h
    · cases h
  have he : ∀ got, o ∉ (ends c k p got).2 := by
    intro got h
    unfold ends at h
    split at h
    · cases h
    · dsimp only at h
      split at h
      · split at h
        · simp at h; subst h; simp [Out.isNext] at hn
        · cases h
      · cases h
  cases e with
  | publish v got ok =>
    obtain ⟨a, b, d, f, g⟩ := hc v got ok ho
    exact ⟨a, b, .inl ⟨d, f, v, got, ok, .inl rfl, g⟩⟩
  | play v got ok =>
    obtain ⟨a, b, d, f, g⟩ := hc v got ok ho
    exact ⟨a, b, .inl ⟨d, f, v, got, ok, .inr rfl, g⟩⟩
  | answer i code ok =>
    cases i with
    | succ i => simp [spec] at ho
    | zero =>
      obtain ⟨a, b, d, f, v, g, m, n⟩ := hh (some code) ok ho
      exact ⟨a, b, .inr ⟨d, f, v, some code, g, rfl, m, n⟩⟩
  | fail i ok =>
    cases i with
    | succ i => simp [spec] at ho
    | zero =>
      obtain ⟨a, b, d, f, v, g, m, n⟩ := hh none ok ho
      exact ⟨a, b, .inr ⟨d, f, v, none, g, rfl, m, n⟩⟩
  | timer i got ok =>
    cases i with
    | succ i => simp [spec] at ho
    | zero =>
      simp only [spec] at ho ⊢
      split at ho
      · split at ho
        · simp at ho; subst ho; simp [Out.isNext] at hn
        · cases ho
      · rename_i hx
        rw [if_neg hx]
        obtain ⟨a, b, d, f, v, g, m, n⟩ := hh none ok ho
        exact ⟨a, b, .inr ⟨d, f, v, none, g, rfl, m, n⟩⟩
  | close got =>
    simp only [spec] at ho
    split at ho
    · cases ho
    · exact absurd ho (he got)
  | gone got =>
    simp only [spec] at ho
    split at ho
    · cases ho
    · exact absurd ho (he got)

/-- The command is the first, and the name asked for is its name. -/
def names (p : Sp) (pre : List Event) : Prop :=
  opening p ∧ (p.cmd = false → firstName pre = none) ∧ (∀ v, p.asked = some v → firstName pre = some v)

theorem firstName_append (a b : List Event) : firstName (a ++ b) = (firstName a).or (firstName b) := by
  induction a with
  | nil => simp [firstName]
  | cons e a ih => cases e <;> simp [firstName, ih]

theorem names_step (c : Cfg) (k : Kind) (p : Sp) (pre : List Event) (h : names p pre) (e : Event) (hg : p.gone = false ∨ firstName [e] = none) :
    names (spec c k p e).1 (pre ++ [e]) := by
  obtain ⟨h1, h2, h3⟩ := h
  have keep : ∀ q : Sp, q.cmd = p.cmd → q.asked = p.asked → (p.cmd = false → q.wait = .nothing) → firstName [e] = none → names q (pre ++ [e]) := by
    intro q a b d f
    refine ⟨fun hq => ⟨by rw [b]; exact (h1 (a ▸ hq)).1, d (a ▸ hq)⟩, ?_, ?_⟩
    · intro hq; rw [firstName_append, f, h2 (a ▸ hq)]; rfl
    · intro v hv; rw [firstName_append, h3 v (b ▸ hv)]; rfl
  have hc : ∀ v got ok, firstName [e] = some v → names (command c k p v got ok).1 (pre ++ [e]) := by
    intro v got ok hf
    have hg : p.gone = false := by rcases hg with hg | hg; · exact hg
                                   · rw [hf] at hg; cases hg
    unfold command
    cases hcm : p.cmd
    · have := h2 hcm
      have ha : p.asked = none := (h1 hcm).1
      simp only [hg, Bool.or_self, Bool.false_eq_true, if_false]
      split
      · exact ⟨by simp [opening], by simp, fun v hv => by simp [ha] at hv⟩
      · split
        · exact ⟨by simp [opening], by simp, fun v' hv => by simp at hv; rw [firstName_append, this, hf, ← hv]; rfl⟩
        · exact ⟨by simp [opening], by simp, fun v' hv => by simp at hv; rw [firstName_append, this, hf, ← hv]; rfl⟩
    · simp only [hg, Bool.false_or, if_true]
      refine ⟨h1, fun hx => (by rw [hcm] at hx; cases hx), fun v' hv => ?_⟩
      rw [firstName_append, h3 v' hv]; rfl
  have hh : ∀ code ok, firstName [e] = none → names (heard c k p code ok).1 (pre ++ [e]) := by
    intro code ok hf
    unfold heard
    split
    · rename_i e1 e2 e3
      have hw : p.cmd = false → False := fun hx => by rw [(h1 hx).2] at e3; cases e3
      unfold verdict
      split
      · split
        · exact keep _ rfl rfl (fun hx => (hw hx).elim) hf
        · exact keep _ rfl rfl (fun hx => (hw hx).elim) hf
      · exact keep _ rfl rfl (fun hx => (hw hx).elim) hf
    · rename_i e1 e2 e3
      exact keep _ rfl rfl (fun hx => by rw [(h1 hx).2] at e3; cases e3) hf
    · exact keep _ rfl rfl (fun hx => (h1 hx).2) hf
  have he : ∀ got, firstName [e] = none → names (ends c k p got).1 (pre ++ [e]) := by
    intro got hf
    unfold ends
    split
    · exact keep _ rfl rfl (fun hx => (h1 hx).2) hf
    · exact keep _ rfl rfl (fun _ => rfl) hf
  cases e with
  | publish v got ok => exact hc v got ok rfl
  | play v got ok => exact hc v got ok rfl
  | answer i code ok =>
    cases i with
    | succ i => exact keep _ rfl rfl (fun hx => (h1 hx).2) rfl
    | zero => exact hh _ _ rfl
  | fail i ok =>
    cases i with
    | succ i => exact keep _ rfl rfl (fun hx => (h1 hx).2) rfl
    | zero => exact hh _ _ rfl
  | timer i got ok =>
    cases i with
    | succ i => exact keep _ rfl rfl (fun hx => (h1 hx).2) rfl
    | zero =>
      simp only [spec]
      split
      · rename_i hx
        have hw : p.cmd = false → False := fun hc => by rw [(h1 hc).2] at hx; cases hx
        split
        · exact keep _ rfl rfl (fun hx => (hw hx).elim) rfl
        · exact keep _ rfl rfl (fun _ => rfl) rfl
      · exact hh _ _ rfl
  | close got =>
    simp only [spec]
    split
    · exact keep _ rfl rfl (fun hx => (h1 hx).2) rfl
    · exact he got rfl
  | gone got =>
    simp only [spec]
    split
    · exact keep _ rfl rfl (fun hx => (h1 hx).2) rfl
    · exact he got rfl

theorem run_append (c : Cfg) (a b : List Event) (s : St) :
    run c s (a ++ b) = ((run c (run c s a).1 b).1, (run c s a).2 ++ (run c (run c s a).1 b).2) := by
  induction a generalizing s with
  | nil => rfl
  | cons e a ih => simp only [List.cons_append, run, ih]

theorem specRun_append (c : Cfg) (k : Kind) (a b : List Event) (p : Sp) :
    specRun c k p (a ++ b) = ((specRun c k (specRun c k p a).1 b).1, (specRun c k p a).2 ++ (specRun c k (specRun c k p a).1 b).2) := by
  induction a generalizing p with
  | nil => rfl
  | cons e a ih => simp only [List.cons_append, specRun, ih]

theorem specRun_gone (c : Cfg) (k : Kind) (es : List Event) (p : Sp) (hg : p.gone = true → p.closed = true) (ht : tame k p.closed es = true)
    (pre : List Event) (h : names p pre) : names (specRun c k p es).1 (pre ++ es) ∧ ((specRun c k p es).1.gone = true → (specRun c k p es).1.closed = true) := by
  induction es generalizing p pre with
  | nil => simp only [specRun, List.append_nil]; exact ⟨h, hg⟩
  | cons e es ih =>
    obtain ⟨h1, h2⟩ := tame_cons k p.closed e es ht
    obtain ⟨q1, q2⟩ := spec_closed c k p e hg
    have hn : p.gone = false ∨ firstName [e] = none := by
      cases hp : p.gone
      · exact .inl rfl
      · have hcl := hg hp
        cases e <;> simp_all [tame, firstName]
    have := ih _ q2 (by rw [q1]; exact h2) (pre ++ [e]) (names_step c k p pre h e hn)
    simpa [specRun] using this

theorem names_init : names {} [] := ⟨fun _ => ⟨rfl, rfl⟩, fun _ => rfl, fun v h => by cases h⟩

theorem tame_append (k : Kind) (cl : Bool) (a b : List Event) (h : tame k cl (a ++ b) = true) :
    tame k cl a = true ∧ tame k (cl || a.any Event.ends) b = true := by
  induction a generalizing cl with
  | nil => simpa [tame] using h
  | cons e a ih =>
    obtain ⟨h1, h2⟩ := tame_cons k cl e (a ++ b) h
    obtain ⟨h3, h4⟩ := ih _ h2
    refine ⟨?_, by simpa [Bool.or_assoc] using h4⟩
    cases e <;> simp_all [tame, Event.ends]

theorem specRun_closed (c : Cfg) (k : Kind) (es : List Event) (p : Sp) (hg : p.gone = true → p.closed = true) :
    (specRun c k p es).1.closed = (p.closed || es.any Event.ends) ∧ ((specRun c k p es).1.gone = true → (specRun c k p es).1.closed = true) := by
  induction es generalizing p with
  | nil => exact ⟨by simp [specRun], hg⟩
  | cons e es ih =>
    obtain ⟨q1, q2⟩ := spec_closed c k p e hg
    obtain ⟨i1, i2⟩ := ih _ q2
    refine ⟨?_, i2⟩
    simp only [specRun, i1, q1, List.any_cons, Bool.or_assoc]

/-! ### C65 -/

/-- Whenever the rest of the chain is run: it is for the command of this session, with the first name, and if a callback is configured, this is the moment
an answer comes in that admits it. -/
theorem C65_admitted_partial (c : Cfg) (k : Kind) (pre post : List Event) (e : Event) (ht : tame k false (pre ++ e :: post) = true) (k' : Kind)
    (v : Option Nat) (ho : .next k' v ∈ (step c (run c {} pre).1 e).2) :
    k' = k ∧ v = firstName (pre ++ [e]) ∧ v ≠ none ∧
      ((hook c k = none ∧ firstName pre = none) ∨ (firstName pre = v ∧ ∃ code, e.says = some code ∧ admits c code)) := by
  obtain ⟨t1, t2⟩ := tame_append k false pre (e :: post) ht
  obtain ⟨r, -⟩ := sim_run c k pre {} {} (R.init c k) (by simp) t1
  obtain ⟨n, hg⟩ := specRun_gone c k pre {} (by simp) t1 [] names_init
  have hcl := (specRun_closed c k pre {} (by simp)).1
  simp only [List.nil_append] at n
  generalize (run c {} pre).1 = s at *
  generalize (specRun c k {} pre).1 = p at *
  have t3 : tame k p.closed [e] = true := by rw [hcl]; exact (tame_cons _ _ _ _ t2).1
  obtain ⟨-, o⟩ := sim c k s p r e t3
  rw [o] at ho
  obtain ⟨-, -, h⟩ := next_step c k p n.1 e _ ho rfl
  rcases h with ⟨hk, hcm, w, got, ok, he, hx⟩ | ⟨-, hw, w, code, ha, hs, had, hx⟩
  · injection hx with h1 h2
    subst h1 h2
    have hf : firstName [e] = some w := by rcases he with rfl | rfl <;> rfl
    exact ⟨rfl, by rw [firstName_append, n.2.1 hcm, hf]; rfl, by simp, .inl ⟨hk, n.2.1 hcm⟩⟩
  · injection hx with h1 h2
    subst h1 h2
    have := n.2.2 w ha
    exact ⟨rfl, by rw [firstName_append, this]; rfl, by simp, .inr ⟨this, code, hs, had⟩⟩

example : Out.next .publish (some 7) ∈ (step { publish := some ⟨true, true⟩, play := none } (run { publish := some ⟨true, true⟩, play := none } {}
    [.publish 7 true true]).1 (.answer 0 200 true)).2 := by decide

theorem once_run (c : Cfg) (k : Kind) (es : List Event) (p : Sp) (hp : opening p) (hg : p.gone = true → p.closed = true) (ht : tame k p.closed es = true)
    (pre : List Event) (hn : names p pre) : ((specRun c k p es).2.flatten.filter Out.isNext).length ≤ 1 := by
  induction es generalizing p pre with
  | nil => simp [specRun]
  | cons e es ih =>
    simp only [specRun, List.flatten_cons, List.filter_append, List.length_append]
    by_cases h : ∃ o ∈ (spec c k p e).2, o.isNext = true
    · obtain ⟨o, ho, hx⟩ := h
      obtain ⟨a, b, -⟩ := next_step c k p hp e o ho hx
      have := settled_run c k es _ a
      rw [b, List.filter_eq_nil_iff.2 (fun o ho => by simp [this o ho])]
      simp
    · have : (spec c k p e).2.filter Out.isNext = [] := List.filter_eq_nil_iff.2 (fun o ho hx => h ⟨o, ho, hx⟩)
      rw [this]
      obtain ⟨h1, h2⟩ := tame_cons k p.closed e es ht
      obtain ⟨q1, q2⟩ := spec_closed c k p e hg
      have hn' : p.gone = false ∨ firstName [e] = none := by
        cases hp : p.gone
        · exact .inl rfl
        · have hcl := hg hp
          cases e <;> simp_all [tame, firstName]
      have n' := names_step c k p pre hn e hn'
      have := ih _ n'.1 q2 (by rw [q1]; exact h2) _ n'
      simpa using this

/-- The rest of the chain is run at most once. -/
theorem C65_once_partial (c : Cfg) (k : Kind) (es : List Event) (ht : tame k false es = true) :
    ((run c {} es).2.flatten.filter Out.isNext).length ≤ 1 := by
  rw [(C65_follows_partial c k es ht).1]
  exact once_run c k es {} names_init.1 (by simp) ht [] names_init

/-- Once the session was finalized by the callback, or the rest of the chain was run, the rest of the chain is not run any more. -/
theorem finalized_step (c : Cfg) (k : Kind) (p : Sp) (hp : opening p) (e : Event) (h : .finalize ∈ (spec c k p e).2) : settled (spec c k p e).1 := by
  have hc : ∀ v got ok, .finalize ∈ (command c k p v got ok).2 → settled (command c k p v got ok).1 := by
    intro v got ok h
    unfold command at h ⊢
    split at h
    · cases h
    · rename_i hcond
      rw [if_neg hcond]
      have hcm : p.cmd = false := by cases hx : p.cmd <;> simp_all
      have hw : p.wait ≠ .verdict := by rw [(hp hcm).2]; simp
      cases hk : hook c k with
      | none => exact ⟨rfl, hw⟩
      | some ev => simp only [hk] at h; cases got <;> simp at h
  have hh : ∀ code ok, .finalize ∈ (heard c k p code ok).2 → settled (heard c k p code ok).1 := by
    intro code ok h
    unfold heard at h ⊢
    split at h
    · rename_i ev v e1 e2 e3
      have hcm : p.cmd = true := by cases hx : p.cmd
                                    · rw [(hp hx).2] at e3; cases e3
                                    · rfl
      unfold verdict at h ⊢
      by_cases ha : admits c code
      · simp only [ha, if_true] at h ⊢
        cases ok
        · exact ⟨hcm, by simp⟩
        · simp at h
      · simp only [ha, if_false]; exact ⟨hcm, by simp⟩
    · cases h
    · cases h
  have he : ∀ got, .finalize ∉ (ends c k p got).2 := by
    intro got h
    unfold ends at h
    split at h
    · cases h
    · dsimp only at h
      split at h
      · split at h <;> simp at h
      · cases h
  cases e with
  | publish v got ok => exact hc v got ok h
  | play v got ok => exact hc v got ok h
  | answer i code ok =>
    cases i with
    | succ i => simp [spec] at h
    | zero => exact hh _ _ h
  | fail i ok =>
    cases i with
    | succ i => simp [spec] at h
    | zero => exact hh _ _ h
  | timer i got ok =>
    cases i with
    | succ i => simp [spec] at h
    | zero =>
      simp only [spec] at h ⊢
      split at h
      · split at h <;> simp at h
      · rename_i hx; rw [if_neg hx]; exact hh _ _ h
  | close got =>
    simp only [spec] at h
    split at h
    · cases h
    · exact absurd h (he got)
  | gone got =>
    simp only [spec] at h
    split at h
    · cases h
    · exact absurd h (he got)

/-- After a refusal (the session is finalized) the command is never carried out, whatever is answered later. -/
theorem C65_refused_partial (c : Cfg) (k : Kind) (pre post : List Event) (e : Event) (ht : tame k false (pre ++ e :: post) = true)
    (hf : .finalize ∈ (step c (run c {} pre).1 e).2) :
    ∀ o ∈ (run c (step c (run c {} pre).1 e).1 post).2.flatten, o.isNext = false := by
  obtain ⟨t1, t2⟩ := tame_append k false pre (e :: post) ht
  obtain ⟨r, -⟩ := sim_run c k pre {} {} (R.init c k) (by simp) t1
  obtain ⟨n, hg⟩ := specRun_gone c k pre {} (by simp) t1 [] names_init
  have hcl := (specRun_closed c k pre {} (by simp)).1
  generalize (run c {} pre).1 = s at *
  generalize (specRun c k {} pre).1 = p at *
  rw [← hcl] at t2
  obtain ⟨t3, t4⟩ := tame_cons _ _ _ _ t2
  obtain ⟨r', o⟩ := sim c k s p r e t3
  rw [o] at hf
  have := finalized_step c k p n.1 e hf
  obtain ⟨q1, q2⟩ := spec_closed c k p e hg
  rw [(sim_run c k post _ _ r' q2 (by rw [q1]; exact t4)).2]
  exact settled_run c k post _ this

example : Out.finalize ∈ (step { publish := some ⟨true, true⟩, play := none } (run { publish := some ⟨true, true⟩, play := none } {}
    [.publish 7 true true]).1 (.answer 0 403 true)).2 := by decide

/-- An event that has nothing to do with the call of the command: a command, or news of a context that does not exist. -/
def Event.aside : Event → Bool
  | .publish _ _ _ => true
  | .play _ _ _ => true
  | .answer i _ _ => i != 0
  | .fail i _ => i != 0
  | .timer i _ _ => i != 0
  | _ => false

theorem aside_run (c : Cfg) (k : Kind) (mid : List Event) (p : Sp) (hp : p.cmd = true) (hm : ∀ e ∈ mid, e.aside = true) :
    (specRun c k p mid).1 = p ∧ ∀ o ∈ (specRun c k p mid).2, o = [] := by
  induction mid with
  | nil => simp [specRun]
  | cons e mid ih =>
    have h1 : spec c k p e = (p, []) := by
      have := hm e (by simp)
      cases e with
      | publish v got ok => simp [spec, command, hp]
      | play v got ok => simp [spec, command, hp]
      | answer i code ok => cases i <;> simp_all [Event.aside, spec]
      | fail i ok => cases i <;> simp_all [Event.aside, spec]
      | timer i got ok => cases i <;> simp_all [Event.aside, spec]
      | close got => simp [Event.aside] at this
      | gone got => simp [Event.aside] at this
    have ih := ih (fun e he => hm e (by simp [he]))
    simp only [specRun, h1]
    refine ⟨ih.1, ?_⟩
    intro o ho
    rcases List.mem_cons.1 ho with rfl | ho
    · rfl
    · exact ih.2 o ho

def cmdOf : Kind → Nat → Bool → Bool → Event
  | .publish => .publish
  | .play => .play

/-- The whole course of a verdict: the call goes out at once; nothing happens until the answer; then the command is carried out if the answer admits it,
else the client is told and the session finalized. -/
theorem C65_verdict_partial (c : Cfg) (k : Kind) (ev : Ev) (hk : hook c k = some ev) (v : Nat) (ok ok' : Bool) (mid : List Event)
    (ht : tame k false mid = true) (hm : ∀ e ∈ mid, e.aside = true) (e : Event) (code : Option Nat)
    (he : e = .fail 0 ok' ∧ code = none ∨ (∃ got, e = .timer 0 got ok') ∧ code = none ∨ ∃ n, e = .answer 0 n ok' ∧ code = some n) :
    (run c {} (cmdOf k v true ok :: mid ++ [e])).2 =
      [.call k .start] :: mid.map (fun _ => []) ++
        [if admits c code then .next k (some v) :: (if ok' then [] else [.forbidden .play, .finalize]) else [.forbidden .play, .finalize]] := by
  have htame : tame k false (cmdOf k v true ok :: mid ++ [e]) = true := by
    have h1 : tame k false (mid ++ [e]) = true := by
      clear hm
      have hx : tame k (false || mid.any Event.ends) [e] = true := by
        rcases he with ⟨rfl, -⟩ | ⟨⟨got, rfl⟩, -⟩ | ⟨n, rfl, -⟩ <;> rfl
      generalize false = b at ht hx
      induction mid generalizing b with
      | nil => simpa using hx
      | cons a mid ih =>
        obtain ⟨a1, a2⟩ := tame_cons k b a mid ht
        have := ih _ a2 (by simpa [Bool.or_assoc] using hx)
        cases a <;> simp_all [tame, Event.ends]
    cases k <;> simpa [cmdOf, tame] using h1
  rw [(C65_follows_partial c k _ htame).1]
  have hs : spec c k {} (cmdOf k v true ok) = ({ cmd := true, asked := some v, wait := .verdict }, [.call k .start]) := by
    cases k <;> simp [cmdOf, spec, command, hk]
  obtain ⟨m1, m2⟩ := aside_run c k mid { cmd := true, asked := some v, wait := .verdict } rfl hm
  have hlen : (specRun c k { cmd := true, asked := some v, wait := .verdict } mid).2 = mid.map (fun _ => []) := by
    have hl : ∀ (l : List Event) (p : Sp), (specRun c k p l).2.length = l.length := by
      intro l; induction l with
      | nil => intro p; rfl
      | cons a l ih => intro p; simp [specRun, ih]
    have hl := hl mid { cmd := true, asked := some v, wait := .verdict }
    generalize (specRun c k { cmd := true, asked := some v, wait := .verdict } mid).2 = l at m2 hl
    clear m1 ht hm htame
    induction mid generalizing l with
    | nil => simpa using hl
    | cons a mid ih =>
      cases l with
      | nil => simp at hl
      | cons x l =>
        have := m2 x (by simp)
        subst this
        simp only [List.map_cons, List.cons.injEq, true_and]
        exact ih l (fun o ho => m2 o (by simp [ho])) (by simpa using hl)
  have hv : (spec c k { cmd := true, asked := some v, wait := .verdict } e).2 =
      if admits c code then .next k (some v) :: (if ok' then [] else [.forbidden .play, .finalize]) else [.forbidden .play, .finalize] := by
    have : spec c k { cmd := true, asked := some v, wait := .verdict } e = verdict c k ev { cmd := true, asked := some v, wait := .verdict } v code ok' := by
      rcases he with ⟨rfl, rfl⟩ | ⟨⟨got, rfl⟩, rfl⟩ | ⟨n, rfl, rfl⟩ <;> simp [spec, heard, hk]
    rw [this]
    unfold verdict
    split
    · cases ok' <;> simp
    · rfl
  rw [List.cons_append]
  simp only [specRun, hs, specRun_append, m1, hlen, hv]
  rfl

def Armed (s : St) : Prop := ∀ n ∈ s.ctxs, n.hcr = true → n.timer = .timeout

theorem armed_set {s : St} (h : Armed s) (i : Nat) (n : Nctx) (hn : n.hcr = true → n.timer = .timeout) : Armed (setCtx s i n) := by
  intro m hm
  rcases List.mem_or_eq_of_mem_set hm with hm | rfl
  · exact h m hm
  · exact hn

theorem armed_create (n : Nctx) (got : Bool) (h : n.hcr = true → n.timer = .timeout) : (create n got).hcr = true → (create n got).timer = .timeout := by
  unfold create; split
  · intro; rfl
  · exact h

theorem armed_publish (c : Cfg) (s : St) (h : Armed s) (v : Nat) (got : Bool) : Armed (publish c s v got).1 := by
  unfold publish
  split
  · exact h
  · dsimp only; split
    · exact h
    · split
      · exact h
      · intro n hn
        simp only [start, List.mem_append, List.mem_singleton] at hn
        rcases hn with hn | rfl
        · exact h n hn
        · exact armed_create _ _ (by simp)

theorem armed_play (c : Cfg) (s : St) (h : Armed s) (v : Nat) (got : Bool) : Armed (play c s v got).1 := by
  unfold play
  split
  · exact h
  · dsimp only; split
    · exact h
    · split
      · exact h
      · intro n hn
        simp only [start, List.mem_append, List.mem_singleton] at hn
        rcases hn with hn | rfl
        · exact h n hn
        · exact armed_create _ _ (by simp)

theorem armed_close (c : Cfg) (s : St) (h : Armed s) (got : Bool) : Armed (close c s got).1 := by
  unfold close
  split
  · exact h
  · dsimp only; split
    · exact h
    · split
      · exact h
      · unfold done
        split
        · exact h
        · split
          · exact h
          · exact armed_set (s := { s with closed := true }) h _ _ (by simp)

theorem armed_answered (c : Cfg) (s : St) (h : Armed s) (i : Nat) (n : Nctx) (code : Option Nat) (ok : Bool) : Armed (answered c s i n code ok).1 := by
  have h1 : Armed (setCtx s i { n with timer := .off, hcr := false }) := armed_set h _ _ (by simp)
  unfold answered
  dsimp only
  split
  · unfold startHandle
    split
    · exact h1
    · split
      · split
        · exact h1
        · split
          · exact h1
          · dsimp only
            split
            · dsimp only; split
              · exact armed_set h1 _ _ (by simp)
              · exact h1
            · exact h1
      · exact h1
  · exact armed_set h1 _ _ (by simp)

theorem armed_step (c : Cfg) (s : St) (h : Armed s) (e : Event) : Armed (step c s e).1 := by
  cases e with
  | publish v got ok =>
    simp only [step]; split
    · exact h
    · exact armed_publish c s h v got
  | play v got ok =>
    simp only [step]; split
    · exact h
    · exact armed_play c s h v got
  | close got =>
    simp only [step]; split
    · exact h
    · exact armed_close c s h got
  | gone got =>
    simp only [step]; split
    · exact h
    · exact armed_close c s h got
  | answer i code ok =>
    simp only [step]; split
    · exact h
    · split
      · exact armed_answered c s h i _ _ ok
      · exact h
  | fail i ok =>
    simp only [step]; split
    · exact h
    · split
      · exact armed_answered c s h i _ _ ok
      · exact h
  | timer i got ok =>
    simp only [step]; split
    · exact h
    · rename_i n hn
      split
      · exact h
      · unfold fire
        split
        · exact h
        · split
          · exact armed_answered c s h i _ _ ok
          · rename_i hx; exact armed_set h _ _ (fun hy => absurd hy hx)
        · rename_i ht
          split
          · exact h
          · refine armed_set h _ _ (armed_create _ _ (fun hy => ?_))
            have := h n (List.mem_of_getElem? hn) hy
            rw [ht] at this; cases this
        · rename_i ht
          refine armed_set h _ _ (fun hy => ?_)
          have := h n (List.mem_of_getElem? hn) hy
          rw [ht] at this; cases this

theorem armed_run (c : Cfg) (es : List Event) (s : St) (h : Armed s) : Armed (run c s es).1 := by
  induction es generalizing s with
  | nil => exact h
  | cons e es ih => exact ih _ (armed_step c s h e)

/-- A call that waits has its timeout set: whatever happened before, the answer or the timeout will come. -/
theorem C65_timeout (c : Cfg) (es : List Event) : ∀ n ∈ (run c {} es).1.ctxs, n.hcr = true → n.timer = .timeout :=
  armed_run c es {} (fun _ h => by cases h)

example : (run { publish := some ⟨true, true⟩, play := none } {} [.publish 7 true true]).1.ctxs.map (·.hcr) = [true] := by decide

/-- After the stream was closed: no call, no chain, no reply. -/
theorem C65_silent_partial (c : Cfg) (k : Kind) (pre post : List Event) (e : Event) (hx : e.ends = true) (ht : tame k false (pre ++ e :: post) = true) :
    ∀ o ∈ (run c (run c {} (pre ++ [e])).1 post).2, o = [] := by
  have ht' : tame k false ((pre ++ [e]) ++ post) = true := by simpa using ht
  obtain ⟨t1, t2⟩ := tame_append k false _ post ht'
  obtain ⟨r, -⟩ := sim_run c k _ {} {} (R.init c k) (by simp) t1
  obtain ⟨hcl, hg⟩ := specRun_closed c k (pre ++ [e]) {} (by simp)
  rw [← hcl] at t2
  have hc1 : (specRun c k {} (pre ++ [e])).1.closed = true := by rw [hcl]; simp [hx]
  generalize (run c {} (pre ++ [e])).1 = s at *
  generalize (specRun c k {} (pre ++ [e])).1 = p at *
  rw [(sim_run c k post s p r hg t2).2]
  have hw : p.wait = .nothing := by cases r <;> simp_all
  clear r hcl ht ht' t1
  induction post generalizing p with
  | nil => simp [specRun]
  | cons a post ih =>
    obtain ⟨t3, t4⟩ := tame_cons _ _ _ _ t2
    have hh : ∀ code ok, heard c k p code ok = (p, []) := by intro code ok; unfold heard; split <;> simp_all
    have ha : (spec c k p a).2 = [] ∧ (spec c k p a).1.wait = .nothing := by
      cases a with
      | publish v got ok => simp [tame, hc1] at t3
      | play v got ok => simp [tame, hc1] at t3
      | answer i code ok => cases i <;> simp [spec, hh, hw]
      | fail i ok => cases i <;> simp [spec, hh, hw]
      | timer i got ok => cases i <;> simp [spec, hh, hw]
      | close got => cases hgn : p.gone <;> simp [spec, ends, hgn, hc1, hw]
      | gone got => cases hgn : p.gone <;> simp [spec, ends, hgn, hc1, hw]
    obtain ⟨q1, q2⟩ := spec_closed c k p a hg
    intro o ho
    simp only [specRun, List.mem_cons] at ho
    rcases ho with rfl | ho
    · exact ha.1
    · exact ih _ (by rw [q1]; exact t4) q2 (by rw [q1, hc1]; rfl) ha.2 o ho

/-- ... and once the posted event has run, the memory of the call is given back. -/
theorem C65_freed_partial (c : Cfg) (k : Kind) (pre mid : List Event) (e : Event) (hx : e.ends = true) (got ok : Bool)
    (ht : tame k false (pre ++ e :: mid) = true) :
    ∀ n ∈ (run c {} (pre ++ e :: mid ++ [.timer 0 got ok])).1.ctxs, n.freed = true := by
  obtain ⟨r, -⟩ := sim_run c k _ {} {} (R.init c k) (by simp) ht
  obtain ⟨hcl, hg⟩ := specRun_closed c k (pre ++ e :: mid) {} (by simp)
  have hc1 : (specRun c k {} (pre ++ e :: mid)).1.closed = true := by rw [hcl]; simp [hx]
  rw [run_append]
  generalize (run c {} (pre ++ e :: mid)).1 = s at *
  generalize (specRun c k {} (pre ++ e :: mid)).1 = p at *
  cases r with
  | empty => simp [run, step]
  | one => simp at hc1
  | over ev v h freed gone he => cases freed <;> simp [run, step, fire, setCtx]

/-- When the stream is closed the end is reported, if this was configured and the call had been made. -/
theorem C65_done_partial (c : Cfg) (k : Kind) (ev : Ev) (hk : hook c k = some ev) (pre : List Event) (got : Bool) (ht : tame k false pre = true)
    (hn : firstName pre ≠ none) (hc : pre.any Event.ends = false) (e : Event) (he : e = .close got ∨ e = .gone got) :
    (step c (run c {} pre).1 e).2 = if ev.done && got then [.call k .done] else [] := by
  obtain ⟨r, -⟩ := sim_run c k _ {} {} (R.init c k) (by simp) ht
  obtain ⟨n, -⟩ := specRun_gone c k pre {} (by simp) ht [] names_init
  obtain ⟨hcl, hg⟩ := specRun_closed c k pre {} (by simp)
  have hc1 : (specRun c k {} pre).1.closed = false := by rw [hcl]; simp [hc]
  simp only [List.nil_append] at n
  generalize (run c {} pre).1 = s at *
  generalize (specRun c k {} pre).1 = p at *
  have t3 : tame k p.closed [e] = true := by rcases he with rfl | rfl <;> rfl
  rw [(sim c k s p r e t3).2]
  cases r with
  | empty cmd closed gone hg hh =>
    cases cmd
    · exact absurd (n.2.1 rfl) hn
    · rw [hh rfl] at hk; cases hk
  | one ev' v h w he' =>
    rw [hk] at he'; cases he'
    rcases he with rfl | rfl <;> simp [spec, ends, hk]
  | over => simp at hc1

example : (step { publish := some ⟨false, true⟩, play := none } (run { publish := some ⟨false, true⟩, play := none } {}
    [.publish 7 true true, .answer 0 200 true]).1 (.close true)).2 = [.call .publish .done] := by decide

/-- For all executions, tame or not: the rest of the chain is run only by a command without callback, or when an answer that admits comes to a start call. -/
theorem C65_gate (c : Cfg) (s : St) (e : Event) (k : Kind) (v : Option Nat) (ho : .next k v ∈ (step c s e).2) :
    (hook c k = none ∧ ∃ w got ok, e = cmdOf k w got ok ∧ v = some w) ∨
      ∃ (i : Nat) (n : Nctx) (code : Option Nat), s.ctxs[i]? = some n ∧ n.hnd = .start ∧ n.hcr = true ∧ n.freed = false ∧ s.gone = false ∧ e.says = some code ∧ admits c code := by
  have hp : ∀ w got, .next k v ∈ (publish c s w got).2 → k = .publish ∧ hook c .publish = none ∧ v = some w := by
    intro w got h
    unfold publish at h
    split at h
    · cases h
    · dsimp only at h
      split at h
      · rename_i hb; simp at h; exact ⟨h.1, by simp [hook, hb], h.2⟩
      · split at h
        · rename_i hb _ hn; simp at h; exact ⟨h.1, by simp [hook, hb, hn], h.2⟩
        · simp only [start, callOut] at h; split at h <;> simp at h
  have hq : ∀ w got, .next k v ∈ (play c s w got).2 → k = .play ∧ hook c .play = none ∧ v = some w := by
    intro w got h
    unfold play at h
    split at h
    · cases h
    · dsimp only at h
      split at h
      · rename_i hb; simp at h; exact ⟨h.1, by simp [hook, hb], h.2⟩
      · split at h
        · rename_i hb _ hn; simp at h; exact ⟨h.1, by simp [hook, hb, hn], h.2⟩
        · simp only [start, callOut] at h; split at h <;> simp at h
  have hc : ∀ got, .next k v ∉ (close c s got).2 := by
    intro got h
    unfold close at h
    split at h
    · cases h
    · dsimp only at h
      split at h
      · cases h
      · split at h
        · cases h
        · unfold done at h
          split at h
          · cases h
          · split at h
            · cases h
            · dsimp only at h
              split at h
              · unfold callOut at h; split at h <;> simp at h
              · cases h
  have ha : ∀ i n code ok, .next k v ∈ (answered c s i n code ok).2 → n.hnd = .start ∧ s.gone = false ∧ admits c code := by
    intro i n code ok h
    unfold answered at h
    dsimp only at h
    split at h
    · rename_i hs
      refine ⟨hs, ?_⟩
      unfold startHandle at h
      split at h
      · cases h
      · rename_i hg
        refine ⟨by simpa [setCtx] using hg, ?_⟩
        split at h
        · rename_i hpass; exact (passes_iff c code).1 hpass
        · simp [refuse] at h
    · cases h
  cases e with
  | publish w got ok =>
    left
    simp only [step] at ho
    split at ho
    · cases ho
    · have : .next k v ∈ (publish c s w got).2 := by
        revert ho; cases ok
        · simp only [Bool.false_eq_true, if_false]; split
          · rename_i k' v' hx; intro ho; rw [hx]; simpa using ho
          · intro ho; exact ho
        · intro ho; simpa using ho
      obtain ⟨rfl, h2, h3⟩ := hp w got this
      exact ⟨h2, w, got, ok, rfl, h3⟩
  | play w got ok =>
    left
    simp only [step] at ho
    split at ho
    · cases ho
    · have : .next k v ∈ (play c s w got).2 := by
        revert ho; cases ok
        · simp only [Bool.false_eq_true, if_false]; split
          · rename_i k' v' hx; intro ho; rw [hx]; simpa using ho
          · intro ho; exact ho
        · intro ho; simpa using ho
      obtain ⟨rfl, h2, h3⟩ := hq w got this
      exact ⟨h2, w, got, ok, rfl, h3⟩
  | close got =>
    simp only [step] at ho
    split at ho
    · cases ho
    · exact absurd ho (hc got)
  | gone got =>
    simp only [step] at ho
    split at ho
    · cases ho
    · exact absurd ho (hc got)
  | answer i code ok =>
    right
    simp only [step] at ho
    cases hi : s.ctxs[i]? with
    | none => rw [hi] at ho; cases ho
    | some n =>
      rw [hi] at ho
      dsimp only at ho
      split at ho
      · rename_i hx
        simp at hx
        obtain ⟨h1, h2, h3⟩ := ha i n _ ok ho
        exact ⟨i, n, _, hi, h1, hx.1, hx.2, h2, rfl, h3⟩
      · cases ho
  | fail i ok =>
    right
    simp only [step] at ho
    cases hi : s.ctxs[i]? with
    | none => rw [hi] at ho; cases ho
    | some n =>
      rw [hi] at ho
      dsimp only at ho
      split at ho
      · rename_i hx
        simp at hx
        obtain ⟨h1, h2, h3⟩ := ha i n _ ok ho
        exact ⟨i, n, _, hi, h1, hx.1, hx.2, h2, rfl, h3⟩
      · cases ho
  | timer i got ok =>
    right
    simp only [step] at ho
    cases hi : s.ctxs[i]? with
    | none => rw [hi] at ho; cases ho
    | some n =>
      rw [hi] at ho
      dsimp only at ho
      split at ho
      · cases ho
      · rename_i hf
        unfold fire at ho
        split at ho
        · cases ho
        · split at ho
          · rename_i hx
            obtain ⟨h1, h2, h3⟩ := ha i n _ ok ho
            exact ⟨i, n, _, hi, h1, hx, by simpa using hf, h2, rfl, h3⟩
          · cases ho
        · split at ho
          · cases ho
          · simp only [callOut] at ho; split at ho <;> simp at ho
        · cases ho

/-! ### what is not true -/

def both : Cfg := { publish := some ⟨false, false⟩, play := some ⟨false, false⟩ }

/-- A session that publishes and plays: the answer to the call for publishing runs the play chain, before the call for playing is answered; its own answer
runs it again. The publish chain is never run. -/
theorem C65_mixed_violation :
    (run both {} [.publish 1 true true, .play 2 true true, .answer 0 200 true, .answer 1 200 true]).2 =
      [[.call .publish .start], [.call .play .start], [.next .play (some 2)], [.next .play (some 2)]] := by decide

/-- ... its first call is forgotten: the answer comes to a session that is gone. -/
theorem C65_forgotten_violation :
    (run both {} [.publish 1 true true, .play 2 true true, .gone true, .answer 0 200 true]).1.uaf = true := by decide

/-- A command after the stream was closed is taken, but its call is not ended with the session. -/
theorem C65_reopened_violation (c : Cfg) (ev : Ev) (hb : c.bypass = false) (hp : c.publish = some ev) (v : Nat) (code : Nat) (g1 g2 o1 o2 : Bool) :
    (run c {} [.close g1, .publish v true o1, .gone g2, .answer 0 code o2]).1.uaf = true := by
  cases g1 <;> cases g2 <;> cases o1 <;> cases o2 <;>
    simp [run, step, close, hb, publish, hp, start, create, answered, startHandle, setCtx, callOut]

/-- If the HTTP client gives no request, the command is neither carried out nor refused, whatever comes next. -/
theorem C65_lost_violation (c : Cfg) (k : Kind) (ev : Ev) (hk : hook c k = some ev) (v : Nat) (ok : Bool) (es : List Event)
    (ht : tame k false (cmdOf k v false ok :: es) = true) :
    ∀ o ∈ (run c {} (cmdOf k v false ok :: es)).2.flatten, o = .call k .done := by
  rw [(C65_follows_partial c k _ ht).1]
  have hs : spec c k {} (cmdOf k v false ok) = ({ cmd := true, asked := some v, wait := .nothing }, []) := by
    cases k <;> simp [cmdOf, spec, command, hk]
  simp only [specRun, hs, List.flatten_cons, List.nil_append]
  have : ∀ (es : List Event) (p : Sp), p.cmd = true → p.wait = .nothing → ∀ o ∈ (specRun c k p es).2.flatten, o = .call k .done := by
    intro es
    induction es with
    | nil => intro p _ _ o ho; simp [specRun] at ho
    | cons e es ih =>
      intro p h1 h2 o ho
      simp only [specRun, List.flatten_cons, List.mem_append] at ho
      have hh : ∀ code ok, heard c k p code ok = (p, []) := by intro code ok; unfold heard; split <;> simp_all
      have he : ∀ got, (ends c k p got).1.cmd = true ∧ (ends c k p got).1.wait = .nothing ∧ ∀ o ∈ (ends c k p got).2, o = .call k .done := by
        intro got; unfold ends; split
        · exact ⟨h1, h2, by simp⟩
        · refine ⟨h1, rfl, ?_⟩
          dsimp only; split
          · split <;> simp
          · simp
      have hstep : (spec c k p e).1.cmd = true ∧ (spec c k p e).1.wait = .nothing ∧ ∀ o ∈ (spec c k p e).2, o = .call k .done := by
        cases e with
        | publish v got ok => simp [spec, command, h1, h2]
        | play v got ok => simp [spec, command, h1, h2]
        | answer i code ok => cases i <;> simp [spec, hh, h1, h2]
        | fail i ok => cases i <;> simp [spec, hh, h1, h2]
        | timer i got ok => cases i <;> simp [spec, hh, h1, h2]
        | close got => simp only [spec]; split
                       · simp [h1, h2]
                       · exact he got
        | gone got => simp only [spec]; split
                      · simp [h1, h2]
                      · exact he got
      rcases ho with ho | ho
      · exact hstep.2.2 o ho
      · exact ih _ hstep.1 hstep.2.1 o ho
  exact this es _ rfl rfl

example : tame .publish false [cmdOf .publish 1 false true, .timer 0 true true] = true := by decide

/-- A publisher that is refused is told that playing is forbidden. -/
theorem C65_told_violation : (run both {} [.publish 1 true true, .answer 0 403 true]).2 = [[.call .publish .start], [.forbidden .play, .finalize]] := by decide

end Verif.Notify
