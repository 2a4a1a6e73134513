import Verif.Rtmp.NotifySpec
/-
The model of one publisher or player follows the specification.
-/
namespace Verif.Notify

/-- The context of the call in each state. -/
def ctxFor (k : Kind) (ev : Ev) (h : Hnd) : Wait → Nctx
  | .nothing => { kind := k, ev := ev, hnd := h }
  | .verdict => { kind := k, ev := ev, hnd := .start, hcr := true, timer := .timeout }
  | .pause => { kind := k, ev := ev, hnd := .update, timer := .update }
  | .report => { kind := k, ev := ev, hnd := .update, hcr := true, timer := .timeout }

def vOf (k k' : Kind) (v : Nat) : Option Nat := if k = k' then some v else none

inductive R (c : Cfg) (k : Kind) : St → Sp → Prop
  | empty (cmd closed gone : Bool) (hg : gone = true → closed = true) (hh : cmd = true → hook c k = none) :
      R c k { published := decide (k = .publish) && cmd, played := decide (k = .play) && cmd, closed := closed, gone := gone }
        { cmd := cmd, closed := closed, gone := gone }
  | one (ev : Ev) (v : Nat) (h : Hnd) (w : Wait) (he : hook c k = some ev) :
      R c k { published := decide (k = .publish), played := decide (k = .play), cur := some 0, pubV := vOf k .publish v, playV := vOf k .play v, ctxs := [ctxFor k ev h w] }
        { cmd := true, asked := some v, wait := w }
  | over (ev : Ev) (v : Nat) (h : Hnd) (freed gone : Bool) (he : hook c k = some ev) :
      R c k { published := decide (k = .publish), played := decide (k = .play), closed := true, gone := gone, cur := some 0, pubV := vOf k .publish v,
              playV := vOf k .play v, ctxs := [{ kind := k, ev := ev, hnd := h, timer := if freed then .off else .destroy, freed := freed }] }
        { cmd := true, asked := some v, closed := true, gone := gone }

theorem R.init (c : Cfg) (k : Kind) : R c k {} {} := by
  have := R.empty (c := c) (k := k) false false false (by simp) (by simp)
  simpa using this

theorem passes_iff (c : Cfg) (o : Option Nat) : passes c o = true ↔ admits c o := by cases o <;> simp [passes, admits]

theorem hook_pub {c : Cfg} {ev : Ev} (h : hook c .publish = some ev) : c.bypass = false ∧ c.publish = some ev := by
  unfold hook at h; split at h
  · cases h
  · exact ⟨eq_false_of_ne_true ‹¬ _›, h⟩

theorem hook_play {c : Cfg} {ev : Ev} (h : hook c .play = some ev) : c.bypass = false ∧ c.play = some ev := by
  unfold hook at h; split at h
  · cases h
  · exact ⟨eq_false_of_ne_true ‹¬ _›, h⟩

theorem sim_answered (c : Cfg) (k : Kind) (ev : Ev) (v : Nat) (h : Hnd) (w : Wait) (he : hook c k = some ev) (code : Option Nat) (ok : Bool)
    (hw : w = .verdict ∨ w = .report) :
    let s : St := { published := decide (k = .publish), played := decide (k = .play), cur := some 0, pubV := vOf k .publish v, playV := vOf k .play v, ctxs := [ctxFor k ev h w] }
    let p : Sp := { cmd := true, asked := some v, wait := w }
    R c k (answered c s 0 (ctxFor k ev h w) code ok).1 (heard c k p code ok).1 ∧
      (answered c s 0 (ctxFor k ev h w) code ok).2 = (heard c k p code ok).2 := by
  intro s p
  rcases hw with rfl | rfl
  · by_cases ha : admits c code
    · have hp : passes c code = true := (passes_iff c code).2 ha
      cases k <;> cases ok <;> cases hu : ev.update <;>
        simp [s, p, answered, ctxFor, heard, he, verdict, ha, startHandle, hp, setCtx, refuse, vOf, hu]
      all_goals first
        | exact R.one ev v .start .nothing he
        | exact R.one ev v .start .pause he
    · have hp : passes c code = false := eq_false_of_ne_true (mt (passes_iff c code).1 ha)
      cases k <;> simp [s, p, answered, ctxFor, heard, he, verdict, ha, startHandle, hp, setCtx, refuse, vOf]
      all_goals exact R.one ev v .start .nothing he
  · refine ⟨?_, by simp [s, p, answered, ctxFor, heard, he]⟩
    have := R.one (c := c) ev v .update .pause he
    cases k <;> simpa [s, p, answered, ctxFor, heard, he, setCtx, vOf] using this

theorem sim (c : Cfg) (k : Kind) (s : St) (p : Sp) (h : R c k s p) (e : Event) (ht : tame k p.closed [e] = true) :
    R c k (step c s e).1 (spec c k p e).1 ∧ (step c s e).2 = (spec c k p e).2 := by
  cases h with
  | empty cmd closed gone hg hh =>
    cases e with
    | publish v got ok =>
      simp [tame] at ht
      obtain ⟨rfl, rfl⟩ := ht
      have hg : gone = false := by cases gone <;> simp_all
      subst hg
      cases cmd
      · cases hk : hook c .publish with
        | none =>
          have hn : (publish c { closed := false } v got) = ({ published := true }, [.next .publish (some v)]) := by
            unfold hook at hk
            cases hb : c.bypass <;> simp_all [publish]
          refine ⟨?_, ?_⟩
          · have := R.empty (c := c) (k := .publish) true false false (by simp) (by simp [hk])
            simpa [step, spec, command, hk, hn] using this
          · cases ok <;> simp [step, spec, command, hk, hn]
        | some ev =>
          obtain ⟨hb, hp⟩ := hook_pub hk
          refine ⟨?_, ?_⟩
          · have h1 := R.one (c := c) (k := .publish) ev v .start .verdict hk
            have h2 := R.one (c := c) (k := .publish) ev v .start .nothing hk
            cases got
            · simpa [step, spec, command, hk, publish, hb, hp, start, create, ctxFor, vOf] using h2
            · simpa [step, spec, command, hk, publish, hb, hp, start, create, ctxFor, vOf] using h1
          · cases got <;> cases ok <;> simp [step, spec, command, hk, publish, hb, hp, start, create, callOut]
      · have := R.empty (c := c) (k := .publish) true false false (by simp) hh
        refine ⟨by simpa [step, spec, command, publish] using this, by simp [step, spec, command, publish]⟩
    | play v got ok =>
      simp [tame] at ht
      obtain ⟨rfl, rfl⟩ := ht
      have hg : gone = false := by cases gone <;> simp_all
      subst hg
      cases cmd
      · cases hk : hook c .play with
        | none =>
          have hn : (play c { closed := false } v got) = ({ played := true }, [.next .play (some v)]) := by
            unfold hook at hk
            cases hb : c.bypass <;> simp_all [play]
          refine ⟨?_, ?_⟩
          · have := R.empty (c := c) (k := .play) true false false (by simp) (by simp [hk])
            simpa [step, spec, command, hk, hn] using this
          · cases ok <;> simp [step, spec, command, hk, hn]
        | some ev =>
          obtain ⟨hb, hp⟩ := hook_play hk
          refine ⟨?_, ?_⟩
          · have h1 := R.one (c := c) (k := .play) ev v .start .verdict hk
            have h2 := R.one (c := c) (k := .play) ev v .start .nothing hk
            cases got
            · simpa [step, spec, command, hk, play, hb, hp, start, create, ctxFor, vOf] using h2
            · simpa [step, spec, command, hk, play, hb, hp, start, create, ctxFor, vOf] using h1
          · cases got <;> cases ok <;> simp [step, spec, command, hk, play, hb, hp, start, create, callOut]
      · have := R.empty (c := c) (k := .play) true false false (by simp) hh
        refine ⟨by simpa [step, spec, command, play] using this, by simp [step, spec, command, play]⟩
    | close got =>
      cases gone
      · cases closed
        · refine ⟨?_, ?_⟩
          · have := R.empty (c := c) (k := k) cmd true false (by simp) hh
            cases hb : c.bypass <;> simpa [step, spec, close, ends, hb] using this
          · cases hb : c.bypass <;> cases hk : hook c k <;> simp [step, spec, close, ends, hb, hk]
        · have := R.empty (c := c) (k := k) cmd true false (by simp) hh
          exact ⟨by simpa [step, spec, close, ends] using this, by simp [step, spec, close, ends]⟩
      · have := R.empty (c := c) (k := k) cmd closed true hg hh
        exact ⟨by simpa [step, spec] using this, by simp [step, spec]⟩
    | gone got =>
      cases gone
      · have := R.empty (c := c) (k := k) cmd true true (by simp) hh
        cases closed
        · refine ⟨?_, ?_⟩
          · cases hb : c.bypass <;> simpa [step, spec, close, ends, hb] using this
          · cases hb : c.bypass <;> cases hk : hook c k <;> simp [step, spec, close, ends, hb, hk]
        · exact ⟨by simpa [step, spec, close, ends] using this, by simp [step, spec, close, ends]⟩
      · have := R.empty (c := c) (k := k) cmd closed true hg hh
        exact ⟨by simpa [step, spec] using this, by simp [step, spec]⟩
    | answer i code ok =>
      have := R.empty (c := c) (k := k) cmd closed gone hg hh
      cases i <;> cases hk : hook c k <;> exact ⟨by simpa [step, spec, heard, hk] using this, by simp [step, spec, heard, hk]⟩
    | fail i ok =>
      have := R.empty (c := c) (k := k) cmd closed gone hg hh
      cases i <;> cases hk : hook c k <;> exact ⟨by simpa [step, spec, heard, hk] using this, by simp [step, spec, heard, hk]⟩
    | timer i got ok =>
      have := R.empty (c := c) (k := k) cmd closed gone hg hh
      cases i <;> cases hk : hook c k <;> exact ⟨by simpa [step, spec, heard, hk] using this, by simp [step, spec, heard, hk]⟩
  | one ev v h w he =>
    have hsame := R.one (c := c) (k := k) ev v h w he
    cases e with
    | publish v' got ok =>
      simp [tame] at ht; subst ht
      exact ⟨by simpa [step, spec, command, publish] using hsame, by simp [step, spec, command, publish]⟩
    | play v' got ok =>
      simp [tame] at ht; subst ht
      exact ⟨by simpa [step, spec, command, play] using hsame, by simp [step, spec, command, play]⟩
    | close got =>
      have hb : c.bypass = false := by unfold hook at he; split at he <;> simp_all
      have := R.over (c := c) (k := k) ev v (ctxFor k ev h w).hnd false false he
      refine ⟨?_, ?_⟩
      · cases w <;> simpa [step, spec, close, ends, hb, done, ctxFor, setCtx] using this
      · cases w <;> cases got <;> simp [step, spec, close, ends, hb, done, ctxFor, setCtx, he, callOut]
    | gone got =>
      have hb : c.bypass = false := by unfold hook at he; split at he <;> simp_all
      have := R.over (c := c) (k := k) ev v (ctxFor k ev h w).hnd false true he
      refine ⟨?_, ?_⟩
      · cases w <;> simpa [step, spec, close, ends, hb, done, ctxFor, setCtx] using this
      · cases w <;> cases got <;> simp [step, spec, close, ends, hb, done, ctxFor, setCtx, he, callOut]
    | answer i code ok =>
      cases i with
      | succ i => exact ⟨by simpa [step, spec] using hsame, by simp [step, spec]⟩
      | zero =>
        by_cases hw : w = .verdict ∨ w = .report
        · have := sim_answered c k ev v h w he (some code) ok hw
          rcases hw with rfl | rfl <;> simpa [step, spec, ctxFor] using this
        · cases w <;> simp at hw <;> exact ⟨by simpa [step, spec, heard, he, ctxFor] using hsame, by simp [step, spec, heard, he, ctxFor]⟩
    | fail i ok =>
      cases i with
      | succ i => exact ⟨by simpa [step, spec] using hsame, by simp [step, spec]⟩
      | zero =>
        by_cases hw : w = .verdict ∨ w = .report
        · have := sim_answered c k ev v h w he none ok hw
          rcases hw with rfl | rfl <;> simpa [step, spec, ctxFor] using this
        · cases w <;> simp at hw <;> exact ⟨by simpa [step, spec, heard, he, ctxFor] using hsame, by simp [step, spec, heard, he, ctxFor]⟩
    | timer i got ok =>
      cases i with
      | succ i => exact ⟨by simpa [step, spec] using hsame, by simp [step, spec]⟩
      | zero =>
        cases w with
        | nothing => exact ⟨by simpa [step, spec, heard, he, ctxFor, fire] using hsame, by simp [step, spec, heard, he, ctxFor, fire]⟩
        | verdict =>
          have := sim_answered c k ev v h .verdict he none ok (.inl rfl)
          simpa [step, spec, ctxFor, fire] using this
        | report =>
          have := sim_answered c k ev v h .report he none ok (.inr rfl)
          simpa [step, spec, ctxFor, fire] using this
        | pause =>
          have h1 := R.one (c := c) (k := k) ev v .update .report he
          have h2 := R.one (c := c) (k := k) ev v .update .nothing he
          cases got
          · exact ⟨by simpa [step, spec, ctxFor, fire, create, setCtx] using h2, by simp [step, spec, ctxFor, fire, callOut]⟩
          · exact ⟨by simpa [step, spec, ctxFor, fire, create, setCtx] using h1, by simp [step, spec, ctxFor, fire, callOut]⟩
  | over ev v h freed gone he =>
    have hsame := R.over (c := c) (k := k) ev v h freed gone he
    cases e with
    | publish v' got ok => simp [tame] at ht
    | play v' got ok => simp [tame] at ht
    | close got => cases gone <;> exact ⟨by simpa [step, spec, close, ends] using hsame, by simp [step, spec, close, ends]⟩
    | gone got =>
      have hgone := R.over (c := c) (k := k) ev v h freed true he
      cases gone <;> exact ⟨by simpa [step, spec, close, ends] using hgone, by simp [step, spec, close, ends]⟩
    | answer i code ok => cases i <;> exact ⟨by simpa [step, spec, heard, he] using hsame, by simp [step, spec, heard, he]⟩
    | fail i ok => cases i <;> exact ⟨by simpa [step, spec, heard, he] using hsame, by simp [step, spec, heard, he]⟩
    | timer i got ok =>
      have hfree := R.over (c := c) (k := k) ev v h true gone he
      cases i with
      | succ i => exact ⟨by simpa [step, spec] using hsame, by simp [step, spec]⟩
      | zero =>
        cases freed
        · exact ⟨by simpa [step, spec, heard, he, fire, setCtx] using hfree, by simp [step, spec, heard, he, fire]⟩
        · exact ⟨by simpa [step, spec, heard, he] using hsame, by simp [step, spec, heard, he]⟩

/-- The stream is closed by this event. -/
def Event.ends : Event → Bool
  | .close _ => true
  | .gone _ => true
  | _ => false

theorem tame_cons (k : Kind) (cl : Bool) (e : Event) (es : List Event) (h : tame k cl (e :: es) = true) :
    tame k cl [e] = true ∧ tame k (cl || e.ends) es = true := by
  cases e <;> simp only [tame, Event.ends, Bool.or_false, Bool.or_true, Bool.and_true, Bool.and_eq_true] at h ⊢
  · exact ⟨h.1, h.2⟩
  · exact ⟨h.1, h.2⟩
  · exact ⟨trivial, h⟩
  · exact ⟨trivial, h⟩
  · exact ⟨trivial, h⟩
  · exact ⟨trivial, h⟩
  · exact ⟨trivial, h⟩

theorem heard_flags (c : Cfg) (k : Kind) (p : Sp) (code : Option Nat) (ok : Bool) :
    (heard c k p code ok).1.closed = p.closed ∧ (heard c k p code ok).1.gone = p.gone := by
  unfold heard
  split
  · unfold verdict; split <;> (try split) <;> simp
  · simp
  · simp

theorem command_flags (c : Cfg) (k : Kind) (p : Sp) (v : Nat) (got ok : Bool) :
    (command c k p v got ok).1.closed = p.closed ∧ (command c k p v got ok).1.gone = p.gone := by
  unfold command
  split
  · simp
  · split
    · simp
    · split <;> simp

theorem ends_closed (c : Cfg) (k : Kind) (p : Sp) (got : Bool) : (ends c k p got).1.closed = true := by
  unfold ends; split
  · assumption
  · rfl

theorem spec_closed (c : Cfg) (k : Kind) (p : Sp) (e : Event) (hg : p.gone = true → p.closed = true) :
    (spec c k p e).1.closed = (p.closed || e.ends) ∧ ((spec c k p e).1.gone = true → (spec c k p e).1.closed = true) := by
  cases e with
  | publish v got ok => have := command_flags c k p v got ok; simp [spec, Event.ends, this.1, this.2]; exact hg
  | play v got ok => have := command_flags c k p v got ok; simp [spec, Event.ends, this.1, this.2]; exact hg
  | answer i code ok =>
    cases i
    · have := heard_flags c k p (some code) ok; simp [spec, Event.ends, this.1, this.2]; exact hg
    · simp [spec, Event.ends]; exact hg
  | fail i ok =>
    cases i
    · have := heard_flags c k p none ok; simp [spec, Event.ends, this.1, this.2]; exact hg
    · simp [spec, Event.ends]; exact hg
  | timer i got ok =>
    cases i
    · have := heard_flags c k p none ok
      simp only [spec, Event.ends, Bool.or_false]
      split
      · split <;> exact ⟨rfl, hg⟩
      · rw [this.1, this.2]; exact ⟨rfl, hg⟩
    · simp [spec, Event.ends]; exact hg
  | close got =>
    simp only [spec, Event.ends, Bool.or_true]
    split
    · exact ⟨hg ‹_›, hg⟩
    · exact ⟨ends_closed .., fun _ => ends_closed ..⟩
  | gone got =>
    simp only [spec, Event.ends, Bool.or_true]
    split
    · exact ⟨hg ‹_›, hg⟩
    · exact ⟨ends_closed .., fun _ => ends_closed ..⟩

theorem sim_run (c : Cfg) (k : Kind) (es : List Event) (s : St) (p : Sp) (h : R c k s p) (hg : p.gone = true → p.closed = true)
    (ht : tame k p.closed es = true) :
    R c k (run c s es).1 (specRun c k p es).1 ∧ (run c s es).2 = (specRun c k p es).2 := by
  induction es generalizing s p with
  | nil => exact ⟨h, rfl⟩
  | cons e es ih =>
    obtain ⟨h1, h2⟩ := tame_cons k p.closed e es ht
    obtain ⟨r, o⟩ := sim c k s p h e h1
    obtain ⟨q1, q2⟩ := spec_closed c k p e hg
    obtain ⟨r', o'⟩ := ih _ _ r q2 (by rw [q1]; exact h2)
    exact ⟨r', by simp [run, specRun, o, o']⟩

end Verif.Notify
