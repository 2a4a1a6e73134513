import Verif.Hls.FragTime
/- Lemmas: every frame is in one fragment. -/
namespace Verif.HlsFrag

def Idle (st : St) : Prop := st.opened = false → st.cur = []

theorem close_written (cfg : Cfg) (st : St) : written (closeFragment cfg st) = written st := by
  by_cases ho : st.opened = true
  · obtain ⟨_, h2, h3⟩ := close_effect cfg st ho
    simp [written, h2, h3]
  · rw [close_closed cfg st (by simpa using ho)]

theorem close_idle {cfg st} (h : Idle st) : Idle (closeFragment cfg st) := by
  by_cases ho : st.opened = true
  · exact fun _ => (close_effect cfg st ho).2.1
  · rw [close_closed cfg st (by simpa using ho)]; exact h

theorem open_written {cfg st} (env : Env) (ts : Nat) (disc : Bool) (ho : st.opened = false) (h : Idle st) :
    written (openFragment cfg env ts disc st) = written st ∧ Idle (openFragment cfg env ts disc st) := by
  obtain ⟨h1, h2⟩ := open_effect cfg env ts disc st ho
  have hc := h ho
  rcases h2 with ⟨h2, h3⟩ | ⟨h2, _, h3, _⟩
  · exact ⟨by simp [written, h1, h3], fun _ => by rw [h3, hc]⟩
  · exact ⟨by simp [written, h1, h3, hc], fun _ => h3⟩

theorem update_written {cfg env ts b st st'} (h : Idle st) (he : update cfg env ts b st = some st') : written st' = written st ∧ Idle st' := by
  rcases update_cases he with ⟨ho, ⟨t, e⟩ | ⟨_, e⟩⟩ | ⟨ho, ⟨_, e⟩ | ⟨_, ⟨_, e⟩ | ⟨_, _, e⟩⟩⟩
  · rw [e]; exact ⟨rfl, h⟩
  · rw [e]; exact open_written env ts true ho h
  · rw [e]
    have := open_written (cfg := cfg) env ts true (close_opened cfg st) (close_idle h)
    rw [close_written] at this; exact this
  · rw [e]; exact ⟨rfl, h⟩
  · rw [e]
    have h' : Idle (setDur cfg st (sub64 ts st.fragTs)) := h
    have := open_written (cfg := cfg) env ts false (close_opened cfg _) (close_idle h')
    rw [close_written] at this; exact this

theorem written_sublist {cfg} : ∀ ops st st', Idle st → run cfg st ops = some st' → (written st').Sublist (written st ++ videos ops) := by
  intro ops
  induction ops with
  | nil => intro st st' _ he; simp only [run, Option.some.injEq] at he; rw [← he]; simp [videos]
  | cons op ops ih =>
    intro st st' h he
    simp only [run, Option.bind_eq_some_iff] at he
    obtain ⟨s, hs, e⟩ := he
    cases op with
    | video f env =>
      simp only [step, Option.map_eq_some_iff] at hs
      obtain ⟨s1, hs1, e1⟩ := hs
      obtain ⟨w, i⟩ := update_written h hs1
      by_cases ho : s1.opened = true
      · rw [if_pos ho] at e1
        have i' : Idle s := by rw [← e1]; intro c; exact absurd (ho ▸ c) (by simp)
        have w' : written s = written st ++ [f] := by rw [← e1, ← w]; simp [written]
        have := ih s st' i' e
        rw [w'] at this
        simpa [videos] using this
      · rw [if_neg ho] at e1
        have := ih s st' (e1 ▸ i) e
        rw [← e1, w] at this
        exact this.trans (List.Sublist.append (List.Sublist.refl _) (List.sublist_cons_self _ _))
    | audio ts b env =>
      obtain ⟨w, i⟩ := update_written h hs
      have := ih s st' i e
      rw [w] at this; exact this
    | close =>
      simp only [step, Option.some.injEq] at hs
      have := ih s st' (hs ▸ close_idle h) e
      rw [← hs, close_written] at this; exact this

/-- An open fragment stays open, or is replaced by another one. -/
theorem update_stays {cfg env ts b st st'} (hd : env.disk = .ok) (ho : st.opened = true) (he : update cfg env ts b st = some st') : st'.opened = true := by
  rcases update_cases he with ⟨hc, _⟩ | ⟨_, ⟨_, e⟩ | ⟨_, ⟨_, e⟩ | ⟨_, _, e⟩⟩⟩
  · rw [hc] at ho; cases ho
  · rw [e]; exact open_ok cfg env ts true _ hd
  · rw [e]; exact ho
  · rw [e]; exact open_ok cfg env ts false _ hd

theorem update_plain {cfg env ts b st st'} (hp : cfg.aligned = false) (hd : env.disk = .ok) (ho : st.opened = false) (he : update cfg env ts b st = some st') :
    st'.opened = b := by
  unfold update at he
  have hm : measure cfg ts st = (st, false, true) := by unfold measure; rw [if_neg (by simp [ho])]
  have hs : slice cfg ts b st = some (b, st) := by unfold slice; rw [if_pos hp]; simp [ho]
  rw [hm] at he
  dsimp only at he
  rw [hs] at he
  simp only [Option.map_some, Option.some.injEq] at he
  cases b with
  | true => rw [if_pos (Or.inl rfl)] at he; rw [← he]; exact open_ok cfg env ts true _ hd
  | false => rw [if_neg (by simp)] at he; rw [← he]; exact ho

theorem written_open {cfg} : ∀ ops st st', (∀ op ∈ ops, Works op) → st.opened = true → run cfg st ops = some st' →
    written st' = written st ++ videos ops := by
  intro ops
  induction ops with
  | nil => intro st st' _ _ he; simp only [run, Option.some.injEq] at he; rw [← he]; simp [videos]
  | cons op ops ih =>
    intro st st' hw ho he
    simp only [run, Option.bind_eq_some_iff] at he
    obtain ⟨s, hs, e⟩ := he
    have hw' : ∀ o ∈ ops, Works o := fun o h => hw o (List.mem_cons_of_mem _ h)
    have h0 := hw op (by simp)
    have hi : Idle st := fun c => absurd (ho ▸ c) (by simp)
    cases op with
    | video f env =>
      simp only [step, Option.map_eq_some_iff] at hs
      obtain ⟨s1, hs1, e1⟩ := hs
      have o1 := update_stays h0 ho hs1
      obtain ⟨w, i⟩ := update_written hi hs1
      rw [if_pos o1] at e1
      have := ih s st' hw' (by rw [← e1]; exact o1) e
      rw [this, ← e1]
      simp [written, videos] at w ⊢
      rw [← List.append_assoc, w, List.append_assoc]
    | audio ts b env =>
      rw [ih s st' hw' (update_stays h0 ho hs) e, (update_written hi hs).1]; rfl
    | close => exact absurd h0 (fun c => c)

theorem written_plain {cfg} (hp : cfg.aligned = false) : ∀ ops st st', (∀ op ∈ ops, Works op) → st.opened = false → st.cur = [] →
    run cfg st ops = some st' → written st' = written st ++ videos (ops.dropWhile (fun op => !mayStart op)) := by
  intro ops
  induction ops with
  | nil => intro st st' _ _ _ he; simp only [run, Option.some.injEq] at he; rw [← he]; simp [videos]
  | cons op ops ih =>
    intro st st' hw ho hc he
    have hall := hw
    have hrun := he
    simp only [run, Option.bind_eq_some_iff] at he
    obtain ⟨s, hs, e⟩ := he
    have hw' : ∀ o ∈ ops, Works o := fun o h => hw o (List.mem_cons_of_mem _ h)
    have h0 := hw op (by simp)
    have hi : Idle st := fun _ => hc
    cases op with
    | video f env =>
      simp only [step, Option.map_eq_some_iff] at hs
      obtain ⟨s1, hs1, e1⟩ := hs
      have o1 := update_plain hp h0 ho hs1
      obtain ⟨w, i⟩ := update_written hi hs1
      cases hb : f.boundary with
      | true =>
        rw [hb] at o1
        rw [if_pos o1] at e1
        have := written_open ops s st' hw' (by rw [← e1]; exact o1) e
        have hm : mayStart (.video f env) = true := hb
        rw [this, ← e1, List.dropWhile_cons_of_neg (by simp [hm])]
        simp [written, videos] at w ⊢
        rw [← List.append_assoc, w, List.append_assoc]
      | false =>
        rw [hb] at o1
        rw [if_neg (by simp [o1])] at e1
        have hm : mayStart (.video f env) = false := hb
        rw [List.dropWhile_cons_of_pos (by simp [hm]), ← w, e1]
        exact ih s st' hw' (by rw [← e1]; exact o1) (by rw [← e1]; exact i o1) e
    | audio ts b env =>
      have o1 := update_plain hp h0 ho hs
      obtain ⟨w, i⟩ := update_written hi hs
      cases b with
      | true =>
        have := written_open ops s st' hw' o1 e
        have hm : mayStart (.audio ts true env) = true := rfl
        rw [this, w, List.dropWhile_cons_of_neg (by simp [hm])]; rfl
      | false =>
        have hm : mayStart (.audio ts false env) = false := rfl
        rw [List.dropWhile_cons_of_pos (by simp [hm]), ← w]
        exact ih s st' hw' o1 (i o1) e
    | close => exact absurd h0 (fun c => c)

/-- A fragment without discontinuity before it starts with a frame that may start one. -/
structure InvH (cfg : Cfg) (st : St) : Prop where
  hDone : ∀ d ∈ st.done, d.frag.discont = false → ∃ f fs, d.frames = f :: fs ∧ f.boundary = true ∧ f.ts = d.start
  hCur : st.opened = true → (getFrag cfg st st.nfrags).discont = false → ∃ f fs, st.cur = f :: fs ∧ f.boundary = true ∧ f.ts = st.fragTs

theorem invH_close {cfg st} (h : InvH cfg st) : InvH cfg (closeFragment cfg st) := by
  by_cases ho : st.opened = true
  · obtain ⟨h1, _, h3⟩ := close_effect cfg st ho
    refine ⟨?_, by rw [h1]; intro c; cases c⟩
    rw [h3]
    intro d hd
    rcases List.mem_append.1 hd with hd | hd
    · exact h.hDone d hd
    · rw [List.mem_singleton.1 hd]; exact h.hCur ho
  · rw [close_closed cfg st (by simpa using ho)]; exact h

theorem invH_setDur {cfg st} (d : Nat) (h : InvH cfg st) : InvH cfg (setDur cfg st d) := by
  refine ⟨h.hDone, fun ho => ?_⟩
  rw [setDur_cur]; exact h.hCur ho

theorem invH_disc {cfg st} (env : Env) (ts : Nat) (ho : st.opened = false) (h : InvH cfg st) : InvH cfg (openFragment cfg env ts true st) := by
  obtain ⟨h1, h2⟩ := open_effect cfg env ts true st ho
  refine ⟨by rw [h1]; exact h.hDone, fun hop => ?_⟩
  rcases h2 with ⟨h2, _⟩ | ⟨_, _, _, i, k, h4⟩
  · rw [h2] at hop; cases hop
  · rw [h4]; intro c; cases c

/-- `update` keeps the invariant, except that it may have just cut: then nothing is in the new fragment yet. -/
theorem invH_update {cfg env ts b st st'} (h : InvH cfg st) (he : update cfg env ts b st = some st') :
    InvH cfg st' ∨ (b = true ∧ (∀ d ∈ st'.done, d.frag.discont = false → ∃ f fs, d.frames = f :: fs ∧ f.boundary = true ∧ f.ts = d.start) ∧
      (st'.opened = true → st'.cur = [] ∧ st'.fragTs = ts)) := by
  rcases update_cases he with ⟨ho, ⟨t, e⟩ | ⟨_, e⟩⟩ | ⟨ho, ⟨_, e⟩ | ⟨_, ⟨_, e⟩ | ⟨hb, _, e⟩⟩⟩
  · rw [e]; exact Or.inl ⟨h.hDone, fun c => absurd (ho ▸ c) (by simp)⟩
  · rw [e]; exact Or.inl (invH_disc env ts ho h)
  · rw [e]; exact Or.inl (invH_disc env ts (close_opened cfg st) (invH_close h))
  · rw [e]; exact Or.inl (invH_setDur _ h)
  · rw [e]
    obtain ⟨h1, h2⟩ := open_effect cfg env ts false (closeFragment cfg (setDur cfg st (sub64 ts st.fragTs))) (close_opened cfg _)
    refine Or.inr ⟨hb, by rw [h1]; exact (invH_close (invH_setDur _ h)).hDone, fun hop => ?_⟩
    rcases h2 with ⟨h2, _⟩ | ⟨_, h3, h5, _⟩
    · rw [h2] at hop; cases hop
    · exact ⟨h5, h3⟩

theorem invH_step {cfg op st st'} (hv : VideoStarts op) (h : InvH cfg st) (he : step cfg st op = some st') : InvH cfg st' := by
  cases op with
  | video f env =>
    simp only [step, Option.map_eq_some_iff] at he
    obtain ⟨s, hs, e⟩ := he
    rcases invH_update h hs with hk | ⟨hb, h1, h2⟩
    · rw [← e]
      split
      · refine ⟨hk.hDone, fun ho hd => ?_⟩
        obtain ⟨g, gs, e1, e2, e3⟩ := hk.hCur ho hd
        exact ⟨g, gs ++ [f], by simp [e1], e2, e3⟩
      · exact hk
    · rw [← e]
      split
      · rename_i ho
        obtain ⟨c1, c2⟩ := h2 ho
        exact ⟨h1, fun _ _ => ⟨f, [], by simp [c1], hb, c2.symm⟩⟩
      · rename_i ho
        exact ⟨h1, fun c => absurd c ho⟩
  | audio ts b env =>
    rcases invH_update h he with hk | ⟨hb, _⟩
    · exact hk
    · have : b = false := hv
      rw [this] at hb; cases hb
  | close =>
    simp only [step, Option.some.injEq] at he
    rw [← he]; exact invH_close h

theorem invH_resume (cfg : Cfg) (seq : Nat) (kf : Nat → Option Nat) (old : List Frag) : InvH cfg (resume cfg seq kf old) := by
  have hr := resume_rest cfg seq kf old
  refine ⟨?_, by rw [hr.1]; intro c; cases c⟩
  rw [hr.2.1]; intro d hd; simp at hd

end Verif.HlsFrag
