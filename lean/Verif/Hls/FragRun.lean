import Verif.Hls.FragLemmas
/- Lemmas: what each part of `update` does, and invariants of every run. -/
namespace Verif.HlsFrag

/-- `closeFragment` on an open fragment. -/
theorem close_eq (cfg : Cfg) (st : St) (h : st.opened = true) : ∃ st1,
    closeFragment cfg st = { st1 with list := some (playlist cfg st1) } ∧
    st1 = nextFrag cfg { st with opened := false, done := st.done ++ [⟨getFrag cfg st st.nfrags, st.fragTs, st.key, st.cur⟩], cur := [] } := by
  refine ⟨_, ?_, rfl⟩
  unfold closeFragment
  rw [if_neg (by simp [h])]

theorem close_closed (cfg : Cfg) (st : St) (h : st.opened = false) : closeFragment cfg st = st := by
  unfold closeFragment; rw [if_pos h]

theorem close_opened (cfg : Cfg) (st : St) : (closeFragment cfg st).opened = false := by
  by_cases h : st.opened = true
  · obtain ⟨st1, e, e1⟩ := close_eq cfg st h
    obtain ⟨a, b, e2⟩ := nextFrag_rest cfg { st with opened := false, done := st.done ++ [⟨getFrag cfg st st.nfrags, st.fragTs, st.key, st.cur⟩], cur := [] }
    rw [e, e1, e2]
  · have h' : st.opened = false := by simpa using h
    rw [close_closed cfg st h', h']

/-- The parts `update` is made of keep `P`. -/
structure Keeps (cfg : Cfg) (good : Env → Prop) (P : St → Prop) : Prop where
  hDur : ∀ st d, P st → st.opened = true → P (setFrag cfg st st.nfrags { getFrag cfg st st.nfrags with dur := d })
  hTs : ∀ st t, P st → st.opened = false → P { st with fragTs := t }
  hClose : ∀ st, P st → st.opened = true → P (closeFragment cfg st)
  hOpen : ∀ st env ts b, good env → P st → st.opened = false → P (openFragment cfg env ts b st)
  hCur : ∀ st c, P st → st.opened = true → P { st with cur := c }

def GoodOp (good : Env → Prop) : Op → Prop
  | .video _ env => good env
  | .audio _ _ env => good env
  | .close => True

theorem Keeps.update {cfg good P} (k : Keeps cfg good P) {env ts b st st'} (hg : good env) (h : P st) (he : update cfg env ts b st = some st') : P st' := by
  unfold HlsFrag.update at he
  obtain ⟨m, hm⟩ : ∃ m, m = measure cfg ts st := ⟨_, rfl⟩
  rw [← hm] at he
  have h1 : P m.1 := by
    rw [hm]; unfold measure
    split
    · dsimp only
      split
      · exact h
      · exact k.hDur st _ h (by assumption)
    · exact h
  obtain ⟨st1, force, disc⟩ := m
  dsimp only at he h1
  cases hs : slice cfg ts b st1 with
  | none => rw [hs] at he; simp at he
  | some r =>
    obtain ⟨b', st2⟩ := r
    have h2 : P st2 := by
      unfold slice at hs
      split at hs
      · simp only [Option.some.injEq, Prod.mk.injEq] at hs; rw [← hs.2]; exact h1
      · dsimp only at hs
        split at hs
        · simp at hs
        · split at hs
          · simp only [Option.some.injEq, Prod.mk.injEq] at hs; rw [← hs.2]; exact h1
          · rename_i _ ho
            split at hs
            · simp only [Option.some.injEq, Prod.mk.injEq] at hs; rw [← hs.2]; exact k.hTs st1 ts h1 (by simpa using ho)
            · simp only [Option.some.injEq, Prod.mk.injEq] at hs; rw [← hs.2]; exact h1
    rw [hs] at he
    simp only [Option.map_some, Option.some.injEq] at he
    rw [← he]
    split
    · refine k.hOpen _ env ts disc hg ?_ (close_opened cfg st2)
      by_cases ho : st2.opened = true
      · exact k.hClose st2 h2 ho
      · rw [close_closed cfg st2 (by simpa using ho)]; exact h2
    · exact h2

theorem Keeps.step {cfg good P} (k : Keeps cfg good P) {st op st'} (hg : GoodOp good op) (h : P st) (he : step cfg st op = some st') : P st' := by
  cases op with
  | video f env =>
    simp only [HlsFrag.step, Option.map_eq_some_iff] at he
    obtain ⟨s, hs, e⟩ := he
    have hp := k.update hg h hs
    rw [← e]
    split
    · exact k.hCur s _ hp (by assumption)
    · exact hp
  | audio ts b env => exact k.update hg h he
  | close =>
    simp only [HlsFrag.step, Option.some.injEq] at he
    rw [← he]
    by_cases ho : st.opened = true
    · exact k.hClose st h ho
    · rw [close_closed cfg st (by simpa using ho)]; exact h

theorem Keeps.run {cfg good P} (k : Keeps cfg good P) : ∀ {ops st st'}, (∀ op ∈ ops, GoodOp good op) → P st → run cfg st ops = some st' → P st' := by
  intro ops
  induction ops with
  | nil => intro st st' _ h he; simp only [HlsFrag.run, Option.some.injEq] at he; rw [← he]; exact h
  | cons op ops ih =>
    intro st st' hg h he
    simp only [HlsFrag.run, Option.bind_eq_some_iff] at he
    obtain ⟨s, hs, e⟩ := he
    exact ih (fun o ho => hg o (List.mem_cons_of_mem _ ho)) (k.step (hg op (by simp)) h hs) e

/-- What `newKey` leaves alone. -/
theorem newKey_rest (cfg : Cfg) (env : Env) (id : Nat) (st : St) : ∃ a b c d, (newKey cfg env id st).1 = { st with keyFrags := a, keyId := b, key := c, keyFiles := d } := by
  unfold newKey
  split
  · exact ⟨_, _, _, _, rfl⟩
  · split
    · dsimp only
      split
      · exact ⟨_, _, _, _, rfl⟩
      · exact ⟨_, _, _, _, rfl⟩
    · split
      · exact ⟨_, _, _, _, rfl⟩
      · exact ⟨_, _, _, _, rfl⟩

/-- `openFragment` on a closed one: either nothing but the key changes, or the fragment is opened. -/
theorem open_cases (cfg : Cfg) (env : Env) (ts : Nat) (disc : Bool) (st : St) (h : st.opened = false) :
    openFragment cfg env ts disc st = st ∨
    ∃ st1, st1 = (newKey cfg env (fragmentId cfg st ts env.now) st).1 ∧
      (openFragment cfg env ts disc st = st1 ∨
       ((newKey cfg env (fragmentId cfg st ts env.now) st).2 = true ∧
        openFragment cfg env ts disc st = { (setFrag cfg { st1 with opened := true, opens := st1.opens ++ [fragmentId cfg st ts env.now], cur := [] } st1.nfrags
          { id := fragmentId cfg st ts env.now, keyId := st1.keyId, dur := 0, discont := disc }) with fragTs := ts })) := by
  unfold openFragment
  rw [if_neg (by simp [h])]
  split
  · exact Or.inl rfl
  · refine Or.inr ⟨_, rfl, ?_⟩
    dsimp only
    split
    · exact Or.inl rfl
    · split
      · exact Or.inl rfl
      · rename_i hk _
        exact Or.inr ⟨by simpa using hk, rfl⟩

def all (old : List Frag) (st : St) : List Frag := old ++ st.done.map (·.frag)

/-- The ring and the playlist show the window. -/
structure InvW (cfg : Cfg) (seq : Nat) (old : List Frag) (st : St) : Prop where
  hW : Window cfg seq (all old st) st
  hL : (st.done = [] ∧ st.list = none) ∨ ∃ p, st.list = some p ∧ Shows cfg.win seq (all old st) p ∧ TargetOk p ∧ cfg.fraglen / 1000 ≤ p.target

theorem invW_keeps (cfg : Cfg) (seq : Nat) (old : List Frag) : Keeps cfg (fun _ => True) (InvW cfg seq old) where
  hDur st d h _ := ⟨h.hW.set _, h.hL⟩
  hTs st t h _ := ⟨h.hW.congr rfl rfl rfl, h.hL⟩
  hCur st c h _ := ⟨h.hW.congr rfl rfl rfl, h.hL⟩
  hClose st h ho := by
    obtain ⟨st1, e, e1⟩ := close_eq cfg st ho
    obtain ⟨a, b, e2⟩ := nextFrag_rest cfg { st with opened := false, done := st.done ++ [⟨getFrag cfg st st.nfrags, st.fragTs, st.key, st.cur⟩], cur := [] }
    have hw : Window cfg seq (all old st1) st1 := by
      have h0 : Window cfg seq (all old st) { st with opened := false, done := st.done ++ [⟨getFrag cfg st st.nfrags, st.fragTs, st.key, st.cur⟩], cur := [] } := h.hW.congr rfl rfl rfl
      have := h0.next
      rw [← e1] at this
      have ea : all old st1 = all old st ++ [getFrag cfg st st.nfrags] := by
        rw [e1, e2]; simp [all]
      rw [ea]
      exact this
    rw [e]
    exact ⟨hw.congr rfl rfl rfl, Or.inr ⟨_, rfl, hw.shows, playlist_target cfg st1⟩⟩
  hOpen st env ts b _ h ho := by
    rcases open_cases cfg env ts b st ho with e | ⟨st1, e1, e | ⟨_, e⟩⟩
    · rw [e]; exact h
    · obtain ⟨a, b, c, d, e2⟩ := newKey_rest cfg env (fragmentId cfg st ts env.now) st
      rw [e, e1, e2]
      exact ⟨h.hW.congr rfl rfl rfl, h.hL⟩
    · obtain ⟨a, b, c, d, e2⟩ := newKey_rest cfg env (fragmentId cfg st ts env.now) st
      rw [e, e1, e2]
      have h0 : Window cfg seq (all old st) { st with keyFrags := a, keyId := b, key := c, keyFiles := d, opened := true, opens := st.opens ++ [fragmentId cfg st ts env.now], cur := [] } := h.hW.congr rfl rfl rfl
      exact ⟨(h0.set _).congr rfl rfl rfl, h.hL⟩

theorem invW_resume (cfg : Cfg) (seq : Nat) (kf : Nat → Option Nat) (old : List Frag) : InvW cfg seq old (resume cfg seq kf old) := by
  have hr := resume_rest cfg seq kf old
  have e : all old (resume cfg seq kf old) = old := by rw [all, hr.2.1]; simp
  exact ⟨by rw [e]; exact window_resume cfg seq kf old, Or.inl ⟨hr.2.1, hr.2.2.2.2.1⟩⟩

/-- The names of the files: consecutive numbers. -/
structure InvI (cfg : Cfg) (seq : Nat) (old : List Frag) (st : St) : Prop where
  hW : InvW cfg seq old st
  hO : st.opens = (List.range (st.done.length + if st.opened then 1 else 0)).map (seq + old.length + ·)
  hD : st.done.map (·.frag.id) = (List.range st.done.length).map (seq + old.length + ·)
  hC : st.opened = true → (getFrag cfg st st.nfrags).id = seq + old.length + st.done.length

theorem fragmentId_seq {cfg seq old st} (hn : cfg.naming = .sequential) (hg : cfg.gran = 0) (h : InvW cfg seq old st) (ts now : Nat) :
    fragmentId cfg st ts now = seq + old.length + st.done.length := by
  have := h.hW.count
  simp only [all, List.length_append, List.length_map] at this
  simp only [fragmentId, hn, hg]
  simp
  omega

theorem invI_keeps (cfg : Cfg) (seq : Nat) (old : List Frag) (hn : cfg.naming = .sequential) (hg : cfg.gran = 0) :
    Keeps cfg (fun _ => True) (InvI cfg seq old) where
  hDur st d h ho := ⟨(invW_keeps cfg seq old).hDur st d h.hW ho, h.hO, h.hD, fun _ => by
    have e := getFrag_setFrag_same cfg st st.nfrags { getFrag cfg st st.nfrags with dur := d }
    have := h.hC ho
    show (getFrag cfg (setFrag cfg st st.nfrags { getFrag cfg st st.nfrags with dur := d }) st.nfrags).id = _
    rw [e]; exact this⟩
  hTs st t h ho := ⟨(invW_keeps cfg seq old).hTs st t h.hW ho, h.hO, h.hD, h.hC⟩
  hCur st c h ho := ⟨(invW_keeps cfg seq old).hCur st c h.hW ho, h.hO, h.hD, h.hC⟩
  hClose st h ho := by
    have hw := (invW_keeps cfg seq old).hClose st h.hW ho
    obtain ⟨st1, e, e1⟩ := close_eq cfg st ho
    obtain ⟨a, b, e2⟩ := nextFrag_rest cfg { st with opened := false, done := st.done ++ [⟨getFrag cfg st st.nfrags, st.fragTs, st.key, st.cur⟩], cur := [] }
    refine ⟨hw, ?_, ?_, ?_⟩
    · rw [e, e1, e2]
      have := h.hO
      rw [ho] at this
      simpa using this
    · rw [e, e1, e2]
      simp [List.range_succ, h.hD, h.hC ho]
    · rw [close_opened]; intro c; cases c
  hOpen st env ts b hgd h ho := by
    have hw := (invW_keeps cfg seq old).hOpen st env ts b hgd h.hW ho
    have hid := fragmentId_seq hn hg h.hW ts env.now
    rcases open_cases cfg env ts b st ho with e | ⟨st1, e1, e | ⟨_, e⟩⟩
    · rw [e]; exact h
    · obtain ⟨a, b, c, d, e2⟩ := newKey_rest cfg env (fragmentId cfg st ts env.now) st
      refine ⟨hw, ?_, ?_, ?_⟩
      · rw [e, e1, e2]; exact h.hO
      · rw [e, e1, e2]; exact h.hD
      · rw [e, e1, e2]; exact h.hC
    · obtain ⟨a, b', c, d, e2⟩ := newKey_rest cfg env (fragmentId cfg st ts env.now) st
      refine ⟨hw, ?_, ?_, ?_⟩
      · have := h.hO
        rw [ho] at this
        rw [e, e1, e2, hid]
        simp [setFrag, this, List.range_succ]
      · rw [e, e1, e2]; exact h.hD
      · intro _
        rw [e, e1, e2, hid]
        have := getFrag_setFrag_same cfg { st with keyFrags := a, keyId := b', key := c, keyFiles := d, opened := true, opens := st.opens ++ [seq + old.length + st.done.length], cur := [] } st.nfrags
          { id := seq + old.length + st.done.length, keyId := b', dur := 0, discont := b }
        exact congrArg Frag.id this

theorem invI_resume (cfg : Cfg) (seq : Nat) (kf : Nat → Option Nat) (old : List Frag) : InvI cfg seq old (resume cfg seq kf old) := by
  have hr := resume_rest cfg seq kf old
  refine ⟨invW_resume cfg seq kf old, ?_, ?_, ?_⟩
  · rw [hr.2.2.1, hr.2.1, hr.1]; rfl
  · rw [hr.2.1]; rfl
  · rw [hr.1]; intro c; cases c

end Verif.HlsFrag
