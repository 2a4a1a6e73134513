import Verif.Hls.FragRun
/- Lemmas: times of fragments and the frames in them. -/
namespace Verif.HlsFrag

def setDur (cfg : Cfg) (st : St) (d : Nat) : St := setFrag cfg st st.nfrags { getFrag cfg st st.nfrags with dur := d }

theorem setDur_cur (cfg : Cfg) (st : St) (d : Nat) : getFrag cfg (setDur cfg st d) (setDur cfg st d).nfrags = { getFrag cfg st st.nfrags with dur := d } :=
  getFrag_setFrag_same cfg st st.nfrags _

def Forced (cfg : Cfg) (ts t0 : Nat) : Prop := diff ts t0 > (cfg.maxFraglen * 90 : Nat) ∨ diff ts t0 < -90000

/-- When a regular cut is allowed. -/
def CutOk (cfg : Cfg) (start next dur : Nat) : Prop :=
  if cfg.aligned = false then cfg.fraglen * 90 ≤ dur else start / (cfg.fraglen * 90 % 2 ^ 64) ≠ next / (cfg.fraglen * 90 % 2 ^ 64)

/-- What `update` does. -/
theorem update_cases {cfg env ts b st st'} (he : update cfg env ts b st = some st') :
    (st.opened = false ∧ ((∃ t, st' = { st with fragTs := t }) ∨ (b = true ∧ st' = openFragment cfg env ts true st))) ∨
    (st.opened = true ∧
      ((Forced cfg ts st.fragTs ∧ st' = openFragment cfg env ts true (closeFragment cfg st)) ∨
       (¬ Forced cfg ts st.fragTs ∧
         (((b = true → ¬ CutOk cfg st.fragTs ts (sub64 ts st.fragTs)) ∧ st' = setDur cfg st (sub64 ts st.fragTs)) ∨
          (b = true ∧ CutOk cfg st.fragTs ts (sub64 ts st.fragTs) ∧
            st' = openFragment cfg env ts false (closeFragment cfg (setDur cfg st (sub64 ts st.fragTs)))))))) := by
  unfold update at he
  by_cases ho : st.opened = true
  · refine Or.inr ⟨ho, ?_⟩
    by_cases hf : Forced cfg ts st.fragTs
    · refine Or.inl ⟨hf, ?_⟩
      have hm : measure cfg ts st = (st, true, true) := by
        unfold measure; rw [if_pos ho]; exact if_pos hf
      rw [hm] at he
      dsimp only at he
      cases hs : slice cfg ts b st with
      | none => rw [hs] at he; simp at he
      | some r =>
        obtain ⟨b', st2⟩ := r
        have h2 : st2 = st := by
          unfold slice at hs
          split at hs
          · simp only [Option.some.injEq, Prod.mk.injEq] at hs; exact hs.2.symm
          · dsimp only at hs
            split at hs
            · simp at hs
            · simp only [Option.some.injEq, Prod.mk.injEq] at hs; exact hs.2.symm
        rw [hs] at he
        simp only [Option.map_some, Option.some.injEq] at he
        rw [if_pos (Or.inr trivial), h2] at he
        exact he.symm
    · refine Or.inr ⟨hf, ?_⟩
      have hm : measure cfg ts st = (setDur cfg st (sub64 ts st.fragTs), false, false) := by
        unfold measure; rw [if_pos ho]; exact if_neg hf
      rw [hm] at he
      dsimp only at he
      obtain ⟨st1, h1⟩ : ∃ st1, st1 = setDur cfg st (sub64 ts st.fragTs) := ⟨_, rfl⟩
      rw [← h1] at he ⊢
      have ho1 : st1.opened = true := by rw [h1]; exact ho
      have ht1 : st1.fragTs = st.fragTs := by rw [h1]; rfl
      have hd1 : (getFrag cfg st1 st1.nfrags).dur = sub64 ts st.fragTs := by rw [h1, setDur_cur]
      have key : ∀ b' st2, slice cfg ts b st1 = some (b', st2) → st2 = st1 ∧ (b' = true → b = true ∧ CutOk cfg st.fragTs ts (sub64 ts st.fragTs)) ∧
          (b' = false → b = true → ¬ CutOk cfg st.fragTs ts (sub64 ts st.fragTs)) := by
        intro b' st2 hs
        unfold slice at hs
        split at hs
        · rename_i hal
          simp only [Option.some.injEq, Prod.mk.injEq] at hs
          refine ⟨hs.2.symm, fun hb => ?_, fun hb b1 => ?_⟩
          rotate_left
          · rw [← hs.1, ho1, hd1, b1] at hb
            unfold CutOk
            rw [if_pos hal]
            simp at hb
            omega
          rw [← hs.1, ho1, hd1] at hb
          simp only [Bool.and_eq_true, Bool.not_eq_true', Bool.true_and, decide_eq_false_iff_not] at hb
          refine ⟨hb.1, ?_⟩
          unfold CutOk
          rw [if_pos hal]
          omega
        · rename_i hal
          dsimp only at hs
          split at hs
          · simp at hs
          · simp only [Option.some.injEq, Prod.mk.injEq] at hs
            refine ⟨hs.2.symm, fun hb => ?_, fun hb b1 => ?_⟩
            rotate_left
            · rw [← hs.1, ht1, b1] at hb
              unfold CutOk
              rw [if_neg hal]
              simpa using hb
            rw [← hs.1, ht1] at hb
            simp only [Bool.and_eq_true, Bool.not_eq_true', decide_eq_false_iff_not] at hb
            refine ⟨hb.1, ?_⟩
            unfold CutOk
            rw [if_neg hal]
            exact hb.2
      cases hs : slice cfg ts b st1 with
      | none => rw [hs] at he; simp at he
      | some r =>
        obtain ⟨b', st2⟩ := r
        obtain ⟨e2, hb', hb2⟩ := key b' st2 hs
        rw [hs] at he
        simp only [Option.map_some, Option.some.injEq] at he
        cases b' with
        | true =>
          rw [if_pos (Or.inl rfl), e2] at he
          exact Or.inr ⟨(hb' rfl).1, (hb' rfl).2, he.symm⟩
        | false =>
          rw [if_neg (by simp), e2] at he
          exact Or.inl ⟨hb2 rfl, he.symm⟩
  · have ho' : st.opened = false := by simpa using ho
    refine Or.inl ⟨ho', ?_⟩
    have hm : measure cfg ts st = (st, false, true) := by
      unfold measure; rw [if_neg ho]
    rw [hm] at he
    dsimp only at he
    have key : ∀ b' st2, slice cfg ts b st = some (b', st2) → (b' = false ∧ ∃ t, st2 = { st with fragTs := t }) ∨ (b' = b ∧ st2 = st) := by
      intro b' st2 hs
      unfold slice at hs
      split at hs
      · simp only [Option.some.injEq, Prod.mk.injEq, ho', Bool.false_and, Bool.not_false, Bool.and_true] at hs
        exact Or.inr ⟨hs.1.symm, hs.2.symm⟩
      · dsimp only at hs
        split at hs
        · simp at hs
        · split at hs
          · simp only [Option.some.injEq, Prod.mk.injEq] at hs; exact Or.inl ⟨hs.1.symm, _, hs.2.symm⟩
          · simp only [Option.some.injEq, Prod.mk.injEq] at hs; exact Or.inr ⟨hs.1.symm, hs.2.symm⟩
    cases hs : slice cfg ts b st with
    | none => rw [hs] at he; simp at he
    | some r =>
      obtain ⟨b', st2⟩ := r
      rw [hs] at he
      simp only [Option.map_some, Option.some.injEq] at he
      rcases key b' st2 hs with ⟨rfl, t, e⟩ | ⟨rfl, e⟩
      · rw [if_neg (by simp), e] at he
        exact Or.inl ⟨t, he.symm⟩
      · cases b' with
        | true => rw [if_pos (Or.inl rfl), e, close_closed cfg st ho'] at he; exact Or.inr ⟨rfl, he.symm⟩
        | false => rw [if_neg (by simp), e] at he; exact Or.inl ⟨st.fragTs, he.symm⟩

/-- What opening does to the times. -/
theorem open_effect (cfg : Cfg) (env : Env) (ts : Nat) (disc : Bool) (st : St) (h : st.opened = false) :
    (openFragment cfg env ts disc st).done = st.done ∧
    (((openFragment cfg env ts disc st).opened = false ∧ (openFragment cfg env ts disc st).cur = st.cur) ∨
     ((openFragment cfg env ts disc st).opened = true ∧ (openFragment cfg env ts disc st).fragTs = ts ∧ (openFragment cfg env ts disc st).cur = [] ∧
      ∃ i k, getFrag cfg (openFragment cfg env ts disc st) (openFragment cfg env ts disc st).nfrags = ⟨i, k, 0, disc⟩)) := by
  rcases open_cases cfg env ts disc st h with e | ⟨st1, e1, e | ⟨_, e⟩⟩
  · rw [e]; exact ⟨rfl, Or.inl ⟨h, rfl⟩⟩
  · obtain ⟨a, b, c, d, e2⟩ := newKey_rest cfg env (fragmentId cfg st ts env.now) st
    rw [e, e1, e2]; exact ⟨rfl, Or.inl ⟨h, rfl⟩⟩
  · obtain ⟨a, b, c, d, e2⟩ := newKey_rest cfg env (fragmentId cfg st ts env.now) st
    rw [e, e1, e2]
    refine ⟨rfl, Or.inr ⟨rfl, rfl, rfl, fragmentId cfg st ts env.now, b, ?_⟩⟩
    exact getFrag_setFrag_same cfg { st with keyFrags := a, keyId := b, key := c, keyFiles := d, opened := true, opens := st.opens ++ [fragmentId cfg st ts env.now], cur := [] } st.nfrags _

/-- A fragment is opened if the disk lets it. -/
theorem open_ok (cfg : Cfg) (env : Env) (ts : Nat) (disc : Bool) (st : St) (hd : env.disk = .ok) : (openFragment cfg env ts disc st).opened = true := by
  unfold openFragment
  by_cases h : st.opened = true
  · rw [if_pos h]; exact h
  · rw [if_neg h, if_neg (by rw [hd]; decide)]
    dsimp only
    have hk : (newKey cfg env (fragmentId cfg st ts env.now) st).2 = true := by
      unfold newKey
      split
      · rfl
      · split
        · dsimp only; rw [if_neg (by rw [hd]; decide)]
        · split <;> rfl
    rw [if_neg (by rw [hk]; decide), if_neg (by rw [hd]; decide)]
    rfl

theorem close_effect (cfg : Cfg) (st : St) (h : st.opened = true) :
    (closeFragment cfg st).opened = false ∧ (closeFragment cfg st).cur = [] ∧
    (closeFragment cfg st).done = st.done ++ [⟨getFrag cfg st st.nfrags, st.fragTs, st.key, st.cur⟩] := by
  obtain ⟨st1, e, e1⟩ := close_eq cfg st h
  obtain ⟨a, b, e2⟩ := nextFrag_rest cfg { st with opened := false, done := st.done ++ [⟨getFrag cfg st st.nfrags, st.fragTs, st.key, st.cur⟩], cur := [] }
  rw [e, e1, e2]
  exact ⟨rfl, rfl, rfl⟩

theorem sub64_add (ts t : Nat) (h : ts < 2 ^ 64) : (t + sub64 ts t) % 2 ^ 64 = ts := by
  unfold sub64; omega

theorem sub64_le (ts t : Nat) (h : t ≤ ts) (hs : ts < 2 ^ 63) : sub64 ts t = ts - t := by
  unfold sub64; omega

theorem diff_le (ts t : Nat) (h : t ≤ ts) (hs : ts < 2 ^ 63) : diff ts t = ((ts - t : Nat) : Int) := by
  unfold diff
  have e : (ts + (2 ^ 64 - t % 2 ^ 64)) % 2 ^ 64 = ts - t := by omega
  dsimp only
  rw [e, if_pos (by omega)]

/-- Relation of a fragment and the next one without a discontinuity between. -/
def Joined (cfg : Cfg) (a : Done) (disc : Bool) (start : Nat) : Prop :=
  disc = false → (a.start + a.frag.dur) % 2 ^ 64 = start ∧ CutOk cfg a.start start a.frag.dur

theorem adjacent_snoc {α : Type} {R : α → α → Prop} {l : List α} {x : α} (h : Adjacent R l) (hx : ∀ a, l.getLast? = some a → R a x) : Adjacent R (l ++ [x]) := by
  intro pre a b post e
  rcases List.eq_nil_or_concat post with rfl | ⟨q, y, rfl⟩
  · have e' : l ++ [x] = (pre ++ [a]) ++ [b] := by simpa using e
    have := List.append_inj' e' rfl
    have hb : x = b := by simpa using this.2
    rw [← hb]
    apply hx
    rw [this.1]; simp
  · have e' : l ++ [x] = (pre ++ a :: b :: q) ++ [y] := by simpa using e
    have := List.append_inj' e' rfl
    exact h pre a b q this.1

/-- Fragments without discontinuity between them join up. -/
structure InvG (cfg : Cfg) (st : St) : Prop where
  hAdj : Adjacent (fun a b => Joined cfg a b.frag.discont b.start) st.done
  hCur : st.opened = true → ∀ a, st.done.getLast? = some a → Joined cfg a (getFrag cfg st st.nfrags).discont st.fragTs

theorem invG_close {cfg st} (h : InvG cfg st) : InvG cfg (closeFragment cfg st) := by
  by_cases ho : st.opened = true
  · obtain ⟨h1, _, h3⟩ := close_effect cfg st ho
    refine ⟨?_, by rw [h1]; intro c; cases c⟩
    rw [h3]
    exact adjacent_snoc h.hAdj (h.hCur ho)
  · rw [close_closed cfg st (by simpa using ho)]; exact h

theorem invG_open {cfg st} (env : Env) (ts : Nat) (disc : Bool) (ho : st.opened = false) (h : InvG cfg st)
    (hj : ∀ a, st.done.getLast? = some a → Joined cfg a disc ts) : InvG cfg (openFragment cfg env ts disc st) := by
  obtain ⟨h1, h2⟩ := open_effect cfg env ts disc st ho
  refine ⟨by rw [h1]; exact h.hAdj, ?_⟩
  intro hop
  rcases h2 with ⟨h2, _⟩ | ⟨_, h3, _, i, k, h4⟩
  · rw [h2] at hop; cases hop
  · rw [h1, h3, h4]; exact hj

theorem invG_setDur {cfg st} (d : Nat) (h : InvG cfg st) : InvG cfg (setDur cfg st d) := by
  refine ⟨h.hAdj, fun ho => ?_⟩
  rw [setDur_cur]
  exact h.hCur ho

theorem invG_update {cfg env ts b st st'} (hts : ts < 2 ^ 63) (h : InvG cfg st) (he : update cfg env ts b st = some st') : InvG cfg st' := by
  rcases update_cases he with ⟨ho, ⟨t, e⟩ | ⟨_, e⟩⟩ | ⟨ho, ⟨_, e⟩ | ⟨_, ⟨_, e⟩ | ⟨_, hc, e⟩⟩⟩
  · rw [e]; exact ⟨h.hAdj, fun c => absurd (ho ▸ c) (by simp)⟩
  · rw [e]; exact invG_open env ts true ho h (fun a _ c => absurd c (by simp))
  · rw [e]; exact invG_open env ts true (close_opened cfg st) (invG_close h) (fun a _ c => absurd c (by simp))
  · rw [e]; exact invG_setDur _ h
  · rw [e]
    refine invG_open env ts false (close_opened cfg _) (invG_close (invG_setDur _ h)) ?_
    intro a ha _
    rw [(close_effect cfg (setDur cfg st (sub64 ts st.fragTs)) ho).2.2, setDur_cur] at ha
    simp only [List.getLast?_concat, Option.some.injEq] at ha
    rw [← ha]
    exact ⟨sub64_add ts st.fragTs (by omega), hc⟩

theorem invG_step {cfg op st st'} (hts : ∀ t, opTs op = some t → t < 2 ^ 63) (h : InvG cfg st) (he : step cfg st op = some st') : InvG cfg st' := by
  cases op with
  | video f env =>
    simp only [step, Option.map_eq_some_iff] at he
    obtain ⟨s, hs, e⟩ := he
    have := invG_update (hts _ rfl) h hs
    rw [← e]
    split
    · exact ⟨this.hAdj, this.hCur⟩
    · exact this
  | audio ts b env => exact invG_update (hts _ rfl) h he
  | close =>
    simp only [step, Option.some.injEq] at he
    rw [← he]; exact invG_close h

theorem run_induct {cfg : Cfg} {P : St → Prop} {good : Op → Prop} (hk : ∀ op st st', good op → P st → step cfg st op = some st' → P st') :
    ∀ {ops st st'}, (∀ op ∈ ops, good op) → P st → run cfg st ops = some st' → P st' := by
  intro ops
  induction ops with
  | nil => intro st st' _ h he; simp only [run, Option.some.injEq] at he; rw [← he]; exact h
  | cons op ops ih =>
    intro st st' hg h he
    simp only [run, Option.bind_eq_some_iff] at he
    obtain ⟨s, hs, e⟩ := he
    exact ih (fun o ho => hg o (List.mem_cons_of_mem _ ho)) (hk op st s (hg op (by simp)) h hs) e

theorem invG_resume (cfg : Cfg) (seq : Nat) (kf : Nat → Option Nat) (old : List Frag) : InvG cfg (resume cfg seq kf old) := by
  have hr := resume_rest cfg seq kf old
  refine ⟨?_, by rw [hr.1]; intro c; cases c⟩
  rw [hr.2.1]
  intro pre a b post e
  simp at e

/-- With times that do not go back: bounds of the durations, and times of the frames. -/
structure InvM (cfg : Cfg) (last : Nat) (st : St) : Prop where
  hDone : ∀ d ∈ st.done, d.frag.dur ≤ cfg.maxFraglen * 90 ∧ ∀ f ∈ d.frames, d.start ≤ f.ts ∧ f.ts ≤ d.start + d.frag.dur
  hStart : ∀ d ∈ st.done, d.start + d.frag.dur ≤ last
  hCur : st.opened = true → st.fragTs ≤ last ∧ (getFrag cfg st st.nfrags).dur ≤ cfg.maxFraglen * 90 ∧
    st.fragTs + (getFrag cfg st st.nfrags).dur ≤ last ∧ ∀ f ∈ st.cur, st.fragTs ≤ f.ts ∧ f.ts ≤ st.fragTs + (getFrag cfg st st.nfrags).dur

theorem invM_close {cfg last st} (h : InvM cfg last st) : InvM cfg last (closeFragment cfg st) := by
  by_cases ho : st.opened = true
  · obtain ⟨h1, _, h3⟩ := close_effect cfg st ho
    obtain ⟨c1, c2, c3, c4⟩ := h.hCur ho
    refine ⟨?_, ?_, by rw [h1]; intro c; cases c⟩
    · rw [h3]
      intro d hd
      rcases List.mem_append.1 hd with hd | hd
      · exact h.hDone d hd
      · rw [List.mem_singleton.1 hd]; exact ⟨c2, c4⟩
    · rw [h3]
      intro d hd
      rcases List.mem_append.1 hd with hd | hd
      · exact h.hStart d hd
      · rw [List.mem_singleton.1 hd]; exact c3
  · rw [close_closed cfg st (by simpa using ho)]; exact h

theorem InvM.mono {cfg last last' st} (h : InvM cfg last st) (hl : last ≤ last') : InvM cfg last' st :=
  ⟨h.hDone, fun d hd => Nat.le_trans (h.hStart d hd) hl, fun ho => by
    obtain ⟨c1, c2, c3, c4⟩ := h.hCur ho
    exact ⟨by omega, c2, by omega, c4⟩⟩

theorem invM_open {cfg ts st} (env : Env) (disc : Bool) (ho : st.opened = false) (h : InvM cfg ts st) : InvM cfg ts (openFragment cfg env ts disc st) := by
  obtain ⟨h1, h2⟩ := open_effect cfg env ts disc st ho
  refine ⟨by rw [h1]; exact h.hDone, by rw [h1]; exact h.hStart, ?_⟩
  intro hop
  rcases h2 with ⟨h2, _⟩ | ⟨_, h3, h5, i, k, h4⟩
  · rw [h2] at hop; cases hop
  · rw [h3, h4, h5]
    exact ⟨Nat.le_refl _, Nat.zero_le _, Nat.le_refl _, fun f hf => absurd hf (by simp)⟩

theorem invM_setDur {cfg ts st} (hts : ts < 2 ^ 63) (hl : st.fragTs ≤ ts) (hn : ¬ Forced cfg ts st.fragTs)
    (h : ∀ f ∈ st.cur, st.fragTs ≤ f.ts ∧ f.ts ≤ ts) (hm : InvM cfg ts st) :
    InvM cfg ts (setDur cfg st (sub64 ts st.fragTs)) ∧ (setDur cfg st (sub64 ts st.fragTs)).fragTs + (getFrag cfg (setDur cfg st (sub64 ts st.fragTs)) (setDur cfg st (sub64 ts st.fragTs)).nfrags).dur = ts := by
  have e := sub64_le ts st.fragTs hl hts
  have hb : ts - st.fragTs ≤ cfg.maxFraglen * 90 := by
    unfold Forced at hn
    rw [diff_le ts st.fragTs hl hts] at hn
    omega
  have e2 : (setDur cfg st (sub64 ts st.fragTs)).fragTs = st.fragTs := rfl
  constructor
  · refine ⟨hm.hDone, hm.hStart, fun _ => ?_⟩
    rw [setDur_cur, e2]
    dsimp only
    rw [e]
    refine ⟨hl, hb, by omega, ?_⟩
    intro f hf
    have := h f hf
    omega
  · rw [setDur_cur, e2]
    dsimp only
    rw [e]; omega

/-- After `update` at time `ts` an open fragment ends at `ts`. -/
theorem invM_update {cfg env ts b st st' last} (hts : ts < 2 ^ 63) (hl : last ≤ ts) (h : InvM cfg last st) (he : update cfg env ts b st = some st') :
    InvM cfg ts st' ∧ (st'.opened = true → st'.fragTs + (getFrag cfg st' st'.nfrags).dur = ts) := by
  have hm := h.mono hl
  have hopen : ∀ st0 disc, st0.opened = false → InvM cfg ts st0 → InvM cfg ts (openFragment cfg env ts disc st0) ∧
      ((openFragment cfg env ts disc st0).opened = true →
        (openFragment cfg env ts disc st0).fragTs + (getFrag cfg (openFragment cfg env ts disc st0) (openFragment cfg env ts disc st0).nfrags).dur = ts) := by
    intro st0 disc h0 hm0
    refine ⟨invM_open env disc h0 hm0, fun hop => ?_⟩
    rcases (open_effect cfg env ts disc st0 h0).2 with ⟨h2, _⟩ | ⟨_, h3, _, i, k, h4⟩
    · rw [h2] at hop; cases hop
    · rw [h3, h4]; rfl
  have hset : st.opened = true → ¬ Forced cfg ts st.fragTs → _ := fun ho hn => invM_setDur (cfg := cfg) hts (by have := (h.hCur ho).1; omega) hn
    (by
      obtain ⟨_, _, c3, c4⟩ := h.hCur ho
      intro f hf
      have := c4 f hf
      omega) hm
  rcases update_cases he with ⟨ho, ⟨t, e⟩ | ⟨_, e⟩⟩ | ⟨ho, ⟨_, e⟩ | ⟨hn, ⟨_, e⟩ | ⟨_, hc, e⟩⟩⟩
  · rw [e]
    exact ⟨⟨hm.hDone, hm.hStart, fun c => absurd (ho ▸ c) (by simp)⟩, fun c => absurd (ho ▸ c) (by simp)⟩
  · rw [e]; exact hopen st true ho hm
  · rw [e]; exact hopen _ true (close_opened cfg st) (invM_close hm)
  · rw [e]; exact ⟨(hset ho hn).1, fun _ => (hset ho hn).2⟩
  · rw [e]; exact hopen _ false (close_opened cfg _) (invM_close (hset ho hn).1)

theorem invM_run {cfg} : ∀ ops last st st', last < 2 ^ 63 → Forward last ops → InvM cfg last st → run cfg st ops = some st' → ∃ l, l < 2 ^ 63 ∧ InvM cfg l st' := by
  intro ops
  induction ops with
  | nil => intro last st st' hl _ h he; simp only [run, Option.some.injEq] at he; exact ⟨last, hl, he ▸ h⟩
  | cons op ops ih =>
    intro last st st' hl hf h he
    simp only [run, Option.bind_eq_some_iff] at he
    obtain ⟨s, hs, e⟩ := he
    cases op with
    | video f env =>
      have hf' : last ≤ f.ts ∧ f.ts < 2 ^ 63 ∧ Forward f.ts ops := hf
      simp only [step, Option.map_eq_some_iff] at hs
      obtain ⟨s1, hs1, e1⟩ := hs
      obtain ⟨m1, m2⟩ := invM_update hf'.2.1 hf'.1 h hs1
      refine ih f.ts s st' hf'.2.1 hf'.2.2 ?_ e
      rw [← e1]
      split
      · rename_i ho
        refine ⟨m1.hDone, m1.hStart, fun _ => ?_⟩
        obtain ⟨c1, c2, c3, c4⟩ := m1.hCur ho
        refine ⟨c1, c2, c3, ?_⟩
        intro g hg
        rcases List.mem_append.1 hg with hg | hg
        · exact c4 g hg
        · rw [List.mem_singleton.1 hg]
          have e3 := m2 ho
          exact ⟨c1, Nat.le_of_eq e3.symm⟩
      · exact m1
    | audio ts b env =>
      have hf' : last ≤ ts ∧ ts < 2 ^ 63 ∧ Forward ts ops := hf
      exact ih ts s st' hf'.2.1 hf'.2.2 (invM_update hf'.2.1 hf'.1 h hs).1 e
    | close =>
      have hf' : Forward last ops := hf
      simp only [step, Option.some.injEq] at hs
      exact ih last s st' hl hf' (hs ▸ invM_close h) e

theorem forward_small : ∀ ops last, Forward last ops → ∀ op ∈ ops, ∀ t, opTs op = some t → t < 2 ^ 63 := by
  intro ops
  induction ops with
  | nil => intro last _ op h; simp at h
  | cons o ops ih =>
    intro last hf op h t ht
    unfold Forward at hf
    cases ho : opTs o with
    | none =>
      rw [ho] at hf
      rcases List.mem_cons.1 h with rfl | h
      · rw [ho] at ht; cases ht
      · exact ih last hf op h t ht
    | some u =>
      rw [ho] at hf
      rcases List.mem_cons.1 h with rfl | h
      · rw [ho] at ht
        have : u = t := by simpa using ht
        have := hf.2.1
        omega
      · exact ih u hf.2.2 op h t ht

theorem invM_resume (cfg : Cfg) (seq : Nat) (kf : Nat → Option Nat) (old : List Frag) : InvM cfg 0 (resume cfg seq kf old) := by
  have hr := resume_rest cfg seq kf old
  refine ⟨?_, ?_, by rw [hr.1]; intro c; cases c⟩
  · rw [hr.2.1]; intro d hd; simp at hd
  · rw [hr.2.1]; intro d hd; simp at hd

end Verif.HlsFrag
