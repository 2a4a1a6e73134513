import Verif.Rtmp.RecFile
/- A whole session in one file. -/
namespace Verif.Rec
open Verif Verif.Flv

theorem fileTime_rebase {t0 shift ts : Nat} (h0 : t0 < 2 ^ 32) (hs : shift < 2 ^ 32) (ht : ts < 2 ^ 32) (h1 : ts + shift < t0 + 2 ^ 31) (h2 : t0 ≤ ts + shift + 2 ^ 31) :
    fileTime (epochOf t0 shift) ts = rebase t0 shift ts := by
  unfold fileTime epochOf rebase
  dsimp only
  split <;> split <;> omega

theorem plan_init {c : Conf} {shift : Nat} {f : Fl} (e : Av) (h : f.init = true) : (plan c shift f e).1.init = true ∧ (plan c shift f e).1.epoch = f.epoch := by
  unfold plan
  split
  · exact ⟨h, rfl⟩
  · have hst : start shift f e = f := by simp [start, h]
    rw [hst]
    simp only [planBody, planFrame]
    repeat' split
    all_goals exact ⟨h, rfl⟩

theorem planRun_init {c : Conf} {shift : Nat} (es : List Av) : ∀ {f : Fl}, f.init = true →
    (planRun c shift f es).1.init = true ∧ (planRun c shift f es).1.epoch = f.epoch := by
  induction es with
  | nil => intro f h; exact ⟨h, rfl⟩
  | cons e es ih =>
    intro f h
    have h1 := plan_init (c := c) (shift := shift) e h
    have h2 := ih h1.1
    exact ⟨h2.1, h2.2.trans h1.2⟩

theorem plan_starts {c : Conf} {shift : Nat} {f : Fl} (e : Av) (h : f.init = false) (hs : skips c f e = false) :
    (plan c shift f e).1.init = true ∧ (plan c shift f e).1.epoch = epochOf e.ts shift := by
  have hst : start shift f e = { f with init := true, epoch := epochOf e.ts shift } := by simp [start, h]
  simp only [plan, hs, Bool.false_eq_true, if_false, hst, planBody, planFrame]
  repeat' split
  all_goals exact ⟨rfl, rfl⟩

/-- Either nothing is written, or the file begins with some message. -/
theorem planRun_begin (c : Conf) (shift : Nat) (es : List Av) {f : Fl} (h : f.init = false) :
    (planRun c shift f es = (f, []) ∧ ∀ e ∈ es, skips c f e = true) ∨
    ∃ pre e0 post, es = pre ++ e0 :: post ∧ (∀ e ∈ pre, skips c f e = true) ∧ skips c f e0 = false ∧
      planRun c shift f es = planRun c shift f (e0 :: post) ∧ (planRun c shift f es).1.init = true ∧ (planRun c shift f es).1.epoch = epochOf e0.ts shift := by
  induction es with
  | nil => exact .inl ⟨rfl, by simp⟩
  | cons e es ih =>
    cases hs : skips c f e with
    | true =>
      have hp : plan c shift f e = (f, []) := by simp [plan, hs]
      have hr : planRun c shift f (e :: es) = planRun c shift f es := by simp [planRun, hp]
      rcases ih with ih | ⟨pre, e0, post, h1, h2, h3, h4, h5, h6⟩
      · refine .inl ⟨by rw [hr, ih.1], ?_⟩
        intro x hx
        rcases List.mem_cons.1 hx with hx | hx
        · rw [hx, hs]
        · exact ih.2 x hx
      · refine .inr ⟨e :: pre, e0, post, by rw [h1]; rfl, ?_, h3, by rw [hr, h4], by rw [hr, h5], by rw [hr, h6]⟩
        intro x hx
        rcases List.mem_cons.1 hx with hx | hx
        · rw [hx, hs]
        · exact h2 x hx
    | false =>
      have h1 := plan_starts (c := c) (shift := shift) e h hs
      have h2 := planRun_init (c := c) (shift := shift) es h1.1
      exact .inr ⟨[], e, es, rfl, by simp, hs, rfl, h2.1, h2.2.trans h1.2⟩

theorem avs_plan {W : Disk} (hW : ∀ i, W i = none) (c : Conf) (hl : c.maxSize = 0 ∧ c.maxFrames = 0) (hoff : c.off = false)
    (es : List Av) (hes : ∀ e ∈ es, e.Ok) {p : Nat} : ∀ {s : S}, (∀ e ∈ es, ∀ s' : S, s'.node.fd = .opened p → s'.node.last = s.node.last → breakFile W c e s' = some s') →
    s.node.fd = .opened p →
    (if s.node.initialized then s.node.offset = (s.fs p).length else Fresh s p) →
    ∃ s', run W c s (es.map .av) = some s' ∧ s'.node.last = s.node.last ∧ flOf s'.node = (planRun c s.node.timeShift (flOf s.node) es).1 ∧
      if s'.node.initialized then
        AtEnd s' p ∧
        s'.fs p = (if s.node.initialized then s.fs p else base s p) ++ (planRun c s.node.timeShift (flOf s.node) es).2.flatMap (Item.bytes s'.node.epoch) ∧
        (∀ q, q ≠ p → s'.fs q = s.fs q) ∧
        s'.node.audio = (s.node.audio || (planRun c s.node.timeShift (flOf s.node) es).2.any fun i => i.type != 9) ∧
        s'.node.video = (s.node.video || (planRun c s.node.timeShift (flOf s.node) es).2.any fun i => i.type == 9)
      else s' = s ∧ (planRun c s.node.timeShift (flOf s.node) es).2 = [] := by
  induction es with
  | nil =>
    intro s hbf hfd hpos
    refine ⟨s, rfl, rfl, rfl, ?_⟩
    by_cases hi : s.node.initialized = true
    · rw [if_pos hi] at hpos ⊢
      refine ⟨⟨hfd, hpos⟩, ?_, fun _ _ => rfl, ?_, ?_⟩ <;> simp [planRun, hi]
    · rw [if_neg hi]; exact ⟨rfl, rfl⟩
  | cons e es ih =>
    intro s hbf hfd hpos
    obtain ⟨s1, e1, f1, sh1, la1, r1⟩ := nodeAv_plan hW c hl hoff e (hes e (by simp)) (hbf e (by simp) s hfd rfl) hfd hpos
    have hrun : ∀ x, run W c s1 (es.map .av) = x → run W c s ((e :: es).map .av) = x := by
      intro x hx
      simp only [List.map_cons, run, step, e1, Option.bind_some, hx]
    cases hs : skips c (flOf s.node) e with
    | true =>
      rw [if_pos hs] at r1
      subst r1
      obtain ⟨s', e2, la2, f2, r2⟩ := ih (fun x hx => hes x (by simp [hx])) (fun x hx => hbf x (by simp [hx])) hfd hpos
      have hp : plan c s1.node.timeShift (flOf s1.node) e = (flOf s1.node, []) := by simp [plan, hs]
      have hr : planRun c s1.node.timeShift (flOf s1.node) (e :: es) = planRun c s1.node.timeShift (flOf s1.node) es := by simp [planRun, hp]
      exact ⟨s', hrun _ e2, la2, by rw [hr]; exact f2, by rw [hr]; exact r2⟩
    | false =>
      rw [if_neg (by simp [hs])] at r1
      obtain ⟨hend, hinit, hfile, hoth, hau, hvi⟩ := r1
      obtain ⟨s', e2, la2, f2, r2⟩ := ih (fun x hx => hes x (by simp [hx])) (fun x hx y hy hy' => hbf x (by simp [hx]) y hy (hy'.trans la1)) hend.fd (by rw [if_pos hinit]; exact hend.off)
      have hpi := planRun_init (c := c) (shift := s1.node.timeShift) es (f := flOf s1.node) hinit
      have hi' : s'.node.initialized = true := by
        have : (flOf s'.node).init = true := by rw [f2]; exact hpi.1
        exact this
      have hep : s'.node.epoch = s1.node.epoch := by
        have : (flOf s'.node).epoch = (flOf s1.node).epoch := by rw [f2]; exact hpi.2
        exact this
      rw [if_pos hi', hinit, if_pos rfl] at r2
      obtain ⟨hend', hfile', hoth', hau', hvi'⟩ := r2
      rw [f1, sh1] at f2 hfile' hau' hvi'
      refine ⟨s', hrun _ e2, la2.trans la1, f2, ?_⟩
      rw [if_pos hi']
      refine ⟨hend', ?_, ?_, ?_, ?_⟩
      · rw [hfile', hfile, hep]; simp [planRun]
      · intro q hq; rw [hoth' q hq, hoth q hq]
      · rw [hau', hau]; simp [planRun, Bool.or_assoc]
      · rw [hvi', hvi]; simp [planRun, Bool.or_assoc]

theorem nodeClose_opened {W : Disk} (hW : ∀ i, W i = none) {s : S} {p : Nat} (hfd : s.node.fd = .opened p) : ∃ s', nodeClose W s = some s' ∧ s'.node.fd = .invalid ∧
    s'.fs = if s.node.initialized then setFile s.fs p (put (s.fs p) 4 [avMask s.node]) else s.fs := by
  unfold nodeClose
  rw [hfd]
  cases hi : s.node.initialized with
  | true =>
    refine ⟨⟨{ s.node with offset := s.node.offset + 1, fd := .invalid }, setFile s.fs p (put (s.fs p) 4 [avMask s.node]), s.writes + 1⟩, ?_, rfl, rfl⟩
    simp only [write, hfd, hW, if_true, Option.map_some]; rfl
  | false => exact ⟨_, rfl, rfl, rfl⟩

theorem run_append (W : Disk) (c : Conf) (os os' : List Op) : ∀ s, run W c s (os ++ os') = (run W c s os).bind fun s => run W c s os' := by
  induction os with
  | nil => intro s; rfl
  | cons o os ih =>
    intro s
    simp only [List.cons_append, run]
    cases step W c s o with
    | none => rfl
    | some s1 => exact ih s1

/-- The contents of the file after a session. -/
theorem session_file {W : Disk} (hW : ∀ i, W i = none) (c : Conf) (hl : c.maxSize = 0 ∧ c.maxFrames = 0) (hoff : c.off = false)
    (es : List Av) (hes : ∀ e ∈ es, e.Ok) {p : Nat} {s : S}
    (hbf : ∀ e ∈ es, ∀ s' : S, s'.node.fd = .opened p → s'.node.last = s.node.last → breakFile W c e s' = some s') (hfd : s.node.fd = .opened p) (hfl : flOf s.node = fl0) (ha : s.node.audio = false) (hv : s.node.video = false)
    (hpos : Fresh s p) (old : List Tag) (hold : s.node.offset ≠ 0 → ∃ f, s.fs p = fileHeader f 9 ++ old.flatMap Tag.bytes) (hold0 : s.node.offset = 0 → old = [])
    (hshift : s.node.timeShift < 2 ^ 32)
    (hnear : ∀ e ∈ es, ∀ e0 ∈ es, e.ts + s.node.timeShift < e0.ts + 2 ^ 31 ∧ e0.ts ≤ e.ts + s.node.timeShift + 2 ^ 31) :
    ∃ s1 s', run W c s (es.map .av) = some s1 ∧ s1.node.last = s.node.last ∧ s1.node.fd = .opened p ∧ nodeClose W s1 = some s' ∧ s'.node.fd = .invalid ∧ (∀ q, q ≠ p → s'.fs q = s.fs q) ∧
      FileFor c es s.node.timeShift old (s.fs p) (s'.fs p) := by
  have hi0 : s.node.initialized = false := by
    have : (flOf s.node).init = false := by rw [hfl]; rfl
    exact this
  obtain ⟨s1, e1, la1, f1, r1⟩ := avs_plan hW c hl hoff es hes hbf hfd (by rw [hi0]; simpa using hpos)
  have hfd1 : s1.node.fd = .opened p := by
    by_cases hi : s1.node.initialized = true
    · rw [if_pos hi] at r1; exact r1.1.fd
    · rw [if_neg hi] at r1; rw [r1.1, hfd]
  obtain ⟨s2, e2, g2, r2⟩ := nodeClose_opened hW hfd1
  refine ⟨s1, s2, e1, la1, hfd1, e2, g2, ?_, ?_⟩
  · intro q hq
    by_cases hi : s1.node.initialized = true
    · rw [if_pos hi] at r1 r2
      rw [r2, setFile_other _ hq, r1.2.2.1 q hq]
    · rw [if_neg hi] at r1 r2
      rw [r2, r1.1]
  rw [hfl] at f1 r1
  have hrec := planRun_recording c s.node.timeShift es hes
  refine ⟨_, hrec, ?_⟩
  rcases planRun_begin c s.node.timeShift es (f := fl0) rfl with ⟨hb, hsk⟩ | ⟨pre, e0, post, h1, h2, h3, h4, h5, h6⟩
  · left
    have hi : s1.node.initialized = false := by
      have : (flOf s1.node).init = false := by rw [f1, hb]; rfl
      exact this
    rw [if_neg (by simp [hi])] at r1 r2
    refine ⟨r1.2, by rw [r2, r1.1], ?_⟩
    intro hm e he
    simpa [skips, hm] using hsk e he
  · right
    have hi : s1.node.initialized = true := by
      have : (flOf s1.node).init = true := by rw [f1, h5]
      exact this
    have hep : s1.node.epoch = epochOf e0.ts s.node.timeShift := by
      have : (flOf s1.node).epoch = epochOf e0.ts s.node.timeShift := by rw [f1, h6]
      exact this
    have he0 : e0 ∈ es := by rw [h1]; simp
    have hg := planRun_good c s.node.timeShift (e0 :: post) (fun x hx => hes x (by rw [h1]; simp at hx ⊢; rcases hx with hx | hx <;> simp [hx])) fl0
    refine ⟨pre, e0, post, h1, ?_, ?_, ?_, ?_⟩
    · simp [skips] at h3; exact h3.2
    · rw [h4]; exact hg.order
    · intro hm e he
      have := h2 e he
      simpa [skips, hm] using this
    rw [if_pos hi, hi0, if_neg (by simp)] at r1
    rw [if_pos hi] at r2
    obtain ⟨hend, hfile, _, hau, hvi⟩ := r1
    -- items as tags
    have hitem : ∀ i ∈ (planRun c s.node.timeShift fl0 es).2, ∃ e ∈ es, i ∈ sources e := by
      intro i hi
      have := hrec.order.subset hi
      simpa [List.mem_flatMap] using this
    have htag : ∀ i ∈ (planRun c s.node.timeShift fl0 es).2, i.bytes s1.node.epoch = (i.tag (rebase e0.ts s.node.timeShift)).bytes ∧
        (i.type = 8 ∨ i.type = 9) ∧ i.type = (i.tag (rebase e0.ts s.node.timeShift)).type := by
      intro i hi
      obtain ⟨e, hee, hie⟩ := hitem i hi
      have hok := hes e hee
      have hn := hnear e hee e0 he0
      have ht := fileTime_rebase (hes e0 he0).hTs hshift hok.hTs hn.1 hn.2
      have hlt : fileTime s1.node.epoch e.ts < 2 ^ 32 := by have := fileTime_lt s1.node.epoch e.ts; omega
      have h := Item.tag_ok hok hie (time := fileTime s1.node.epoch) hlt
      have hsame : i.tag (fileTime s1.node.epoch) = i.tag (rebase e0.ts s.node.timeShift) := by
        have hts : ∀ e', e' = e → fileTime s1.node.epoch e'.ts = rebase e0.ts s.node.timeShift e'.ts := by
          intro e' he'; rw [he', hep, ht]
        simp only [sources, List.mem_append, List.mem_map, Option.mem_toList, List.mem_singleton] at hie
        rcases hie with (⟨_, _, rfl⟩ | ⟨_, _, rfl⟩) | rfl <;> simp [Item.tag, hts e rfl]
      rw [Item.bytes_tag _ _ h.1.hLen, hsame]
      rw [hsame] at h
      refine ⟨rfl, ?_, h.2.2⟩
      rw [h.2.2]; exact h.2.1
    have hbytes : (planRun c s.node.timeShift fl0 es).2.flatMap (Item.bytes s1.node.epoch) =
        ((planRun c s.node.timeShift fl0 es).2.map (Item.tag (rebase e0.ts s.node.timeShift))).flatMap Tag.bytes := by
      rw [List.flatMap_map]
      rw [List.flatMap_def, List.flatMap_def]
      congr 1
      exact List.map_congr_left fun i hi => (htag i hi).1
    have hmask : avMask s1.node = maskOf ((planRun c s.node.timeShift fl0 es).2.map (Item.tag (rebase e0.ts s.node.timeShift))) := by
      apply avMask_maskOf
      · rw [hau, ha, Bool.false_or, List.any_map]
        rw [Bool.eq_iff_iff, List.any_eq_true, List.any_eq_true]
        constructor
        · rintro ⟨i, hi, h⟩
          refine ⟨i, hi, ?_⟩
          have := htag i hi
          simp only [Function.comp, ← this.2.2]
          rcases this.2.1 with h8 | h9
          · simp [h8]
          · simp [h9] at h
        · rintro ⟨i, hi, h⟩
          refine ⟨i, hi, ?_⟩
          have := htag i hi
          simp only [Function.comp, ← this.2.2, beq_iff_eq] at h
          simp [h]
      · rw [hvi, hv, Bool.false_or, List.any_map]
        rw [Bool.eq_iff_iff, List.any_eq_true, List.any_eq_true]
        constructor
        · rintro ⟨i, hi, h⟩
          exact ⟨i, hi, by simp only [Function.comp, ← (htag i hi).2.2]; exact h⟩
        · rintro ⟨i, hi, h⟩
          exact ⟨i, hi, by simp only [Function.comp, ← (htag i hi).2.2] at h; exact h⟩
    have hbase : ∃ f, base s p = fileHeader f 9 ++ old.flatMap Tag.bytes := by
      by_cases h0 : s.node.offset = 0
      · exact ⟨5, by simp [base, h0, flvHeader_eq, hold0 h0]⟩
      · obtain ⟨f, hf⟩ := hold h0
        exact ⟨f, by simp [base, h0, hf]⟩
    obtain ⟨f, hbase⟩ := hbase
    rw [r2, setFile_same, hfile, hbase, hbytes, List.append_assoc, ← List.flatMap_append, put_flags, hmask]

end Verif.Rec
