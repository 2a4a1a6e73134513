import Verif.Hls2.GopSess
/-
Sessions along the frames of the cache.
-/
namespace Verif.Hls2.Gop
open Verif Verif.Hls2 Verif.Hls2.Gop.Spec

/-- What was cached stays known. -/
structure Ext (b b' : Pub) : Prop where
  hHist : ∃ l, b'.hist = b.hist ++ l
  hFrames : ∃ l, b'.frames = b.frames ++ l
  hGone : b.gone ≤ b'.gone
  hSkip : b.skip ≤ b'.skip

theorem Ext.hist_get {b b' : Pub} (h : Ext b b') {i f : Nat} (hf : b.hist[i]? = some f) : b'.hist[i]? = some f := by
  obtain ⟨l, e⟩ := h.hHist
  rw [e, List.getElem?_append_left (lt_len hf)]
  exact hf

theorem Ext.frame_get {b b' : Pub} (h : Ext b b') {i : Nat} {x : Frame} (hf : b.frames[i]? = some x) : b'.frames[i]? = some x := by
  obtain ⟨l, e⟩ := h.hFrames
  rw [e, List.getElem?_append_left (List.getElem?_eq_some_iff.1 hf).1]
  exact hf

theorem Ext.frame_back {b b' : Pub} (h : Ext b b') {i : Nat} {x : Frame} (hi : i < b.frames.length) (hf : b'.frames[i]? = some x) : b.frames[i]? = some x := by
  obtain ⟨l, e⟩ := h.hFrames
  rw [e, List.getElem?_append_left hi] at hf
  exact hf

theorem Ext.isKey {b b' : Pub} (h : Ext b b') {f : Nat} (hf : isKey b f = true) : isKey b' f = true := by
  unfold Gop.isKey at hf ⊢
  cases hx : b.frames[f]? with
  | none => rw [hx] at hf; cases hf
  | some x => rw [h.frame_get hx]; rw [hx] at hf; exact hf

theorem Ext.slice {b b' : Pub} (h : Ext b b') {a i : Nat} (hi : i ≤ b.hist.length) : slice b' a i = slice b a i := by
  obtain ⟨l, e⟩ := h.hHist
  unfold Gop.slice
  rw [e]
  rcases Nat.lt_or_ge i a with hlt | hge
  · rw [show i - a = 0 by omega]
    rfl
  · rw [List.drop_append_of_le_length (by omega), List.take_append_of_le_length (by rw [List.length_drop]; omega)]

/-- A session may start at index `a`. -/
def StartOk (b : Pub) (a : Nat) : Prop := (∃ f, b.hist[a]? = some f ∧ isKey b f = true) ∨ (a ≤ b.gone ∧ KeyFrom b a)

theorem key_not_inter {b : Pub} {f : Nat} {x : Frame} (h : isKey b f = true) (hx : b.frames[f]? = some x) : ¬ Inter x := by
  unfold isKey at h
  rw [hx] at h
  intro hin
  have h : x.key = true := h
  rw [hin.2] at h
  cases h

theorem StartOk.from {b : Pub} {a : Nat} (h : StartOk b a) : KeyFrom b a := by
  rcases h with ⟨f, hf, hk⟩ | ⟨_, h⟩
  · intro i g x hi hg hx hin
    refine ⟨a, f, Nat.le_refl _, ?_, hf, hk⟩
    rcases Nat.eq_or_lt_of_le hi with e | hlt
    · exfalso
      rw [← e, hf] at hg
      rw [← Option.some.inj hg] at hx
      exact key_not_inter hk hx hin
    · exact hlt
  · exact h

theorem StartOk.ext {c : Conf} {b b' : Pub} (hb : Core c b) (hg : Good c b') (he : Ext b b') (hone : b'.hist.length ≤ b.hist.length + 1) {a : Nat} (h : StartOk b a) : StartOk b' a := by
  rcases h with ⟨f, hf, hk⟩ | ⟨hle, h⟩
  · exact Or.inl ⟨f, he.hist_get hf, he.isKey hk⟩
  · refine Or.inr ⟨Nat.le_trans hle he.hGone, ?_⟩
    intro i f x hi hf hx hin
    rcases Nat.lt_or_ge i b.hist.length with hlt | hge
    · obtain ⟨g, hg'⟩ : ∃ g, b.hist[i]? = some g := ⟨b.hist[i], List.getElem?_eq_getElem hlt⟩
      have := he.hist_get hg'
      rw [this] at hf
      have := Option.some.inj hf
      subst this
      obtain ⟨j, k, h1, h2, h3, h4⟩ := h i g x hi hg' (he.frame_back (hb.hLt g (List.mem_of_getElem? hg')) hx) hin
      exact ⟨j, k, h1, h2, he.hist_get h3, he.isKey h4⟩
    · have hl := lt_len hf
      have hgl : b'.gone < b'.hist.length := (hg.hMade (by intro e; rw [e] at hl; simp at hl)).2
      obtain ⟨j, k, h1, h2, h3, h4⟩ := hg.hVideo i f x (by omega) hf hx hin
      have := he.hGone
      exact ⟨j, k, by omega, h2, h3, h4⟩

theorem Follows.ext {b b' : Pub} (h : Ext b b') {x y : Nat} (hf : Follows b.hist x y) : Follows b'.hist x y := by
  obtain ⟨i, h1, h2⟩ := hf
  exact ⟨i, h.hist_get h1, h.hist_get h2⟩

theorem Decodable.ext {b b' : Pub} (h : Ext b b') {log : List Nat} (hm : ∀ f ∈ log, f < b.frames.length) (hd : Decodable b.frames b.hist log) : Decodable b'.frames b'.hist log := by
  intro n f x hf hx hin
  obtain ⟨m, g, y, h1, h2, h3, h4, h5⟩ := hd n f x hf (h.frame_back (hm f (List.mem_of_getElem? hf)) hx) hin
  refine ⟨m, g, y, h1, h2, h.frame_get h3, h4, ?_⟩
  intro t ht1 ht2
  obtain ⟨u, v, h6, h7, h8⟩ := h5 t ht1 ht2
  exact ⟨u, v, h6, h7, Follows.ext h h8⟩

theorem Decodable.run {b : Pub} {pre : List Nat} {a i : Nat} (hi : i ≤ b.hist.length) (hd : Decodable b.frames b.hist pre) (hs : KeyFrom b a) : Decodable b.frames b.hist (pre ++ slice b a i) := by
  have hlen := slice_len (a := a) hi
  intro n f x hf hx hin
  rcases Nat.lt_or_ge n pre.length with hlt | hge
  · rw [List.getElem?_append_left hlt] at hf
    obtain ⟨m, g, y, h1, h2, h3, h4, h5⟩ := hd n f x hf hx hin
    refine ⟨m, g, y, h1, by rw [List.getElem?_append_left (lt_len h2)]; exact h2, h3, h4, ?_⟩
    intro t ht1 ht2
    obtain ⟨u, v, h6, h7, h8⟩ := h5 t ht1 ht2
    exact ⟨u, v, by rw [List.getElem?_append_left (lt_len h6)]; exact h6, by rw [List.getElem?_append_left (lt_len h7)]; exact h7, h8⟩
  · have hnl : n < pre.length + (i - a) := by
      have := lt_len hf
      rw [List.length_append, hlen] at this
      exact this
    rw [List.getElem?_append_right hge, slice_get (by omega)] at hf
    obtain ⟨j, g, h1, h2, h3, h4⟩ := hs (a + (n - pre.length)) f x (by omega) hf hx hin
    have hj : (pre ++ slice b a i)[pre.length + (j - a)]? = some g := by
      rw [List.getElem?_append_right (by omega), slice_get (by omega), show a + (pre.length + (j - a) - pre.length) = j by omega]
      exact h3
    unfold isKey at h4
    cases hy : b.frames[g]? with
    | none => rw [hy] at h4; cases h4
    | some y =>
      rw [hy] at h4
      refine ⟨pre.length + (j - a), g, y, by omega, hj, hy, h4, ?_⟩
      intro t ht1 ht2
      have hx1 : a + (t - pre.length) < b.hist.length := by omega
      have hx2 : a + (t - pre.length) + 1 < b.hist.length := by omega
      refine ⟨b.hist[a + (t - pre.length)], b.hist[a + (t - pre.length) + 1], ?_, ?_, ⟨a + (t - pre.length), List.getElem?_eq_getElem hx1, List.getElem?_eq_getElem hx2⟩⟩
      · rw [List.getElem?_append_right (by omega), slice_get (by omega), List.getElem?_eq_getElem hx1]
      · rw [List.getElem?_append_right (by omega), slice_get (by omega), show a + (t + 1 - pre.length) = a + (t - pre.length) + 1 by omega, List.getElem?_eq_getElem hx2]

theorem Steady.ext {b b' : Pub} (h : Ext b b') {log : List Nat} (hs : Steady b.hist b.gone log) : Steady b'.hist b'.gone log := by
  intro t x y hx hy
  rcases hs t x y hx hy with h1 | ⟨h1, i, h2, h3⟩
  · exact Or.inl (Follows.ext h h1)
  · exact Or.inr ⟨h1, i, Nat.le_trans h2 h.hGone, h.hist_get h3⟩

theorem steady_slice {b : Pub} {a i : Nat} (hi : i ≤ b.hist.length) : Steady b.hist b.gone (slice b a i) := by
  intro t x y hx hy
  have hlen := slice_len (a := a) hi
  have := lt_len hy
  rw [slice_get (by omega)] at hx hy
  exact Or.inl ⟨a + t, hx, by rw [← hy, Nat.add_assoc]⟩

theorem steady_snoc {b : Pub} {log : List Nat} {f l : Nat} (h : Steady b.hist b.gone log) (hl : log.getLast? = some l)
    (hf : Follows b.hist l f ∨ (l < f ∧ ∃ i : Nat, i ≤ b.gone ∧ b.hist[i]? = some f)) : Steady b.hist b.gone (log ++ [f]) := by
  intro t x y hx hy
  have hy2 := lt_len hy
  rw [List.length_append, List.length_singleton] at hy2
  rw [List.getElem?_append_left (by omega)] at hx
  rcases Nat.lt_or_ge (t + 1) log.length with hlt | hge
  · rw [List.getElem?_append_left hlt] at hy
    exact h t x y hx hy
  · have e : t = log.length - 1 := by omega
    rw [List.getElem?_append_right hge, show t + 1 - log.length = 0 by omega] at hy
    rw [List.getLast?_eq_getElem?, ← e, hx] at hl
    rw [Option.some.inj hl, ← Option.some.inj hy]
    exact hf

theorem older_zero (b : Pub) (l : List Nat) : l.takeWhile (older b 0) = [] := by
  cases l with
  | nil => rfl
  | cons f l =>
    refine List.takeWhile_cons_of_neg ?_
    unfold older
    split <;> simp

/-- From index `i` on the log can be continued: it ends there, or one may start there. -/
def Reach (b : Pub) (log : List Nat) (i : Nat) : Prop :=
  (∃ pre a, a < i ∧ log = pre ++ slice b a i ∧ StartOk b a ∧ Decodable b.frames b.hist pre) ∨ (StartOk b i ∧ Decodable b.frames b.hist log)

theorem Reach.decodable {b : Pub} {log : List Nat} {i : Nat} (hi : i ≤ b.hist.length) (h : Reach b log i) : Decodable b.frames b.hist log := by
  rcases h with ⟨pre, a, h1, h2, h3, h4⟩ | ⟨_, h⟩
  · rw [h2]
    exact Decodable.run hi h4 h3.from
  · exact h

theorem slice_add {b : Pub} {a i j : Nat} (h1 : a ≤ i) (h2 : i ≤ j) (h3 : j ≤ b.hist.length) : slice b a i ++ slice b i j = slice b a j := by
  unfold slice
  have : b.hist.drop i = (b.hist.drop a).drop (i - a) := by rw [List.drop_drop, show a + (i - a) = i by omega]
  rw [this, ← List.take_add, show i - a + (j - i) = j - a by omega]

theorem Reach.app {b : Pub} {log : List Nat} {i j : Nat} (h1 : i ≤ j) (h2 : j ≤ b.hist.length) (h : Reach b log i) : Reach b (log ++ slice b i j) j := by
  rcases Nat.eq_or_lt_of_le h1 with e | hlt
  · subst e
    rw [slice_self, List.append_nil]
    exact h
  · left
    rcases h with ⟨pre, a, h3, h4, h5, h6⟩ | ⟨h3, h4⟩
    · exact ⟨pre, a, by omega, by rw [h4, List.append_assoc, slice_add (by omega) h1 h2], h5, h6⟩
    · exact ⟨log, i, hlt, rfl, h3, h4⟩

/-- The frame at index `i` may come next. -/
def Next (b : Pub) (log : List Nat) (i : Nat) : Prop := log = [] ∨ ∃ l : Nat, l < i ∧ log.getLast? = b.hist[l]? ∧ (l + 1 = i ∨ i ≤ b.gone)

theorem Next.app {b : Pub} (hsort : b.hist.Pairwise (· < ·)) {log : List Nat} {i : Nat} : ∀ {j : Nat}, i ≤ j → j ≤ b.hist.length → Next b log i → Steady b.hist b.gone log → Next b (log ++ slice b i j) j ∧ Steady b.hist b.gone (log ++ slice b i j) := by
  intro j
  induction j with
  | zero =>
    intro h1 _ h hs
    have : i = 0 := by omega
    subst this
    rw [slice_self, List.append_nil]
    exact ⟨h, hs⟩
  | succ j ih =>
    intro h1 h2 h hs
    rcases Nat.eq_or_lt_of_le h1 with e | hlt
    · subst e
      rw [slice_self, List.append_nil]
      exact ⟨h, hs⟩
    · obtain ⟨n, s⟩ := ih (by omega) (by omega) h hs
      have hf : b.hist[j]? = some b.hist[j] := List.getElem?_eq_getElem (by omega)
      rw [slice_snoc (by omega) hf, ← List.append_assoc]
      refine ⟨Or.inr ⟨j, Nat.lt_succ_self _, by rw [List.getLast?_concat]; exact hf.symm, Or.inl rfl⟩, ?_⟩
      rcases n with n | ⟨l, n1, n2, n3⟩
      · rw [n]
        intro t x y hx hy
        cases hy
      · have hl : b.hist[l]? = some b.hist[l] := List.getElem?_eq_getElem (by omega)
        refine steady_snoc s (n2.trans hl) ?_
        rcases n3 with n3 | n3
        · exact Or.inl ⟨l, hl, by rw [n3]; exact hf⟩
        · refine Or.inr ⟨?_, j, n3, hf⟩
          exact List.pairwise_iff_getElem.1 hsort l j (by omega) (by omega) n1

/-- The session is at index `i`. -/
structure Track (c : Conf) (b : Pub) (p : Player) (i : Nat) : Prop where
  hPos : p.pos = i % c.q
  hi : i ≤ b.hist.length
  hReach : Reach b p.log i

/-- Sessions whose order is kept: HLS sessions start again from a key frame if there was no room for what they get first. -/
def Calm (p : Player) : Prop := p.hls = none ∨ p.full = 0

/-- A session when a frame comes to it (`Ready`), and after it has taken what it takes (`Done`) -/
structure Ready (c : Conf) (b : Pub) (p : Player) : Prop where
  hAt : (p.state = 0 ∧ p.log = []) ∨ (p.log = [] ∧ b.hist.length ≤ 1) ∨
    (p.state ≠ 0 ∧ (p.full = 0 → p.state = 2) ∧ ∃ i, Track c b p i ∧ b.hist.length < i + c.q ∧ (b.skip = p.since → Calm p → Next b p.log i ∧ i < b.hist.length))
  hSteady : b.skip = p.since → Calm p → Steady b.hist b.gone p.log

structure Done (c : Conf) (b : Pub) (p : Player) : Prop where
  hAt : (p.state = 0 ∧ p.log = []) ∨ (p.log = [] ∧ b.hist.length = 0) ∨ (p.state ≠ 0 ∧ (p.full = 0 → p.state = 2) ∧ ∃ i, Track c b p i ∧ b.gone ≤ i ∧ (b.skip = p.since → Calm p → Next b p.log i))
  hSteady : b.skip = p.since → Calm p → Steady b.hist b.gone p.log

/-- A frame comes into the cache. -/
theorem Done.cache {c : Conf} {b b' : Pub} {f : Nat} {x : Frame} {p : Player} (hb : Good c b) (hs : Step c b b' f x) (he : Ext b b') (hsince : p.since ≤ b.skip) (hm : ∀ f ∈ p.log, f < b.frames.length) (h : Done c b p) : Ready c b' p := by
  have hr := hb.core.hRoom
  have hlen : b'.hist.length ≤ b.hist.length + 1 := by
    rcases hs.hHist with ⟨e, _⟩ | ⟨e, _⟩
    · rw [e]; omega
    · rw [e, List.length_append, List.length_singleton]
      omega
  refine ⟨?_, ?_⟩
  · rcases h.hAt with h1 | ⟨h1, h2⟩ | ⟨h1, h0, i, h2, h3, h3'⟩
    · exact Or.inl h1
    · exact Or.inr (Or.inl ⟨h1, by omega⟩)
    · have hi := h2.hi
      refine Or.inr (Or.inr ⟨h1, h0, i, ⟨h2.hPos, ?_, ?_⟩, ?_, ?_⟩)
      · obtain ⟨l, e⟩ := he.hHist
        rw [e, List.length_append]
        omega
      · rcases h2.hReach with ⟨pre, a, h4, h5, h6, h7⟩ | ⟨h4, h5⟩
        · exact Or.inl ⟨pre, a, h4, by rw [he.slice hi]; exact h5, h6.ext hb.core hs.hGood he hlen, Decodable.ext he (fun f hf => hm f (by rw [h5]; simp [hf])) h7⟩
        · exact Or.inr ⟨h4.ext hb.core hs.hGood he hlen, Decodable.ext he hm h5⟩
      · rcases hs.hHist with ⟨e, _, _⟩ | ⟨e, e2⟩
        · rw [e]
          omega
        · have := hs.hRoom e2.2
          omega
      · intro hsk hcalm
        rcases hs.hHist with ⟨_, _, e⟩ | ⟨e, e2, e3⟩
        · omega
        · refine ⟨?_, by rw [e, List.length_append, List.length_singleton]; omega⟩
          rcases h3' (by omega) hcalm with h4 | ⟨l, h4, h5, h6⟩
          · exact Or.inl h4
          · refine Or.inr ⟨l, h4, ?_, by omega⟩
            rw [h5, List.getElem?_eq_getElem (show l < b.hist.length by omega)]
            exact (he.hist_get (List.getElem?_eq_getElem (show l < b.hist.length by omega))).symm
  · intro hsk hcalm
    have := he.hSkip
    exact Steady.ext he (h.hSteady (by omega) hcalm)

/-- Nothing was ever cached. -/
theorem Ready.idle {c : Conf} {b : Pub} {p : Player} (hb : b.hist = []) (hm : ∀ f ∈ p.log, f ∈ b.hist) (h : Ready c b p) : Done c b p := by
  refine ⟨Or.inr (Or.inl ⟨?_, by rw [hb]; rfl⟩), h.hSteady⟩
  rw [hb] at hm
  cases hl : p.log with
  | nil => rfl
  | cons f l => exact absurd (hm f (by rw [hl]; simp)) (by simp)

/-- What a call of `ngx_mpegts_gop_link` or `ngx_mpegts_gop_send` does -/
structure Linked1 (c : Conf) (r : Rule) (b : Pub) (p p' : Player) : Prop where
  hKept : Kept p p'
  hNew : ∃ new, p'.log = p.log ++ new ∧ p'.queue = p.queue ++ new ∧ ∀ f ∈ new, f ∈ b.hist
  hFull : p.full ≤ p'.full
  hDone : (∀ f ∈ p.log, f ∈ b.hist) → (p.hls = none → r.offset = 0) → Ready c b p → Done c b p'

theorem slice_mem {b : Pub} {a i : Nat} : ∀ f ∈ slice b a i, f ∈ b.hist := fun _ hf => List.mem_of_mem_drop (List.mem_of_mem_take hf)

theorem startOk_gone {c : Conf} {b : Pub} (h : Good c b) : StartOk b b.gone := Or.inr ⟨Nat.le_refl _, h.hVideo⟩

theorem decodable_nil (b : Pub) : Decodable b.frames b.hist [] := by
  intro n f x h
  cases h

theorem Calm.back {p p' : Player} (h1 : p'.hls = p.hls) (h2 : p.full ≤ p'.full) (h : Calm p') : Calm p := by
  rcases h with h | h
  · exact Or.inl (by rw [← h1]; exact h)
  · exact Or.inr (by omega)

/-- From where the session is to where it goes on -/
theorem Ready.goes {c : Conf} {b : Pub} (h : Good c b) {p : Player} (hrd : Ready c b p) (hne : b.hist ≠ []) (hst : p.state ≠ 0) {j : Nat} (hj1 : b.gone ≤ j) (hj2 : j < b.hist.length)
    (hat : (b.cache p.pos = none ∧ j = b.gone) ∨ p.pos = j % c.q) : Reach b p.log j ∧ (b.skip = p.since → Calm p → Next b p.log j) := by
  have hr := h.core.hRoom
  rcases hrd.hAt with ⟨h1, _⟩ | ⟨h1, h2⟩ | ⟨_, _, i, h2, h3, h4⟩
  · exact absurd h1 hst
  · have hj0 : j = b.gone := by omega
    rw [h1, hj0]
    exact ⟨Or.inr ⟨startOk_gone h, decodable_nil b⟩, fun _ _ => Or.inl rfl⟩
  · have hi := h2.hi
    have hsl := h.core.slot (i := i) h3 hi
    rw [← h2.hPos] at hsl
    have hcase : j = i ∨ (j = b.gone ∧ (i < b.gone ∨ i = b.hist.length)) := by
      rcases hat with ⟨hcp, e⟩ | e
      · refine Or.inr ⟨e, ?_⟩
        rw [hcp] at hsl
        by_cases hgi : b.gone ≤ i
        · rw [if_pos hgi] at hsl
          have := List.getElem?_eq_none_iff.1 hsl.symm
          omega
        · omega
      · rw [h2.hPos] at e
        exact Or.inl (mod_inj e.symm (by omega) (by omega))
    rcases hcase with e | ⟨e, e2⟩
    · rw [e]
      exact ⟨h2.hReach, fun hsk hcalm => (h4 hsk hcalm).1⟩
    · refine ⟨Or.inr ⟨by rw [e]; exact startOk_gone h, h2.hReach.decodable hi⟩, fun hsk hcalm => ?_⟩
      obtain ⟨h5, h6⟩ := h4 hsk hcalm
      rcases h5 with h5 | ⟨l, h5, h7, _⟩
      · exact Or.inl h5
      · exact Or.inr ⟨l, by omega, h7, Or.inr (by omega)⟩

theorem link_ok {c : Conf} {r : Rule} {b : Pub} (h : Good c b) (p : Player) : ∃ p', link c r b p = some p' ∧ Linked1 c r b p p' := by
  have hr := h.core.hRoom
  unfold link
  by_cases hst : p.state = 2
  · rw [if_pos hst]
    unfold follow
    dsimp only
    by_cases hne : b.hist = []
    · have hnull : ∀ j, b.cache j = none := by
        intro j
        cases hj : b.cache j with
        | none => rfl
        | some f =>
          obtain ⟨i, _, _, h3⟩ := h.core.hNull j f hj
          rw [hne] at h3
          cases h3
      rw [hnull]
      refine ⟨_, rfl, ⟨⟨rfl, rfl, rfl, rfl⟩, ⟨[], by simp⟩, Nat.le_refl _, ?_⟩⟩
      intro hm _ hrd
      have hl : p.log = [] := by
        rw [hne] at hm
        cases hl : p.log with
        | nil => rfl
        | cons f l => exact absurd (hm f (by rw [hl]; simp)) (by simp)
      exact ⟨Or.inr (Or.inl ⟨hl, by rw [hne]; rfl⟩), hrd.hSteady⟩
    · have hlt := (h.hMade hne).2
      obtain ⟨g, hg⟩ : ∃ g, b.hist[b.gone]? = some g := ⟨b.hist[b.gone], List.getElem?_eq_getElem hlt⟩
      have hs := h.core.hSlot _ _ (Nat.le_refl _) hg
      -- the index the session is at
      have hidx : ∃ j f, b.gone ≤ j ∧ b.hist[j]? = some f ∧ (if b.cache p.pos = none then b.pos else p.pos) = j % c.q ∧ b.cache (j % c.q) = some f ∧
          ((b.cache p.pos = none ∧ j = b.gone) ∨ p.pos = j % c.q) := by
        cases hcp : b.cache p.pos with
        | none => exact ⟨b.gone, g, Nat.le_refl _, hg, by rw [if_pos rfl]; exact h.hPos, hs, Or.inl ⟨rfl, rfl⟩⟩
        | some f =>
          obtain ⟨j, h1, h2, h3⟩ := h.core.hNull _ _ hcp
          exact ⟨j, f, h1, h3, by rw [if_neg (by simp)]; exact h2.symm, by rw [h2]; exact hcp, Or.inr h2.symm⟩
      obtain ⟨j, f, hj1, hj2, hj3, hj4, hj5⟩ := hidx
      rw [hj3, hj4]
      dsimp only
      obtain ⟨x, hx, _⟩ := h.core.get hj1 hj2
      rw [hx, Option.map_some]
      have hjl := lt_len hj2
      by_cases hfull : isFull r p
      · rw [if_pos hfull]
        refine ⟨_, rfl, ⟨⟨rfl, rfl, rfl, rfl⟩, ⟨[], by simp⟩, Nat.le_succ _, ?_⟩⟩
        intro _ _ hrd
        obtain ⟨g1, g2⟩ := hrd.goes h hne (by omega) hj1 hjl hj5
        refine ⟨Or.inr (Or.inr ⟨by show p.state ≠ 0; omega, fun e => absurd e (Nat.succ_ne_zero _), j, ⟨rfl, Nat.le_of_lt hjl, g1⟩, hj1, fun hsk hcalm => g2 hsk ?_⟩), fun hsk hcalm => hrd.hSteady hsk ?_⟩
        · exact Calm.back (p := p) (p' := { p with pos := j % c.q, full := p.full + 1 }) rfl (Nat.le_succ _) hcalm
        · exact Calm.back (p := p) (p' := { p with pos := j % c.q, full := p.full + 1 }) rfl (Nat.le_succ _) hcalm
      · rw [if_neg hfull]
        refine ⟨_, rfl, ⟨⟨rfl, rfl, rfl, rfl⟩, ⟨[f], rfl, rfl, fun f' hf' => by rw [List.mem_singleton.1 hf']; exact List.mem_of_getElem? hj2⟩, Nat.le_refl _, ?_⟩⟩
        intro _ _ hrd
        have hone : slice b j (j + 1) = [f] := by rw [slice_snoc (Nat.le_refl _) hj2, slice_self]; rfl
        obtain ⟨g1, g2⟩ := hrd.goes h hne (by omega) hj1 hjl hj5
        refine ⟨Or.inr (Or.inr ⟨by show p.state ≠ 0; omega, fun _ => hst, j + 1, ⟨nxt_mod c j, hjl, ?_⟩, by omega, fun hsk hcalm => ?_⟩), fun hsk hcalm => ?_⟩
        · show Reach b (p.log ++ [f]) (j + 1)
          rw [← hone]
          exact g1.app (Nat.le_succ _) hjl
        · show Next b (p.log ++ [f]) (j + 1)
          rw [← hone]
          exact (Next.app h.core.hSorted (Nat.le_succ _) hjl (g2 hsk hcalm) (hrd.hSteady hsk hcalm)).1
        · show Steady b.hist b.gone (p.log ++ [f])
          rw [← hone]
          exact (Next.app h.core.hSorted (Nat.le_succ _) hjl (g2 hsk hcalm) (hrd.hSteady hsk hcalm)).2
  · rw [if_neg hst]
    rcases sendGop_ok (r := r) h p with ⟨hne, p', e1, e2, e3, e4, e5⟩ | ⟨hne, p1, p', a, i, e1, e2, e3, e4, e5, e6, e7, e8, e9, hst0, _⟩
    · refine ⟨p', e1, ⟨e2, ⟨[], by rw [e3, List.append_nil], by rw [e4, List.append_nil], by simp⟩, by omega, ?_⟩⟩
      intro hm _ hrd
      have hl : p.log = [] := by
        rw [hne] at hm
        cases hl : p.log with
        | nil => rfl
        | cons f l => exact absurd (hm f (by rw [hl]; simp)) (by simp)
      exact ⟨Or.inr (Or.inl ⟨by rw [e3]; exact hl, by rw [hne]; rfl⟩), fun hsk hcalm => by rw [e3]; exact hrd.hSteady (by rw [← e2.hSince]; exact hsk) (Calm.back e2.hHls (by omega) hcalm)⟩
    · refine ⟨p', e1, ⟨e7.hKept, ⟨slice b a i, e7.hLog, e7.hQueue, slice_mem⟩, e7.hFull, ?_⟩⟩
      intro _ hoff hrd
      -- from where
      have hstart : Reach b p.log a ∧ (b.skip = p.since → Calm p → Next b p.log a) := by
        have hdec : Decodable b.frames b.hist p.log := by
          rcases hrd.hAt with h1 | h1 | ⟨_, _, j, h1, _⟩
          · rw [h1.2]; exact decodable_nil b
          · rw [h1.1]; exact decodable_nil b
          · exact h1.hReach.decodable h1.hi
        rcases e9 with h1 | ⟨_, ⟨h1, h2⟩ | ⟨h1, h2⟩⟩
        · obtain ⟨f, hf⟩ : ∃ f, b.hist[a]? = some f := ⟨b.hist[a], List.getElem?_eq_getElem e6⟩
          rw [hf] at h1
          have hm : f ∈ b.keys := (List.takeWhile_sublist _).subset (List.mem_of_getLast? h1)
          refine ⟨Or.inr ⟨Or.inl ⟨f, hf, (List.mem_filter.1 hm).2⟩, hdec⟩, ?_⟩
          intro _ hcalm
          left
          rcases hcalm with hn | hf0
          · rw [hoff hn, older_zero] at h1
            cases h1
          · rcases hrd.hAt with h3 | h3 | ⟨_, h3, _⟩
            · exact h3.2
            · exact h3.1
            · exact absurd (h3 hf0) hst
        · by_cases h0 : p.state = 0
          · refine ⟨Or.inr ⟨by rw [h1]; exact startOk_gone h, hdec⟩, fun _ _ => Or.inl ?_⟩
            rcases hrd.hAt with h3 | h3 | ⟨h3, _⟩
            · exact h3.2
            · exact h3.1
            · exact absurd h0 h3
          · exact hrd.goes h hne h0 e5 e6 (Or.inl ⟨h2.resolve_left h0, h1⟩)
        · exact hrd.goes h hne h1 e5 e6 (Or.inr h2)
      obtain ⟨g1, g2⟩ := hstart
      have hi := e7.hi
      refine ⟨Or.inr (Or.inr ⟨hst0, ?_, i, ⟨e7.hPos, hi.2, ?_⟩, by omega, fun hsk hcalm => ?_⟩), fun hsk hcalm => ?_⟩
      · intro hf0
        refine e8.hDone ?_
        have := e7.hFull
        omega
      · rw [e7.hLog]
        exact g1.app hi.1 hi.2
      · have hcalm := Calm.back e7.hKept.hHls e7.hFull hcalm
        rw [e7.hKept.hSince] at hsk
        rw [e7.hLog]
        exact (Next.app h.core.hSorted hi.1 hi.2 (g2 hsk hcalm) (hrd.hSteady hsk hcalm)).1
      · have hcalm := Calm.back e7.hKept.hHls e7.hFull hcalm
        rw [e7.hKept.hSince] at hsk
        rw [e7.hLog]
        exact (Next.app h.core.hSorted hi.1 hi.2 (g2 hsk hcalm) (hrd.hSteady hsk hcalm)).2

end Verif.Hls2.Gop
