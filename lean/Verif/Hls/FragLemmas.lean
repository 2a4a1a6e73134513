import Verif.Hls.FragSpec
/- Lemmas: the ring holds the last fragments. -/
namespace Verif.HlsFrag

/-- The ring of `st` holds the last `win` of `all`, which are numbered from `seq`. -/
structure Window (cfg : Cfg) (seq : Nat) (all : List Frag) (st : St) : Prop where
  hN : st.nfrags = min cfg.win all.length
  hFrag : st.frag = seq + (all.length - cfg.win)
  hRing : ∀ i, i < st.nfrags → all[all.length - cfg.win + i]? = some (getFrag cfg st i)

theorem slot_ne (cfg : Cfg) (st : St) (i n : Nat) (hi : i < n) (hn : n ≤ cfg.win) : slot cfg st i ≠ slot cfg st n := by
  intro h
  unfold slot at h
  have h1 := Nat.div_add_mod (st.frag + i) (cfg.win * 2 + 1)
  have h2 := Nat.div_add_mod (st.frag + n) (cfg.win * 2 + 1)
  have m1 := Nat.mod_lt (st.frag + n) (y := cfg.win * 2 + 1) (by omega)
  obtain ⟨a, ha⟩ : ∃ a, a = (st.frag + i) / (cfg.win * 2 + 1) := ⟨_, rfl⟩
  obtain ⟨b, hb⟩ : ∃ b, b = (st.frag + n) / (cfg.win * 2 + 1) := ⟨_, rfl⟩
  rw [← ha] at h1
  rw [← hb] at h2
  have hab : a ≤ b := by rw [ha, hb]; exact Nat.div_le_div_right (by omega)
  obtain ⟨c, rfl⟩ := Nat.le.dest hab
  rw [Nat.mul_add] at h2
  have : (cfg.win * 2 + 1) * c = n - i := by omega
  cases c with
  | zero => simp at this; omega
  | succ c =>
    rw [Nat.mul_succ] at this
    have := Nat.zero_le ((cfg.win * 2 + 1) * c)
    omega

theorem getFrag_setFrag_same (cfg : Cfg) (st : St) (n : Nat) (f : Frag) : getFrag cfg (setFrag cfg st n f) n = f := by
  simp [getFrag, setFrag, slot]

theorem getFrag_setFrag_lt (cfg : Cfg) (st : St) (i n : Nat) (f : Frag) (hi : i < n) (hn : n ≤ cfg.win) :
    getFrag cfg (setFrag cfg st n f) i = getFrag cfg st i := by
  have := slot_ne cfg st i n hi hn
  exact if_neg this

theorem Window.le {cfg seq all st} (h : Window cfg seq all st) : st.nfrags ≤ cfg.win := by
  have := h.hN; omega

theorem Window.count {cfg seq all st} (h : Window cfg seq all st) : st.frag + st.nfrags = seq + all.length := by
  have := h.hN; have := h.hFrag; omega

/-- Only the counters and the ring matter. -/
theorem Window.congr {cfg seq all st st'} (h : Window cfg seq all st) (h1 : st'.nfrags = st.nfrags) (h2 : st'.frag = st.frag)
    (h3 : st'.ring = st.ring) : Window cfg seq all st' := by
  refine ⟨by rw [h1, h.hN], by rw [h2, h.hFrag], ?_⟩
  intro i hi
  rw [h1] at hi
  rw [h.hRing i hi]
  simp [getFrag, slot, h2, h3]

theorem Window.set {cfg seq all st} (h : Window cfg seq all st) (f : Frag) : Window cfg seq all (setFrag cfg st st.nfrags f) := by
  refine ⟨h.hN, h.hFrag, ?_⟩
  intro i hi
  have hi' : i < st.nfrags := hi
  rw [getFrag_setFrag_lt cfg st i st.nfrags f hi' h.le]
  exact h.hRing i hi'

theorem Window.next {cfg seq all st} (h : Window cfg seq all st) :
    Window cfg seq (all ++ [getFrag cfg st st.nfrags]) (nextFrag cfg st) := by
  have hN := h.hN
  have hF := h.hFrag
  unfold nextFrag
  by_cases c : st.nfrags = cfg.win
  · rw [if_pos c]
    refine ⟨by simp; omega, by simp; omega, ?_⟩
    intro i hi
    have hi' : i < st.nfrags := hi
    have hg : getFrag cfg { st with frag := st.frag + 1 } i = getFrag cfg st (i + 1) := by
      simp only [getFrag, slot]
      rw [show st.frag + 1 + i = st.frag + (i + 1) by omega]
    rw [hg]
    simp only [List.length_append, List.length_singleton]
    by_cases e : i + 1 < st.nfrags
    · rw [List.getElem?_append_left (by omega), ← h.hRing (i + 1) e]
      congr 1; omega
    · rw [List.getElem?_append_right (by omega)]
      have : all.length + 1 - cfg.win + i - all.length = 0 := by omega
      rw [this, show i + 1 = st.nfrags by omega]
      rfl
  · rw [if_neg c]
    refine ⟨by simp; omega, by simp; omega, ?_⟩
    intro i hi
    have hi' : i < st.nfrags + 1 := hi
    have hg : getFrag cfg { st with nfrags := st.nfrags + 1 } i = getFrag cfg st i := rfl
    rw [hg]
    simp only [List.length_append, List.length_singleton]
    by_cases e : i < st.nfrags
    · rw [List.getElem?_append_left (by omega), ← h.hRing i e]
      congr 1; omega
    · rw [List.getElem?_append_right (by omega)]
      have : all.length + 1 - cfg.win + i - all.length = 0 := by omega
      rw [this, show i = st.nfrags by omega]
      rfl

theorem window_resume (cfg : Cfg) (seq : Nat) (kf : Nat → Option Nat) (fs : List Frag) : Window cfg seq fs (resume cfg seq kf fs) := by
  suffices hs : ∀ fs all st, Window cfg seq all st →
      Window cfg seq (all ++ fs) (fs.foldl (fun st f => nextFrag cfg (setFrag cfg st st.nfrags f)) st) by
    have := hs fs [] { frag := seq, keyFiles := kf } ⟨by simp, by simp, fun i hi => absurd hi (Nat.not_lt_zero i)⟩
    exact this
  intro fs
  induction fs with
  | nil => intro all st h; simpa using h
  | cons f fs ih =>
    intro all st h
    have h1 := (h.set f).next
    have e : getFrag cfg (setFrag cfg st st.nfrags f) (setFrag cfg st st.nfrags f).nfrags = f := getFrag_setFrag_same cfg st st.nfrags f
    rw [e] at h1
    have := ih _ _ h1
    simpa using this

theorem nextFrag_rest (cfg : Cfg) (st : St) : ∃ a b, nextFrag cfg st = { st with frag := a, nfrags := b } := by
  unfold nextFrag
  by_cases c : st.nfrags = cfg.win
  · rw [if_pos c]; exact ⟨_, _, rfl⟩
  · rw [if_neg c]; exact ⟨_, _, rfl⟩

/-- Everything but the counters and the ring stays. -/
theorem resume_rest (cfg : Cfg) (seq : Nat) (kf : Nat → Option Nat) (fs : List Frag) :
    (resume cfg seq kf fs).opened = false ∧ (resume cfg seq kf fs).done = [] ∧ (resume cfg seq kf fs).opens = [] ∧
    (resume cfg seq kf fs).cur = [] ∧ (resume cfg seq kf fs).list = none ∧ (resume cfg seq kf fs).keyFiles = kf ∧
    (resume cfg seq kf fs).keyFrags = 0 ∧ (resume cfg seq kf fs).fragTs = 0 := by
  suffices hs : ∀ (fs : List Frag) (st : St), let r := fs.foldl (fun st f => nextFrag cfg (setFrag cfg st st.nfrags f)) st
      r.opened = st.opened ∧ r.done = st.done ∧ r.opens = st.opens ∧ r.cur = st.cur ∧ r.list = st.list ∧ r.keyFiles = st.keyFiles ∧
      r.keyFrags = st.keyFrags ∧ r.fragTs = st.fragTs from hs fs _
  intro fs
  induction fs with
  | nil => intro st; simp
  | cons f fs ih =>
    intro st
    have := ih (nextFrag cfg (setFrag cfg st st.nfrags f))
    obtain ⟨a, b, e⟩ := nextFrag_rest cfg (setFrag cfg st st.nfrags f)
    simp only [List.foldl_cons]
    obtain ⟨a1, a2, a3, a4, a5, a6, a7, a8⟩ := this
    rw [a1, a2, a3, a4, a5, a6, a7, a8, e]
    exact ⟨rfl, rfl, rfl, rfl, rfl, rfl, rfl, rfl⟩

theorem target_ge (fs : List Frag) : ∀ m, m ≤ target m fs ∧ ∀ f ∈ fs, (f.dur + 45000) / 90000 ≤ target m fs := by
  induction fs with
  | nil => intro m; exact ⟨Nat.le_refl _, fun f h => absurd h (by simp)⟩
  | cons g fs ih =>
    intro m
    simp only [target]
    obtain ⟨m', hm'⟩ : ∃ m', m' = (if g.dur > m * 90000 then (g.dur + 45000) / 90000 else m) := ⟨_, rfl⟩
    rw [← hm']
    obtain ⟨h1, h2⟩ := ih m'
    have : m ≤ m' ∧ (g.dur + 45000) / 90000 ≤ m' := by
      rw [hm']; split <;> omega
    refine ⟨by omega, ?_⟩
    intro f hf
    rcases List.mem_cons.1 hf with rfl | hf
    · omega
    · exact h2 f hf

theorem Window.shows {cfg seq all st} (h : Window cfg seq all st) : Shows cfg.win seq all (playlist cfg st) := by
  refine ⟨?_, h.hFrag⟩
  have hN := h.hN
  apply List.ext_getElem?
  intro i
  simp only [playlist, lastN, List.getElem?_map, List.getElem?_drop]
  by_cases c : i < st.nfrags
  · rw [List.getElem?_range c, h.hRing i c]; rfl
  · rw [List.getElem?_eq_none (by simp; omega), List.getElem?_eq_none (by omega)]; rfl

theorem playlist_target (cfg : Cfg) (st : St) : TargetOk (playlist cfg st) ∧ cfg.fraglen / 1000 ≤ (playlist cfg st).target := by
  have := target_ge ((List.range st.nfrags).map (getFrag cfg st)) (cfg.fraglen / 1000)
  exact ⟨this.2, this.1⟩

end Verif.HlsFrag
