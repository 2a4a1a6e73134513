import Verif.Hls.FragFrames
/- Lemmas: cuts are made where they have to be, and only there. -/
namespace Verif.HlsFrag

theorem diff_range (ts t : Nat) (h : ts < 2 ^ 63) (ht : t < 2 ^ 63) (m : Nat) (hm : m < 2 ^ 63)
    (hn : ¬ (diff ts t > (m : Nat) ∨ diff ts t < -90000)) : sub64 ts t ≤ m ∨ 2 ^ 64 - 90000 ≤ sub64 ts t := by
  unfold diff at hn
  unfold sub64
  obtain ⟨n, en⟩ : ∃ n, n = (ts + (2 ^ 64 - t % 2 ^ 64)) % 2 ^ 64 := ⟨_, rfl⟩
  rw [← en] at hn ⊢
  have hlt : n < 2 ^ 64 := by rw [en]; exact Nat.mod_lt _ (by decide)
  dsimp only at hn
  split at hn
  · left; omega
  · right; omega

theorem diff_eq (ts t : Nat) (h : ts < 2 ^ 63) (ht : t < 2 ^ 63) : diff ts t = (ts : Int) - (t : Int) := by
  unfold diff
  dsimp only
  by_cases c : t ≤ ts
  · have e : (ts + (2 ^ 64 - t % 2 ^ 64)) % 2 ^ 64 = ts - t := by omega
    rw [e, if_pos (by omega)]; omega
  · have e : (ts + (2 ^ 64 - t % 2 ^ 64)) % 2 ^ 64 = ts + 2 ^ 64 - t := by omega
    rw [e, if_neg (by omega)]; omega

/-- Durations are below the limit, or those of a message less than a second before its fragment. -/
structure InvB (cfg : Cfg) (st : St) : Prop where
  hDone : ∀ d ∈ st.done, d.start < 2 ^ 63 ∧ (d.frag.dur ≤ cfg.maxFraglen * 90 ∨ 2 ^ 64 - 90000 ≤ d.frag.dur)
  hCur : st.opened = true → st.fragTs < 2 ^ 63 ∧ ((getFrag cfg st st.nfrags).dur ≤ cfg.maxFraglen * 90 ∨ 2 ^ 64 - 90000 ≤ (getFrag cfg st st.nfrags).dur)

theorem invB_close {cfg st} (h : InvB cfg st) : InvB cfg (closeFragment cfg st) := by
  by_cases ho : st.opened = true
  · obtain ⟨h1, _, h3⟩ := close_effect cfg st ho
    refine ⟨?_, by rw [h1]; intro c; cases c⟩
    rw [h3]
    intro d hd
    rcases List.mem_append.1 hd with hd | hd
    · exact h.hDone d hd
    · rw [List.mem_singleton.1 hd]; exact h.hCur ho
  · rw [close_closed cfg st (by simpa using ho)]; exact h

theorem invB_open {cfg st} (env : Env) (ts : Nat) (disc : Bool) (hts : ts < 2 ^ 63) (ho : st.opened = false) (h : InvB cfg st) :
    InvB cfg (openFragment cfg env ts disc st) := by
  obtain ⟨h1, h2⟩ := open_effect cfg env ts disc st ho
  refine ⟨by rw [h1]; exact h.hDone, fun hop => ?_⟩
  rcases h2 with ⟨h2, _⟩ | ⟨_, h3, _, i, k, h4⟩
  · rw [h2] at hop; cases hop
  · rw [h3, h4]; exact ⟨hts, Or.inl (Nat.zero_le _)⟩

theorem invB_update {cfg env ts b st st'} (hm : cfg.maxFraglen * 90 < 2 ^ 63) (hts : ts < 2 ^ 63) (h : InvB cfg st)
    (he : update cfg env ts b st = some st') : InvB cfg st' := by
  have hset : st.opened = true → ¬ Forced cfg ts st.fragTs → InvB cfg (setDur cfg st (sub64 ts st.fragTs)) := by
    intro ho hn
    refine ⟨h.hDone, fun _ => ?_⟩
    rw [setDur_cur]
    exact ⟨(h.hCur ho).1, diff_range ts st.fragTs hts (h.hCur ho).1 _ hm hn⟩
  rcases update_cases he with ⟨ho, ⟨t, e⟩ | ⟨_, e⟩⟩ | ⟨ho, ⟨_, e⟩ | ⟨hn, ⟨_, e⟩ | ⟨_, hc, e⟩⟩⟩
  · rw [e]; exact ⟨h.hDone, fun c => absurd (ho ▸ c) (by simp)⟩
  · rw [e]; exact invB_open env ts true hts ho h
  · rw [e]; exact invB_open env ts true hts (close_opened cfg st) (invB_close h)
  · rw [e]; exact hset ho hn
  · rw [e]; exact invB_open env ts false hts (close_opened cfg _) (invB_close (hset ho hn))

theorem invB_step {cfg op st st'} (hm : cfg.maxFraglen * 90 < 2 ^ 63) (hts : ∀ t, opTs op = some t → t < 2 ^ 63) (h : InvB cfg st)
    (he : step cfg st op = some st') : InvB cfg st' := by
  cases op with
  | video f env =>
    simp only [step, Option.map_eq_some_iff] at he
    obtain ⟨s, hs, e⟩ := he
    have := invB_update hm (hts _ rfl) h hs
    rw [← e]
    split
    · exact ⟨this.hDone, this.hCur⟩
    · exact this
  | audio ts b env => exact invB_update hm (hts _ rfl) h he
  | close =>
    simp only [step, Option.some.injEq] at he
    rw [← he]; exact invB_close h

theorem invB_resume (cfg : Cfg) (seq : Nat) (kf : Nat → Option Nat) (old : List Frag) : InvB cfg (resume cfg seq kf old) := by
  have hr := resume_rest cfg seq kf old
  refine ⟨?_, by rw [hr.1]; intro c; cases c⟩
  rw [hr.2.1]; intro d hd; simp at hd

/-- No frame in a fragment could have started another one. -/
def NoCut (cfg : Cfg) (start : Nat) (f : Frame) : Prop := f.boundary = true → f.ts = start ∨ ¬ CutOk cfg start f.ts (sub64 f.ts start)

structure InvC (cfg : Cfg) (st : St) : Prop where
  hDone : ∀ d ∈ st.done, ∀ f ∈ d.frames, NoCut cfg d.start f
  hCur : st.opened = true → ∀ f ∈ st.cur, NoCut cfg st.fragTs f

theorem invC_close {cfg st} (h : InvC cfg st) : InvC cfg (closeFragment cfg st) := by
  by_cases ho : st.opened = true
  · obtain ⟨h1, _, h3⟩ := close_effect cfg st ho
    refine ⟨?_, by rw [h1]; intro c; cases c⟩
    rw [h3]
    intro d hd
    rcases List.mem_append.1 hd with hd | hd
    · exact h.hDone d hd
    · rw [List.mem_singleton.1 hd]; exact h.hCur ho
  · rw [close_closed cfg st (by simpa using ho)]; exact h

theorem invC_open {cfg st} (env : Env) (ts : Nat) (disc : Bool) (ho : st.opened = false) (h : InvC cfg st) :
    InvC cfg (openFragment cfg env ts disc st) ∧ ((openFragment cfg env ts disc st).opened = true → (openFragment cfg env ts disc st).fragTs = ts) := by
  obtain ⟨h1, h2⟩ := open_effect cfg env ts disc st ho
  rcases h2 with ⟨h2, _⟩ | ⟨_, h3, h4, _⟩
  · exact ⟨⟨by rw [h1]; exact h.hDone, by rw [h2]; intro c; cases c⟩, by rw [h2]; intro c; cases c⟩
  · exact ⟨⟨by rw [h1]; exact h.hDone, fun _ => by rw [h4]; intro f hf; simp at hf⟩, fun _ => h3⟩

theorem invC_update {cfg env ts b st st'} (h : InvC cfg st) (he : update cfg env ts b st = some st') :
    InvC cfg st' ∧ (st'.opened = true → st'.fragTs = ts ∨ (b = true → ¬ CutOk cfg st'.fragTs ts (sub64 ts st'.fragTs))) := by
  have hopen : ∀ st0 disc, st0.opened = false → InvC cfg st0 → InvC cfg (openFragment cfg env ts disc st0) ∧
      ((openFragment cfg env ts disc st0).opened = true → (openFragment cfg env ts disc st0).fragTs = ts ∨
        (b = true → ¬ CutOk cfg (openFragment cfg env ts disc st0).fragTs ts (sub64 ts (openFragment cfg env ts disc st0).fragTs))) :=
    fun st0 disc h0 hi => ⟨(invC_open env ts disc h0 hi).1, fun hop => Or.inl ((invC_open env ts disc h0 hi).2 hop)⟩
  have hset : InvC cfg (setDur cfg st (sub64 ts st.fragTs)) := ⟨h.hDone, h.hCur⟩
  rcases update_cases he with ⟨ho, ⟨t, e⟩ | ⟨_, e⟩⟩ | ⟨ho, ⟨_, e⟩ | ⟨hn, ⟨hx, e⟩ | ⟨_, hc, e⟩⟩⟩
  · rw [e]; exact ⟨⟨h.hDone, fun c => absurd (ho ▸ c) (by simp)⟩, fun c => absurd (ho ▸ c) (by simp)⟩
  · rw [e]; exact hopen st true ho h
  · rw [e]; exact hopen _ true (close_opened cfg st) (invC_close h)
  · rw [e]; exact ⟨hset, fun _ => Or.inr hx⟩
  · rw [e]; exact hopen _ false (close_opened cfg _) (invC_close hset)

theorem invC_step {cfg op st st'} (h : InvC cfg st) (he : step cfg st op = some st') : InvC cfg st' := by
  cases op with
  | video f env =>
    simp only [step, Option.map_eq_some_iff] at he
    obtain ⟨s, hs, e⟩ := he
    obtain ⟨h1, h2⟩ := invC_update h hs
    rw [← e]
    split
    · rename_i ho
      refine ⟨h1.hDone, fun _ g hg => ?_⟩
      rcases List.mem_append.1 hg with hg | hg
      · exact h1.hCur ho g hg
      · rw [List.mem_singleton.1 hg]
        intro hb
        rcases h2 ho with h2 | h2
        · exact Or.inl h2.symm
        · exact Or.inr (h2 hb)
    · exact h1
  | audio ts b env => exact (invC_update h he).1
  | close =>
    simp only [step, Option.some.injEq] at he
    rw [← he]; exact invC_close h

theorem invC_resume (cfg : Cfg) (seq : Nat) (kf : Nat → Option Nat) (old : List Frag) : InvC cfg (resume cfg seq kf old) := by
  have hr := resume_rest cfg seq kf old
  refine ⟨?_, by rw [hr.1]; intro c; cases c⟩
  rw [hr.2.1]; intro d hd; simp at hd

/-- With a disk that works a discontinuity is only where a cut was forced. -/
structure InvX (cfg : Cfg) (st : St) : Prop where
  hIdle : st.opened = false → st.done = []
  hAdj : Adjacent (fun a b => b.frag.discont = true → Forced cfg b.start a.start) st.done
  hCur : st.opened = true → ∀ a, st.done.getLast? = some a → (getFrag cfg st st.nfrags).discont = true → Forced cfg st.fragTs a.start

theorem invX_cut {cfg env ts disc st} (hd : env.disk = .ok) (ho : st.opened = true) (h : InvX cfg st)
    (hf : disc = true → Forced cfg ts st.fragTs) : InvX cfg (openFragment cfg env ts disc (closeFragment cfg st)) := by
  obtain ⟨h1, _, h3⟩ := close_effect cfg st ho
  obtain ⟨o1, o2⟩ := open_effect cfg env ts disc (closeFragment cfg st) h1
  have hop := open_ok cfg env ts disc (closeFragment cfg st) hd
  refine ⟨fun c => absurd (hop ▸ c) (by simp), ?_, fun _ => ?_⟩
  · rw [o1, h3]; exact adjacent_snoc h.hAdj (h.hCur ho)
  · rcases o2 with ⟨c, _⟩ | ⟨_, o3, _, i, k, o4⟩
    · rw [hop] at c; cases c
    · rw [o1, h3, o3, o4]
      intro a ha
      simp only [List.getLast?_concat, Option.some.injEq] at ha
      rw [← ha]; exact hf

theorem invX_update {cfg env ts b st st'} (hd : env.disk = .ok) (h : InvX cfg st) (he : update cfg env ts b st = some st') : InvX cfg st' := by
  have hset : InvX cfg (setDur cfg st (sub64 ts st.fragTs)) := ⟨h.hIdle, h.hAdj, fun ho => by rw [setDur_cur]; exact h.hCur ho⟩
  rcases update_cases he with ⟨ho, ⟨t, e⟩ | ⟨_, e⟩⟩ | ⟨ho, ⟨hn, e⟩ | ⟨hn, ⟨hx, e⟩ | ⟨_, hc, e⟩⟩⟩
  · rw [e]; exact ⟨h.hIdle, h.hAdj, fun c => absurd (ho ▸ c) (by simp)⟩
  · rw [e]
    obtain ⟨o1, _⟩ := open_effect cfg env ts true st ho
    have hop := open_ok cfg env ts true st hd
    refine ⟨fun c => absurd (hop ▸ c) (by simp), by rw [o1]; exact h.hAdj, fun _ a ha => ?_⟩
    rw [o1, h.hIdle ho] at ha; simp at ha
  · rw [e]; exact invX_cut hd ho h (fun _ => hn)
  · rw [e]; exact hset
  · rw [e]; exact invX_cut hd (st := setDur cfg st (sub64 ts st.fragTs)) ho hset (fun c => absurd c (by simp))

theorem invX_step {cfg op st st'} (hw : Works op) (h : InvX cfg st) (he : step cfg st op = some st') : InvX cfg st' := by
  cases op with
  | video f env =>
    simp only [step, Option.map_eq_some_iff] at he
    obtain ⟨s, hs, e⟩ := he
    have := invX_update hw h hs
    rw [← e]
    split
    · exact ⟨this.hIdle, this.hAdj, this.hCur⟩
    · exact this
  | audio ts b env => exact invX_update hw h he
  | close => exact absurd hw (fun c => c)

theorem invX_resume (cfg : Cfg) (seq : Nat) (kf : Nat → Option Nat) (old : List Frag) : InvX cfg (resume cfg seq kf old) := by
  have hr := resume_rest cfg seq kf old
  refine ⟨fun _ => hr.2.1, ?_, by rw [hr.1]; intro c; cases c⟩
  rw [hr.2.1]
  intro pre a b post e
  simp at e

end Verif.HlsFrag
