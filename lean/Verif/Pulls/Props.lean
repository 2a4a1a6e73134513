import Verif.Pulls.Spec
import Verif.Pulls.Phases
/-
C89: the static pulls are those of the last configuration.
-/
namespace Verif.Pulls

theorem serves_of {s : State} (I : Inv s) {c : List Nat} (h : s.pulls.map (fun i => (s.recs i).stream) = c) : Serves s c := by
  subst h
  constructor
  · intro p hp
    obtain ⟨i, hi, e⟩ := List.mem_map.1 hp
    obtain ⟨d, _, h2, _⟩ := I.reg i hi
    exact ⟨d, by rw [h2, ← e]⟩
  · intro d p h
    obtain ⟨i, hi, h1, h2⟩ := I.own d p h
    refine ⟨List.mem_map.2 ⟨i, hi, h2⟩, fun e he => ?_⟩
    obtain ⟨j, hj, j1, j2⟩ := I.own e p he
    have := inj_of_nodup I.nd i hi j hj (h2.trans j2.symm)
    rw [← this, h1] at j1
    injection j1 with j1
    exact j1.symm

theorem run_calm : ∀ (os : List Op) (s : State) (c : List Nat), Inv s → s.pulls.map (fun i => (s.recs i).stream) = c → Calm os →
    ∃ s', run s os = some s' ∧ Inv s' ∧ s'.pulls.map (fun i => (s'.recs i).stream) = wanted c os
  | [], s, _, I, hc, _ => ⟨s, rfl, I, hc⟩
  | .reload ps bad :: os, s, c, I, _, h => by
    obtain ⟨h1, h2, h3⟩ := h
    subst h2
    obtain ⟨s1, k0, k1, k2, _⟩ := reload_spec I ps h1
    obtain ⟨s', r1, r2⟩ := run_calm os s1 ps k1 k2 h3
    exact ⟨s', by unfold run; show (reload s ps []).bind _ = _; rw [k0]; exact r1, r2⟩
  | .again d ok :: os, s, c, I, hc, h => by
    obtain ⟨h1, h3⟩ := h
    subst h1
    obtain ⟨k1, k2, k3⟩ := inv_again I d
    obtain ⟨s', r1, r2⟩ := run_calm os (again s d true) c k1 (by rw [k2, List.map_congr_left (fun i _ => k3 i)]; exact hc) h3
    exact ⟨s', r1, r2⟩

/-- C89 (partial: no configuration is refused and every session can be made, see the violations below): whatever configurations are read and whatever sessions end in between, the worker follows no wrong pointer, and afterwards there is exactly one session for each stream of the last configuration and none for any other. -/
theorem C89_sessions_partial (os : List Op) (h : Calm os) : ∃ s, run State.init os = some s ∧ Serves s (wanted [] os) := by
  obtain ⟨s, h1, h2, h3⟩ := run_calm os State.init [] inv_init rfl h
  exact ⟨s, h1, serves_of h2 h3⟩

/-- C89 (partial: as above): reading a configuration leaves the sessions of streams that stay alone, gives up those of streams that are removed, and no others. -/
theorem C89_kept_partial (os : List Op) (h : Calm os) (s : State) (hs : run State.init os = some s) (ps : List Nat) (hp : ps.Nodup) :
    ∃ s', reload s ps [] = some s' ∧ (∀ d p, s.live d = some p → p ∈ ps → s'.live d = some p) ∧
      (∀ d p, s.live d = some p → p ∉ ps → s'.live d = none ∧ d ∈ s'.stopped) ∧ ∀ d, d ∈ s'.stopped → d ∈ s.stopped ∨ ∃ p, s.live d = some p ∧ p ∉ ps := by
  obtain ⟨s0, h1, I, _⟩ := run_calm os State.init [] inv_init rfl h
  rw [hs] at h1
  injection h1 with h1
  subst h1
  obtain ⟨s', k0, k1, k2, k3, k4, _, k6⟩ := reload_spec I ps hp
  exact ⟨s', k0, k3, k4, k6⟩

theorem puts : ∀ (l : List Nat) (s : State), (l.foldl put s).live = s.live ∧ (l.foldl put s).pulls = s.pulls ∧ (l.foldl put s).stopped = s.stopped ∧ (l.foldl put s).recs = s.recs ∧ (l.foldl put s).ctx = s.ctx
  | [], _ => ⟨rfl, rfl, rfl, rfl, rfl⟩
  | i :: l, s => puts l (put s i)

/-- C89: a configuration with a duplicate is refused. At that time nothing is lost: all sessions go on, and those that belong to records still do. -/
theorem C89_rejected (os : List Op) (h : Calm os) (s : State) (hs : run State.init os = some s) (ps bad : List Nat) (hp : ¬ ps.Nodup) :
    ∃ s', reload s ps bad = some s' ∧ s'.live = s.live ∧ s'.pulls = s.pulls ∧ s'.stopped = s.stopped ∧ s'.ctx = s.ctx ∧ (∀ i ∈ s.pulls, s'.recs i = s.recs i) ∧ Serves s' (wanted [] os) := by
  obtain ⟨s0, h1, I, hw⟩ := run_calm os State.init [] inv_init rfl h
  rw [hs] at h1
  injection h1 with h1
  subst h1
  obtain ⟨done, links, w, hc, M⟩ := mid_collect I ps (mid_init I)
  rcases hc with ⟨_, hd, hn⟩ | ⟨hc, _⟩
  · exact absurd (by have := hn List.nodup_nil; rw [hd] at this; simpa using this) hp
  obtain ⟨p1, p2, p3, p4, p5⟩ := puts w.new w.s
  have hl := p1.trans M.live
  refine ⟨w.new.foldl put w.s, by unfold reload; rw [hc], hl, p2.trans M.pulls, p3.trans M.stopped, p5.trans M.ctx, fun i hi => by rw [p4]; exact (M.old i hi).1, ?_⟩
  have := serves_of I hw
  unfold Serves at this ⊢
  rw [hl]; exact this

/-- C89: each stream is the business of exactly one worker. -/
theorem C89_worker (hash : Nat → Nat) (n : Nat) (hn : 0 < n) (ps : List Nat) (p : Nat) (hp : p ∈ ps) : ∃ w < n, p ∈ share hash n w ps ∧ ∀ v, p ∈ share hash n v ps → v = w := by
  refine ⟨hash p % n, Nat.mod_lt _ hn, List.mem_filter.2 ⟨hp, by simp⟩, fun v hv => ?_⟩
  have := (List.mem_filter.1 hv).2
  simp at this
  exact this.symm

/-- C89 (not so): after a configuration was refused, the records of the old one are still linked to each other (432-433, 479-491). When stream 2 is removed by the next configuration, its record is taken for one of a stream that stays: the session goes on, and no record knows it. -/
theorem C89_stale_violation : (run State.init [.reload [1, 2] [], .reload [1, 2, 1] [], .reload [1] []]).map (fun s => (s.pulls.map fun i => (s.recs i).stream, s.live 1, s.stopped)) = some ([1], some 2, []) := by decide

/-- C89 (not so): for the same reason, with the streams in the other order a record is put into the list of free ones twice. -/
theorem C89_twice_violation : (run State.init [.reload [1, 2] [], .reload [1, 2, 1] [], .reload [2, 1] []]).isNone = true := by decide

/-- C89 (not so): a stream for which no session could be made (180-193) has none when it is removed, and 453 follows the null pointer. If a session ended and could not be made again, its record still points to it: the next reading uses it, whether the stream stays or not. -/
theorem C89_null_violation : (run State.init [.reload [1] [1], .reload [] []]).isNone = true ∧ (run State.init [.reload [1] [], .again 0 false, .reload [] []]).isNone = true ∧
    (run State.init [.reload [1] [], .again 0 false, .reload [1] []]).isNone = true := by decide

end Verif.Pulls
