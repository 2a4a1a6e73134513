import Verif.Rtmp.PingModel
import Verif.Base.ListInd
/-
C33: ping keep-alive.
-/
namespace Verif.Ping

theorem foldl_io (s : St) (w : List Io) :
    w.foldl io s = if s.dropped ∨ w = [] then s else { s with reset := true } := by
  induction w generalizing s with
  | nil => simp
  | cons x w ih =>
    rw [List.foldl_cons, ih]
    by_cases h : s.dropped <;> simp [io, h]

/-- What a session that is alive looks like right after a timer expiration (or at the start). -/
def Idle (s : St) : Prop := s.dropped = false ∧ s.reset = false

theorem window_cases (c : Cfg) (hp : c.ping ≠ 0) (s : St) (h : Idle s) (w : List Io) :
    window c true s w =
      if w ≠ [] then { s with active := false, timer := some c.ping }
      else if s.active then { s with dropped := true, timer := none }
      else if c.busy then { s with dropped := true, timer := none }
      else { s with active := true, pings := s.pings + 1, timer := some c.pingTimeout } := by
  obtain ⟨h1, h2⟩ := h
  obtain ⟨a, r, t, d, n⟩ := s
  simp only at h1 h2
  subst h1 h2
  simp only [window, foldl_io]
  by_cases hw : w = [] <;> simp [hw, timer, resetPing, hp]

/-- C33 (traffic protects): whatever happened before, a window with traffic in either direction never ends with the
session dropped; the timer is re-armed with the ping interval and no ping is outstanding. -/
theorem C33_traffic_never_dropped (c : Cfg) (hp : c.ping ≠ 0) (sendOk : Bool) (s : St) (hd : s.dropped = false)
    (w : List Io) (hw : w ≠ []) :
    (window c sendOk s w).dropped = false ∧ (window c sendOk s w).timer = some c.ping ∧
    (window c sendOk s w).active = false ∧ (window c sendOk s w).pings = s.pings := by
  simp [window, foldl_io, hd, hw, timer, resetPing, hp]

/-- History counterpart of `[false,false]` infix: two consecutive windows without any traffic. -/
def TwoSilent (ws : List (List Io)) : Prop := ∃ pre post, ws = pre ++ [] :: [] :: post

theorem run_append (c : Cfg) (ws : List (List Io)) (w : List Io) :
    run c (ws ++ [w]) = window c true (run c ws) w := by simp [run]

theorem twoSilent_snoc (ws : List (List Io)) (w : List Io) :
    TwoSilent (ws ++ [w]) ↔ TwoSilent ws ∨ (w = [] ∧ ∃ p, ws = p ++ [[]]) := by
  constructor
  · rintro ⟨pre, post, h⟩
    rcases List.eq_nil_or_concat post with rfl | ⟨q, x, rfl⟩
    · right
      have h' : ws ++ [w] = (pre ++ [[]]) ++ [[]] := by simpa using h
      have := List.append_inj' h' rfl
      exact ⟨by simpa using this.2, pre, this.1⟩
    · left
      have h' : ws ++ [w] = (pre ++ [] :: [] :: q) ++ [x] := by simpa using h
      exact ⟨pre, q, (List.append_inj' h' rfl).1⟩
  · rintro (⟨pre, post, rfl⟩ | ⟨rfl, p, rfl⟩)
    · exact ⟨pre, post ++ [w], by simp⟩
    · exact ⟨p, [], by simp⟩

/-- Number of silent windows. -/
def silent (ws : List (List Io)) : Nat := ws.countP (fun w => w.isEmpty)

theorem run_spec (c : Cfg) (hp : c.ping ≠ 0) (hb : c.busy = false) (ws : List (List Io)) :
    (TwoSilent ws → (run c ws).dropped = true) ∧
    (¬ TwoSilent ws → Idle (run c ws) ∧ (run c ws).pings = silent ws ∧
      ((run c ws).active = true ↔ ∃ p, ws = p ++ [[]]) ∧
      (run c ws).timer = some (if ws.getLast? = some [] then c.pingTimeout else c.ping)) := by
  induction ws using snocInd with
  | nil =>
    refine ⟨?_, fun _ => ?_⟩
    · rintro ⟨p, q, h⟩; simp at h
    · simp [run, init, resetPing, hp, Idle, silent]
  | snoc ws w ih =>
    rw [run_append]
    constructor
    · intro h
      rw [twoSilent_snoc] at h
      by_cases h0 : TwoSilent ws
      · have := ih.1 h0
        simp [window, foldl_io, this, timer]
      · rcases h with h | ⟨rfl, hq⟩
        · exact absurd h h0
        · obtain ⟨i1, i2, i3, _⟩ := ih.2 h0
          rw [window_cases c hp _ i1]
          simp [i3.2 hq]
    · intro h
      rw [twoSilent_snoc, not_or] at h
      obtain ⟨i1, i2, i3, i4⟩ := ih.2 h.1
      rw [window_cases c hp _ i1]
      have hlast : (∃ p, ws ++ [w] = p ++ [[]]) ↔ w = [] := by
        constructor
        · rintro ⟨p, hp⟩; exact by simpa using (List.append_inj' hp rfl).2
        · rintro rfl; exact ⟨ws, rfl⟩
      rw [hlast]
      by_cases hw : w = []
      · have : (run c ws).active = false := by
          cases ha : (run c ws).active
          · rfl
          · exact absurd ⟨hw, i3.1 ha⟩ h.2
        simp [hw, this, hb, Idle, i1.1, i1.2, i2, silent]
      · simp [hw, Idle, i1.1, i1.2, i2, silent]

/-- C33 (trace theorem; partial because "silent" has to mean no traffic in either direction, see the violation
below): over any history of timer windows the session is dropped by the ping timer exactly when two consecutive windows
had no traffic. -/
theorem C33_dropped_iff_partial (c : Cfg) (hp : c.ping ≠ 0) (hb : c.busy = false) (ws : List (List Io)) :
    (run c ws).dropped = true ↔ TwoSilent ws := by
  have h := run_spec c hp hb ws
  constructor
  · intro hd
    by_cases h0 : TwoSilent ws
    · exact h0
    · have := (h.2 h0).1.1; rw [hd] at this; cases this
  · exact h.1

/-- C33: as long as the session lives, exactly one ping request has been sent per silent window, and the
timer is armed with `ping_timeout` after a silent window and with `ping` otherwise. -/
theorem C33_one_ping_per_silent_window (c : Cfg) (hp : c.ping ≠ 0) (hb : c.busy = false) (ws : List (List Io))
    (hl : ¬ TwoSilent ws) :
    (run c ws).pings = silent ws ∧
    (∀ w pre, ws = pre ++ [w] → (run c ws).timer = some (if w = [] then c.pingTimeout else c.ping)) := by
  have h := (run_spec c hp hb ws).2 hl
  refine ⟨h.2.1, ?_⟩
  rintro w pre rfl
  rw [h.2.2.2]; simp

/-- C33 (busy mode): with `busy on` the first silent window drops the session without a ping. -/
theorem C33_busy (c : Cfg) (hp : c.ping ≠ 0) (hb : c.busy = true) (ws : List (List Io)) :
    ((run c ws).dropped = true ↔ [] ∈ ws) ∧ (run c ws).pings = 0 := by
  have : ([] ∈ ws → (run c ws).dropped = true) ∧ (¬ [] ∈ ws → Idle (run c ws) ∧ (run c ws).active = false) ∧
      (run c ws).pings = 0 := by
    induction ws using snocInd with
    | nil => simp [run, init, resetPing, hp, Idle]
    | snoc ws w ih =>
      rw [run_append]
      by_cases h0 : [] ∈ ws
      · have := ih.1 h0
        simp [window, foldl_io, this, timer, h0, ih.2.2]
      · obtain ⟨⟨i1, i2⟩, i3⟩ := ih.2.1 h0
        rw [window_cases c hp _ ⟨i1, i2⟩]
        by_cases hw : w = [] <;> simp [hw, i3, hb, h0, ih.2.2, Idle, i1, i2, Ne.symm]
  refine ⟨⟨fun hd => ?_, this.1⟩, this.2.2⟩
  by_cases h0 : [] ∈ ws
  · exact h0
  · have := (this.2.1 h0).1.1; rw [hd] at this; cases this

/-- C33 (violation): a peer that never sends anything is never dropped as long as its socket accepts our
output, because flushing the ping request itself counts as traffic: for every `n`, after `n` rounds of "silence, ping request
sent and flushed, silence until the ping timeout" the session is still alive although nothing was ever received. -/
theorem C33_silent_peer_violation (c : Cfg) (hp : c.ping ≠ 0) (hb : c.busy = false) (n : Nat) :
    let ws := (List.replicate n ([[], [Io.flushed]] : List (List Io))).flatten
    (∀ w ∈ ws, Io.received ∉ w) ∧ (run c ws).dropped = false ∧ (run c ws).pings = n := by
  intro ws
  refine ⟨?_, ?_⟩
  · intro w hw
    simp only [ws, List.mem_flatten, List.mem_replicate] at hw
    obtain ⟨l, ⟨_, rfl⟩, hw⟩ := hw
    simp at hw
    rcases hw with rfl | rfl <;> simp
  · have gen : ∀ n, Idle (run c (List.replicate n ([[], [Io.flushed]] : List (List Io))).flatten) ∧
        (run c (List.replicate n ([[], [Io.flushed]] : List (List Io))).flatten).active = false ∧
        (run c (List.replicate n ([[], [Io.flushed]] : List (List Io))).flatten).pings = n := by
      intro n
      induction n with
      | zero => simp [run, init, resetPing, hp, Idle]
      | succ n ih =>
        have e : (List.replicate (n+1) ([[], [Io.flushed]] : List (List Io))).flatten =
            ((List.replicate n ([[], [Io.flushed]] : List (List Io))).flatten ++ [[]]) ++ [[Io.flushed]] := by
          rw [List.replicate_succ']; simp
        rw [e, run_append, run_append]
        obtain ⟨i1, i2, i3⟩ := ih
        have w1 := window_cases c hp _ i1 []
        rw [w1]
        simp only [ne_eq, not_true_eq_false, ↓reduceIte, i2, hb, Bool.false_eq_true]
        rw [window_cases c hp { active := true, reset := _, timer := _, dropped := _, pings := _ } ⟨i1.1, i1.2⟩]
        simp [Idle, i1.1, i1.2, i3]
    exact ⟨(gen n).1.1, (gen n).2.2⟩

/-- C33: `ping 0` never arms the timer. -/
theorem C33_off (c : Cfg) (hp : c.ping = 0) : (init c).timer = none := by simp [init, resetPing, hp]

example : run ⟨60000, 30000, false⟩ [[.received], [], [.received], []] =
  { active := true, timer := some 30000, pings := 2 } := by decide
example : TwoSilent [[.received], [], [], [.received]] := ⟨[[.received]], [[.received]], rfl⟩
example : ¬ TwoSilent [[], [.flushed], []] := by
  have := C33_dropped_iff_partial ⟨60000, 30000, false⟩ (by decide) rfl [[], [.flushed], []]
  rw [← this]; decide

end Verif.Ping
