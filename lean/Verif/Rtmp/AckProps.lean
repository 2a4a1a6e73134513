import Verif.Rtmp.AckModel
import Verif.Base.ListInd
/-
C07: acknowledgement window.
-/
namespace Verif.Ack

/-! Specification, over unbounded naturals. -/

/-- What an observer knows: announced window, bytes received in total, bytes received since the last acknowledgement. -/
structure Obs where
  window : Nat := 0
  total : Nat := 0
  unacked : Nat := 0
deriving DecidableEq, Repr

/-- The observer sees an event and the acknowledgement that followed. -/
def Obs.see (o : Obs) : Ev → Option Nat → Obs
  | .window w, _ => { o with window := w }
  | .read n, none => { o with total := o.total + n, unacked := o.unacked + n }
  | .read n, some _ => { o with total := o.total + n, unacked := 0 }

def Obs.seeAll (o : Obs) : List Ev → List (Option Nat) → Obs
  | e :: es, a :: as => (o.see e a).seeAll es as
  | _, _ => o

/-- The acknowledgement the protocol asks for. -/
def Obs.due (o : Obs) : Ev → Option Nat
  | .window _ => none
  | .read n => if o.window ≠ 0 ∧ o.unacked + n ≥ o.window then some (o.total + n) else none

def ideal (o : Obs) : List Ev → List (Option Nat)
  | [] => []
  | e :: es => o.due e :: ideal (o.see e (o.due e)) es

/-- Bytes received in a list of events. -/
def bytes : List Ev → Nat
  | [] => 0
  | .read n :: es => n + bytes es
  | .window _ :: es => bytes es

/-- C07 (partial): on a connection that has received less than 0xf0000000 bytes (3.75 GiB) the acknowledgements are exactly
those due: after each read leaving at least the window unacknowledged, numbered with the byte count, and no others. Missing:
longer connections, see the violation and `C07_bounded_unacked`. -/
theorem C07_exact_partial (es : List Ev) (hlen : bytes es < 0xf0000000) : run init es = ideal {} es := by
  suffices ∀ (s : St) (o : Obs), s.ackSize = o.window → s.inBytes = o.total → s.lastAck ≤ s.inBytes →
      s.inBytes = s.lastAck + o.unacked → o.total + bytes es < 0xf0000000 → run s es = ideal o es by
    exact this init {} rfl rfl (Nat.le_refl _) rfl (by simpa using hlen)
  clear hlen
  induction es with
  | nil => intros; rfl
  | cons e es ih =>
    intro s o h1 h2 h3 h4 h5
    cases e with
    | window w =>
      simp only [run, ideal, step, Obs.due, Obs.see]
      exact congrArg _ (ih _ _ rfl h2 h3 h4 h5)
    | read n =>
      simp only [bytes] at h5
      have hb : (s.inBytes + n) % 2 ^ 32 = s.inBytes + n := Nat.mod_eq_of_lt (by omega)
      have hc : count s n = { s with inBytes := s.inBytes + n } := by
        unfold count
        simp only [hb]
        rw [if_neg (by omega)]
      have hd : (s.inBytes + n + 2 ^ 32 - s.lastAck) % 2 ^ 32 = o.unacked + n := by omega
      simp only [run, ideal, step, Obs.due, onRead, hc, hd, h1]
      by_cases hw : o.window ≠ 0 ∧ o.unacked + n ≥ o.window
      · rw [if_pos hw, if_pos hw]
        simp only [Obs.see]
        congr 1
        · simp [h2]
        · exact ih _ _ rfl (by simp [h2]) (by simp) (by simp) (by simp; omega)
      · rw [if_neg hw, if_neg hw]
        simp only [Obs.see]
        exact congrArg _ (ih _ _ rfl (by simp [h2]) (by simp; omega) (by simp; omega) (by simp; omega))

/-- C07 (partial): hence after any read, when a window is set, fewer bytes than the window are unacknowledged. -/
theorem C07_quiescent_partial (es : List Ev) (n : Nat) (hlen : bytes (es ++ [.read n]) < 0xf0000000) :
    let o := Obs.seeAll {} (es ++ [.read n]) (run init (es ++ [.read n]))
    o.window = 0 ∨ o.unacked < o.window := by
  rw [C07_exact_partial _ hlen]
  suffices ∀ o : Obs, (o.seeAll (es ++ [.read n]) (ideal o (es ++ [.read n]))).window = 0 ∨
      (o.seeAll (es ++ [.read n]) (ideal o (es ++ [.read n]))).unacked <
      (o.seeAll (es ++ [.read n]) (ideal o (es ++ [.read n]))).window from this {}
  clear hlen
  induction es with
  | nil =>
    intro o
    simp only [List.nil_append, ideal, Obs.due, Obs.seeAll]
    by_cases hw : o.window ≠ 0 ∧ o.unacked + n ≥ o.window
    · rw [if_pos hw]; simp only [Obs.see]; omega
    · rw [if_neg hw]; simp only [Obs.see]; omega
  | cons e es ih =>
    intro o
    simp only [List.cons_append, ideal, Obs.seeAll]
    exact ih _

example : bytes [.window 100, .read 60, .read 50, .window 20, .read 10, .read 10] < 0xf0000000 ∧
    run init [.window 100, .read 60, .read 50, .window 20, .read 10, .read 10] =
      [none, none, some 110, none, none, some 130] := by decide

/-- C07 on connections of any length: with window `w` and reads of at most `m` bytes (`w + m ≤ 0xf0000000`), less than
`2 w + m` bytes are ever unacknowledged. -/
theorem C07_bounded_unacked (w m : Nat) (hw : 0 < w) (hwm : w + m ≤ 0xf0000000) (ns : List Nat) (hn : ∀ n ∈ ns, n ≤ m)
    (hm : m < 0x10000000) :
    (Obs.seeAll {} (.window w :: ns.map .read) (run init (.window w :: ns.map .read))).unacked < 2 * w + m := by
  suffices ∀ (ns : List Nat) (_ : ∀ n ∈ ns, n ≤ m) (s : St) (o : Obs) (g : Nat), s.ackSize = w → s.inBytes < 0xf0000000 →
      s.lastAck ≤ s.inBytes → s.inBytes - s.lastAck < w → o.unacked = s.inBytes - s.lastAck + g → g < w + m →
      (s.lastAck ≠ 0 → g = 0) →
      (o.seeAll (ns.map .read) (run s (ns.map .read))).unacked < 2 * w + m by
    simp only [run, Obs.seeAll]
    exact this ns hn _ _ 0 rfl (by simp [step, onWindow, init]) (by simp [step, onWindow, init])
      (by simpa [step, onWindow, init] using hw) rfl (by omega) (fun _ => rfl)
  clear hn ns
  intro ns
  induction ns with
  | nil => intro _ s o g _ _ _ h4 h5 h6 _; simp only [List.map_nil, run, Obs.seeAll]; omega
  | cons n ns ih =>
    intro hn s o g h1 h2 h3 h4 h5 h6 h7
    have hnm := hn n (by simp)
    have hn' : ∀ n ∈ ns, n ≤ m := fun k hk => hn k (by simp [hk])
    simp only [List.map_cons, run, Obs.seeAll, step, onRead]
    have hb : (s.inBytes + n) % 2 ^ 32 = s.inBytes + n := Nat.mod_eq_of_lt (by omega)
    by_cases hr : s.inBytes + n ≥ 0xf0000000
    · -- the counters are reset
      have hc : count s n = { s with inBytes := 0, lastAck := 0 } := by
        unfold count; simp only [hb]; rw [if_pos hr]
      have hl : s.lastAck ≠ 0 := by omega
      have hg := h7 hl
      have hd : (0 + 2 ^ 32 - 0) % 2 ^ 32 = 0 := by decide
      simp only [hc, hd, h1]
      rw [if_neg (by omega)]
      simp only [Obs.see]
      exact ih hn' _ _ (o.unacked + n) rfl (by simp) (by simp) (by simpa using hw) (by simp) (by omega) (by simp)
    · have hc : count s n = { s with inBytes := s.inBytes + n } := by
        unfold count; simp only [hb]; rw [if_neg hr]
      have hd : (s.inBytes + n + 2 ^ 32 - s.lastAck) % 2 ^ 32 = s.inBytes + n - s.lastAck := by omega
      simp only [hc, hd, h1]
      by_cases ha : w ≠ 0 ∧ s.inBytes + n - s.lastAck ≥ w
      · rw [if_pos ha]
        simp only [Obs.see]
        exact ih hn' _ _ 0 rfl (by simp; omega) (by simp) (by simpa using hw) (by simp) (by omega) (fun _ => rfl)
      · rw [if_neg ha]
        simp only [Obs.see]
        exact ih hn' _ _ g rfl (by simp; omega) (by simp; omega) (by simp; omega) (by simp; omega) h6 h7

/-- Witness: window 2.5 MB, reads of 4096 bytes. -/
example : 0 < 2500000 ∧ 2500000 + 4096 ≤ 0xf0000000 ∧ (∀ n ∈ List.replicate 1000 4096, n ≤ 4096) ∧ 4096 < 0x10000000 := by
  refine ⟨by decide, by decide, fun n hn => ?_, by decide⟩
  rw [List.mem_replicate] at hn; omega

/-- C07 (violation): the read on which the byte counter is reset is not acknowledged although the window is exceeded, and the
sequence numbers sent afterwards are not the byte count. -/
theorem C07_reset_violation :
    run init [.window 100, .read 0xefffffff, .read 100, .read 100] = [none, some 0xefffffff, none, some 100] ∧
    ideal {} [.window 100, .read 0xefffffff, .read 100, .read 100] =
      [none, some 0xefffffff, some 0xf0000063, some 0xf00000c7] := by decide

/-- C07 (violation): a window above 0xf0000000 is never acknowledged: whatever is read, the counter is reset first. -/
theorem C07_huge_window_violation (w : Nat) (hw : w ≥ 0xf0000000) (ns : List Nat) (hm : ∀ n ∈ ns, n < 0x10000000) :
    ∀ a ∈ run init (.window w :: ns.map .read), a = none := by
  suffices ∀ (ns : List Nat) (_ : ∀ n ∈ ns, n < 0x10000000) (s : St), s.ackSize = w → s.inBytes < 0xf0000000 → s.lastAck = 0 →
      ∀ a ∈ run s (ns.map .read), a = none by
    intro a ha
    simp only [run, List.mem_cons] at ha
    rcases ha with rfl | ha
    · rfl
    · exact this ns hm _ rfl (by simp [step, onWindow, init]) rfl a ha
  clear hm ns
  intro ns
  induction ns with
  | nil => intro _ _ _ _ _ a ha; simp [run] at ha
  | cons n ns ih =>
    intro hn s h1 h2 h3 a ha
    have hnm := hn n (by simp)
    have hn' : ∀ n ∈ ns, n < 0x10000000 := fun k hk => hn k (by simp [hk])
    have hb : (s.inBytes + n) % 2 ^ 32 = s.inBytes + n := Nat.mod_eq_of_lt (by omega)
    have hr : ∃ t : St, onRead s n = (t, none) ∧ t.ackSize = w ∧ t.inBytes < 0xf0000000 ∧ t.lastAck = 0 := by
      by_cases hr : s.inBytes + n ≥ 0xf0000000
      · have hc : count s n = { s with inBytes := 0, lastAck := 0 } := by
          unfold count; simp only [hb]; rw [if_pos hr]
        refine ⟨{ s with inBytes := 0, lastAck := 0 }, ?_, h1, by simp, rfl⟩
        unfold onRead
        simp only [hc]
        rw [if_neg (by simp [h1]; try omega)]
      · have hc : count s n = { s with inBytes := s.inBytes + n } := by
          unfold count; simp only [hb]; rw [if_neg hr]
        refine ⟨{ s with inBytes := s.inBytes + n }, ?_, h1, by simp; omega, h3⟩
        unfold onRead
        simp only [hc]
        rw [if_neg (by simp [h1, h3]; omega)]
    obtain ⟨t, e, a1, a2, a3⟩ := hr
    simp only [List.map_cons, run, step, e, List.mem_cons] at ha
    rcases ha with rfl | ha
    · rfl
    · exact ih hn' t a1 a2 a3 a ha

end Verif.Ack
