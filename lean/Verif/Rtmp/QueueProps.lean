import Verif.Rtmp.QueueLemmas
/-
C08: output queue; C11: batched sending; C40: output byte accounting.
-/
namespace Verif.Queue
variable {α : Type}

/-! ### Specification: an unbounded FIFO of accepted messages with an explicit admission rule -/

/-- Documented admission rule: one slot is always left free, and priority `p` (0 is most important, anything above 3
counts as 3) may use the queue only up to `size - p*size/4`. -/
def Admit (size len priority : Nat) : Prop := len + 1 + min priority 3 * size / 4 < size

instance (size len priority : Nat) : Decidable (Admit size len priority) := by unfold Admit; infer_instance

/-- Abstract queue operations. -/
inductive QOp (α : Type) where
  | put (f : α) (priority : Nat)
  | take

/-- Abstract FIFO with results: `put` reports acceptance, `take` the head. -/
def specStep (size : Nat) (q : List α) : QOp α → List α × (Bool ⊕ Option α)
  | .put f p => if Admit size q.length p then (q ++ [f], .inl true) else (q, .inl false)
  | .take => match q with
    | [] => ([], .inr none)
    | f :: q => (q, .inr (some f))

/-- The code's operations on the ring: `put` is `ngx_rtmp_send_message`, `take` the dequeue step of
`ngx_rtmp_prepare_merge_frame`/`ngx_rtmp_close_session`. -/
def ringStep (r : Ring α) : QOp α → Option (Ring α × (Bool ⊕ Option α))
  | .put f p => match sendMessage r f p with
    | (r, rc) => some (r, .inl (rc == .ok))
  | .take =>
    if r.pos = r.last then some (r, .inr none)
    else match r.slots r.pos with
      | none => none
      | some f => some ({ r with pos := (r.pos + 1) % r.size }, .inr (some f))

def specRun (size : Nat) (q : List α) : List (QOp α) → List α × List (Bool ⊕ Option α)
  | [] => (q, [])
  | o :: os => ((specRun size (specStep size q o).1 os).1, (specStep size q o).2 :: (specRun size (specStep size q o).1 os).2)

def ringRun (r : Ring α) : List (QOp α) → Option (Ring α × List (Bool ⊕ Option α))
  | [] => some (r, [])
  | o :: os => (ringStep r o).bind fun x => (ringRun x.1 os).map fun y => (y.1, x.2 :: y.2)

theorem capPrio_eq (p : Nat) : capPrio p = min p 3 := by unfold capPrio; split <;> omega

theorem sendMessage_spec {r : Ring α} {q : List α} (h : Holds r q) (f : α) (p : Nat) :
    (Admit r.size q.length p → ∃ r', sendMessage r f p = (r', .ok) ∧ Holds r' (q ++ [f]) ∧ r'.size = r.size) ∧
    (¬ Admit r.size q.length p → sendMessage r f p = (r, .again)) := by
  have hn : nmsg r = q.length + 1 := by
    have := h.count_eq; unfold Ring.count at this; simp [nmsg, this]
  constructor
  · intro ha
    unfold Admit at ha
    have : ¬ nmsg r + capPrio p * r.size / 4 ≥ r.size := by rw [hn, capPrio_eq]; omega
    unfold sendMessage
    rw [if_neg this]
    exact ⟨_, rfl, h.push f (by omega), rfl⟩
  · intro ha
    unfold Admit at ha
    have : nmsg r + capPrio p * r.size / 4 ≥ r.size := by rw [hn, capPrio_eq]; omega
    unfold sendMessage
    rw [if_pos this]

/-- C08 (refinement): for every queue size ≥ 1 and every sequence of operations the ring gives exactly the answers of
the abstract bounded FIFO, never uses an unset slot, and always holds fewer than `size` messages. -/
theorem C08_fifo_refinement (size : Nat) (hs : 0 < size) (ops : List (QOp α)) :
    ∃ r, ringRun (Ring.init size) ops = some (r, (specRun size [] ops).2) ∧
      Holds r (specRun size [] ops).1 ∧ (specRun size [] ops).1.length < size := by
  have gen : ∀ (ops : List (QOp α)) (r : Ring α) (q : List α), Holds r q → r.size = size →
      ∃ r', ringRun r ops = some (r', (specRun size q ops).2) ∧ Holds r' (specRun size q ops).1 ∧ r'.size = size := by
    intro ops
    induction ops with
    | nil => intro r q h hz; exact ⟨r, rfl, h, hz⟩
    | cons o os ih =>
      intro r q h hz
      subst hz
      cases o with
      | put f p =>
        obtain ⟨hy, hn⟩ := sendMessage_spec h f p
        by_cases ha : Admit r.size q.length p
        · obtain ⟨r', e, h', hz'⟩ := hy ha
          obtain ⟨r'', e2, h2, hz2⟩ := ih r' (q ++ [f]) h' hz'
          refine ⟨r'', ?_, ?_, hz2⟩ <;>
            simp [ringRun, ringStep, e, specRun, specStep, ha, e2, h2]
        · have e := hn ha
          obtain ⟨r'', e2, h2, hz2⟩ := ih r q h rfl
          refine ⟨r'', ?_, ?_, hz2⟩ <;>
            simp [ringRun, ringStep, e, specRun, specStep, ha, e2, h2]
      | take =>
        cases q with
        | nil =>
          obtain ⟨r'', e2, h2, hz2⟩ := ih r [] h rfl
          have he := h.empty_iff.2 rfl
          refine ⟨r'', ?_, ?_, hz2⟩ <;>
            simp [ringRun, ringStep, he, specRun, specStep, e2, h2]
        | cons f q =>
          have hne : ¬ r.pos = r.last := by rw [h.empty_iff]; simp
          obtain ⟨hsl, hp⟩ := h.pop
          obtain ⟨r'', e2, h2, hz2⟩ := ih _ q hp rfl
          refine ⟨r'', ?_, ?_, hz2⟩ <;>
            simp [ringRun, ringStep, hne, hsl, specRun, specStep, e2, h2]
  obtain ⟨r, e, h, hz⟩ := gen ops (Ring.init size) [] (holds_init size hs) rfl
  exact ⟨r, e, h, hz ▸ h.len_lt⟩

/-- C08 (priorities): whenever a message of some priority is accepted, one of the same or higher importance (numerically
lower) would be accepted as well. -/
theorem C08_priority_monotone (size len p p' : Nat) (h : p ≤ p') (ha : Admit size len p') : Admit size len p := by
  unfold Admit at *
  have : min p 3 * size / 4 ≤ min p' 3 * size / 4 :=
    Nat.div_le_div_right (Nat.mul_le_mul_right _ (by omega))
  omega

/-- C08 (drop leaves the queue untouched, and happens exactly when the admission rule fails). -/
theorem C08_drop_iff (r : Ring α) (q : List α) (h : Holds r q) (f : α) (p : Nat) :
    ((sendMessage r f p).2 = .again ↔ ¬ Admit r.size q.length p) ∧
    ((sendMessage r f p).2 = .again → (sendMessage r f p).1 = r) := by
  obtain ⟨hy, hn⟩ := sendMessage_spec h f p
  by_cases ha : Admit r.size q.length p
  · obtain ⟨r', e, _⟩ := hy ha; simp [e, ha]
  · simp [hn ha, ha]

example : Admit 2048 1534 1 ∧ ¬ Admit 2048 1535 1 ∧ Admit 2048 2046 0 ∧ ¬ Admit 2048 2047 0 := by decide
example : Holds (Ring.init 8 : Ring Nat) [] := holds_init 8 (by decide)

/-! ### C11 -/

/-- The invariant linking the sender to the frames accepted so far. -/
structure SendInv (ser : α → Bytes) (size : Nat) (x : Run α) : Prop where
  queue : ∃ q, Holds x.s.ring q ∧ x.s.released ++ x.s.held ++ q = x.accepted
  bytes : x.s.wire ++ x.s.out = (x.s.released ++ x.s.held).flatMap ser
  sz : x.s.ring.size = size
  rel : ∃ t, x.s.wire = x.s.released.flatMap ser ++ t ∧ t ++ x.s.out = x.s.held.flatMap ser

theorem stepOp_inv (ser : α → Bytes) (merge size : Nat) (x : Run α) (h : SendInv ser size x) (o : Op α) :
    ∃ x', stepOp ser merge x o = some x' ∧ SendInv ser size x' := by
  obtain ⟨⟨q, hq, hacc⟩, hb, hz, ⟨t, ht1, ht2⟩⟩ := h
  cases o with
  | send f p =>
    obtain ⟨hy, hn⟩ := sendMessage_spec hq f p
    by_cases ha : Admit x.s.ring.size q.length p
    · obtain ⟨r', e, h', hz'⟩ := hy ha
      exact ⟨⟨{ x.s with ring := r' }, x.accepted ++ [f]⟩, by simp [stepOp, e],
        ⟨⟨q ++ [f], h', by simp [← hacc]⟩, hb, by simp [hz', hz], ⟨t, ht1, ht2⟩⟩⟩
    · have e := hn ha
      exact ⟨⟨{ x.s with ring := x.s.ring }, x.accepted⟩, by simp [stepOp, e],
        ⟨⟨q, hq, hacc⟩, hb, hz, ⟨t, ht1, ht2⟩⟩⟩
  | prepare =>
    by_cases ho : x.s.out = []
    · obtain ⟨s', e, h1, h2, h3, h4, h5, h6, h7⟩ := mergeLoop_holds ser merge
        { x.s with released := x.s.released ++ x.s.held, held := [] } q hq
      simp only [List.nil_append, ho] at h2 h3 h4 h5
      have hbo : x.s.wire = (x.s.released ++ x.s.held).flatMap ser := by rw [← hb, ho]; simp
      refine ⟨⟨s', x.accepted⟩, by simp [stepOp, prepareMerge, ho] at e ⊢; exact e, ?_⟩
      constructor
      · exact ⟨q.drop merge, h1, by rw [h5, h2, ← hacc]; simp⟩
      · simp only [h3, h2, h4, h5, hbo]; simp
      · simp only [h7]; exact hz
      · exact ⟨[], by simp [h4, h5, hbo], by simp [h3, h2]⟩
    · exact ⟨⟨x.s, x.accepted⟩, by simp [stepOp, prepareMerge, ho],
        ⟨⟨q, hq, hacc⟩, hb, hz, ⟨t, ht1, ht2⟩⟩⟩
  | write k =>
    refine ⟨⟨writeSome k x.s, x.accepted⟩, rfl, ?_⟩
    by_cases ho : x.s.out = []
    · simp only [writeSome, ho, ↓reduceIte]
      exact ⟨⟨q, hq, hacc⟩, hb, hz, ⟨t, ht1, ht2⟩⟩
    · simp only [writeSome, ho, ↓reduceIte]
      refine ⟨⟨q, hq, hacc⟩, ?_, hz, ⟨t ++ x.s.out.take (min k x.s.out.length), ?_, ?_⟩⟩
      · simp only [List.append_assoc, List.take_append_drop]; exact hb
      · simp [ht1]
      · simp only [List.append_assoc, List.take_append_drop]; exact ht2

theorem runOps_inv (ser : α → Bytes) (merge size : Nat) (ops : List (Op α)) (x : Run α) (h : SendInv ser size x) :
    ∃ x', runOps ser merge x ops = some x' ∧ SendInv ser size x' := by
  induction ops generalizing x with
  | nil => exact ⟨x, rfl, h⟩
  | cons o os ih =>
    obtain ⟨x1, e1, h1⟩ := stepOp_inv ser merge size x h o
    obtain ⟨x2, e2, h2⟩ := ih x1 h1
    exact ⟨x2, by simp [runOps, e1, e2], h2⟩

theorem init_inv (ser : α → Bytes) (size : Nat) (hs : 0 < size) :
    SendInv ser size ⟨Sender.init size, []⟩ :=
  ⟨⟨[], holds_init size hs, rfl⟩, rfl, rfl, ⟨[], rfl, rfl⟩⟩

/-- C11: whatever the merge limit, the interleaving of queueing and sending and the sizes the socket
accepts, no unset slot is used and
* the bytes on the wire followed by the not yet sent ones are the serialised frames taken from the queue, in order, which
  together with the frames still queued are exactly the accepted ones: the wire is a prefix of the concatenation;
* frames are released in order, each at most once (`released` is a prefix of the accepted list), and only
  after all their bytes are on the wire. -/
theorem C11_wire_exact (ser : α → Bytes) (merge size : Nat) (hs : 0 < size) (ops : List (Op α)) :
    ∃ x, runOps ser merge ⟨Sender.init size, []⟩ ops = some x ∧
      (∃ q, x.s.released ++ x.s.held ++ q = x.accepted ∧ x.s.wire ++ x.s.out ++ q.flatMap ser = x.accepted.flatMap ser) ∧
      (∃ t, x.s.wire = x.s.released.flatMap ser ++ t) := by
  obtain ⟨x, e, h⟩ := runOps_inv ser merge size ops _ (init_inv ser size hs)
  obtain ⟨⟨q, hq, hacc⟩, hb, hz, ⟨t, ht1, ht2⟩⟩ := h
  exact ⟨x, e, ⟨q, hacc, by rw [hb, ← hacc]; simp⟩, ⟨t, ht1⟩⟩

/-- C11 (release): closing the session at any point releases every accepted frame exactly once in total. -/
theorem C11_released_once (ser : α → Bytes) (merge size : Nat) (hs : 0 < size) (ops : List (Op α)) (x : Run α)
    (hx : runOps ser merge ⟨Sender.init size, []⟩ ops = some x) : closeRelease x.s = some x.accepted := by
  obtain ⟨x', e, h⟩ := runOps_inv ser merge size ops _ (init_inv ser size hs)
  rw [hx] at e
  cases e
  obtain ⟨⟨q, hq, hacc⟩, hb, hz, _⟩ := h
  simp only [closeRelease]
  rw [drainLoop_holds _ _ q hq (Nat.le_of_lt hq.len_lt), Option.map_some, hacc]

/-- C11 (liveness of one batch): with a merge limit of at least 1, when the pending batch has been written completely and
frames are queued, the next preparation takes `min merge n` of them, so repeated sending empties the queue. -/
theorem C11_prepare_progress (ser : α → Bytes) (merge : Nat) (s : Sender α) (q : List α) (hq : Holds s.ring q)
    (ho : s.out = []) :
    ∃ s', prepareMerge ser merge s = some s' ∧ Holds s'.ring (q.drop merge) ∧
      s'.out = (q.take merge).flatMap ser ∧ s'.held = q.take merge ∧ s'.released = s.released ++ s.held := by
  obtain ⟨s', e, h1, h2, h3, h4, h5, h6, h7⟩ := mergeLoop_holds ser merge
    { s with released := s.released ++ s.held, held := [] } q hq
  refine ⟨s', by simpa [prepareMerge, ho] using e, h1, ?_, ?_, h5⟩
  · simpa [ho] using h3
  · simpa using h2

/-- C40 (violation): `out_bytes` is not the number of bytes sent: when a chain needs several writes only the last one
is counted. -/
theorem C40_out_bytes_undercount_violation :
    ∃ x, runOps (fun (f : Nat) => List.replicate f (0 : UInt8)) 32 ⟨Sender.init 8, []⟩
        [.send 100 0, .prepare, .write 60, .write 60, .prepare] = some x ∧
      x.s.wire.length = 100 ∧ x.s.out = [] ∧ x.s.outBytes = 40 := by
  refine ⟨_, rfl, ?_⟩
  decide

/-- C40 (partial): the counter never exceeds what was sent. -/
theorem C40_out_bytes_partial (ser : α → Bytes) (merge size : Nat) (hs : 0 < size) (ops : List (Op α)) (x : Run α)
    (hx : runOps ser merge ⟨Sender.init size, []⟩ ops = some x) : x.s.outBytes ≤ x.s.wire.length := by
  have merge_ok : ∀ n (s s' : Sender α), mergeLoop ser n s = some s' → s'.outBytes = s.outBytes ∧ s'.wire = s.wire := by
    intro n
    induction n with
    | zero => intro s s' h; simp [mergeLoop] at h; subst h; exact ⟨rfl, rfl⟩
    | succ n ih =>
      intro s s' h
      simp only [mergeLoop] at h
      split at h
      · cases h; exact ⟨rfl, rfl⟩
      · split at h
        · cases h
        · have := ih _ _ h; simpa using this
  have gen : ∀ ops (x x' : Run α), x.s.outBytes ≤ x.s.wire.length → runOps ser merge x ops = some x' →
      x'.s.outBytes ≤ x'.s.wire.length := by
    intro ops
    induction ops with
    | nil => intro x x' h e; cases e; exact h
    | cons o os ih =>
      intro x x' h e
      simp only [runOps, Option.bind_eq_some_iff] at e
      obtain ⟨x1, e1, e2⟩ := e
      refine ih x1 x' ?_ e2
      cases o with
      | send f p =>
        simp only [stepOp] at e1
        split at e1 <;> (cases e1; exact h)
      | prepare =>
        simp only [stepOp, Option.map_eq_some_iff] at e1
        obtain ⟨s1, e3, rfl⟩ := e1
        unfold prepareMerge at e3
        split at e3
        · cases e3; exact h
        · obtain ⟨a, b⟩ := merge_ok _ _ _ e3
          simp only [a, b]; exact h
      | write k =>
        cases e1
        simp only [writeSome]
        split
        · exact h
        · simp only [List.length_append, List.length_take]
          split <;> omega
  exact gen ops _ x (by simp [Sender.init]) hx

/-- Every write of the history takes the whole pending chain (the socket is never short of room). -/
def FullWrites (ser : α → Bytes) (merge : Nat) : Run α → List (Op α) → Prop
  | _, [] => True
  | x, o :: os => (match o with | .write k => x.s.out.length ≤ k | _ => True) ∧
      ∀ x1, stepOp ser merge x o = some x1 → FullWrites ser merge x1 os

/-- C40 (partial): the counter is exact as long as every write flushed the whole chain; missing: partial writes,
for which `C40_out_bytes_undercount_violation` shows the claim false. -/
theorem C40_out_bytes_full_writes_partial (ser : α → Bytes) (merge size : Nat) (ops : List (Op α)) (x : Run α)
    (hf : FullWrites ser merge ⟨Sender.init size, []⟩ ops)
    (hx : runOps ser merge ⟨Sender.init size, []⟩ ops = some x) : x.s.outBytes = x.s.wire.length := by
  have merge_ok : ∀ n (s s' : Sender α), mergeLoop ser n s = some s' → s'.outBytes = s.outBytes ∧ s'.wire = s.wire := by
    intro n
    induction n with
    | zero => intro s s' h; simp [mergeLoop] at h; subst h; exact ⟨rfl, rfl⟩
    | succ n ih =>
      intro s s' h
      simp only [mergeLoop] at h
      split at h
      · cases h; exact ⟨rfl, rfl⟩
      · split at h
        · cases h
        · have := ih _ _ h; simpa using this
  have gen : ∀ ops (x x' : Run α), FullWrites ser merge x ops → x.s.outBytes = x.s.wire.length →
      runOps ser merge x ops = some x' → x'.s.outBytes = x'.s.wire.length := by
    intro ops
    induction ops with
    | nil => intro x x' _ h e; cases e; exact h
    | cons o os ih =>
      intro x x' hf h e
      simp only [runOps, Option.bind_eq_some_iff] at e
      obtain ⟨x1, e1, e2⟩ := e
      refine ih x1 x' (hf.2 x1 e1) ?_ e2
      cases o with
      | send f p =>
        simp only [stepOp] at e1
        split at e1 <;> (cases e1; exact h)
      | prepare =>
        simp only [stepOp, Option.map_eq_some_iff] at e1
        obtain ⟨s1, e3, rfl⟩ := e1
        unfold prepareMerge at e3
        split at e3
        · cases e3; exact h
        · obtain ⟨a, b⟩ := merge_ok _ _ _ e3
          simp only [a, b]; exact h
      | write k =>
        have hk : x.s.out.length ≤ k := hf.1
        cases e1
        simp only [writeSome]
        split
        · exact h
        · rw [Nat.min_eq_right hk]
          simp [h]
  exact gen ops _ x hf (by simp [Sender.init]) hx

example : FullWrites (fun (f : Nat) => List.replicate f (0 : UInt8)) 2 ⟨Sender.init 8, []⟩ [.send 5 0, .send 6 0, .prepare, .write 11] := by
  refine ⟨trivial, fun x1 h => ?_⟩; cases h
  refine ⟨trivial, fun x1 h => ?_⟩; cases h
  refine ⟨trivial, fun x1 h => ?_⟩; cases h
  exact ⟨by decide, fun _ _ => trivial⟩

/-- Witness: three frames, merge limit 2, odd write sizes. -/
example : (runOps (fun (f : Nat) => List.replicate 3 (UInt8.ofNat f)) 2 ⟨Sender.init 8, []⟩
    [.send 1 0, .send 2 1, .prepare, .write 4, .send 3 0, .prepare, .write 9, .prepare, .write 1]).map
      (fun x => (x.s.wire, x.s.out, x.s.released, x.s.held)) =
    some ([1, 1, 1, 2, 2, 2, 3], [3, 3], [1, 2], [3]) := by decide

end Verif.Queue
