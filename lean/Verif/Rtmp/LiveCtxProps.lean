import Verif.Rtmp.LiveCtxModel
/-
C45: the session lists of a live stream.

The claim holds for sessions that issue one of publish and play, and not after closeStream or deleteStream. A session that does both, or
that closes first (which `play2` as first command does), leaves its freed context on a list: `_violation` theorems.
-/
namespace Verif.LiveCtx
open Verif

/-! ### Specification -/

/-- Session → stream and role, while it publishes or plays; `joined`: it has done so. -/
structure Abs where
  n : Nat := 0
  on : Nat → Option (Nat × Bool) := fun _ => none
  joined : Nat → Bool := fun _ => false

inductive Op where
  | connect
  | publish (n k : Nat)
  | play (n k : Nat)
  | attach (n m : Nat) (role : Bool)
  | play2 (n k : Nat)
  | close (n : Nat)
  | disconnect (n : Nat)
deriving DecidableEq, Repr

def Abs.join (a : Abs) (n k : Nat) (role : Bool) : Abs :=
  if a.joined n then a else { a with on := set a.on n (some (k, role)), joined := set a.joined n true }

/-- What happens; `attach` joins the stream of another session. -/
def specStep (a : Abs) (streamOf : Nat → Option Nat) : Op → Abs
  | .connect => { a with n := a.n + 1 }
  | .publish n k => a.join n k true
  | .play n k => a.join n k false
  | .attach n m role => match streamOf m with | some k => a.join n k role | none => a
  | .play2 n _ => { a with on := set a.on n none }
  | .close n => { a with on := set a.on n none }
  | .disconnect n => { a with on := set a.on n none }

/-- The session may use a stream for the first time: it has not, and has not closed. -/
def Fresh (s : St) (n : Nat) : Prop := s.ctx n = false ∧ s.closed n = false

instance (s : St) (n : Nat) : Decidable (Fresh s n) := by unfold Fresh; infer_instance

/-- The conditions on the commands of one session. -/
def Legal (s : St) : Op → Prop
  | .connect => True
  | .publish n _ => n < s.nsess ∧ s.freed n = false ∧ (s.published n = true ∨ s.relay n = true ∨ Fresh s n)
  | .play n _ => n < s.nsess ∧ s.freed n = false ∧ (s.played n = true ∨ s.relay n = true ∨ Fresh s n)
  | .attach n m _ => n < s.nsess ∧ s.freed n = false ∧ Fresh s n ∧ (s.stream m).any s.reg = true
  | .play2 n _ => n < s.nsess ∧ s.freed n = false ∧ (s.played n = true ∨ s.relay n = true)
  | .close n => n < s.nsess ∧ s.freed n = false
  | .disconnect n => n < s.nsess ∧ s.freed n = false

instance (s : St) (o : Op) : Decidable (Legal s o) := by cases o <;> unfold Legal <;> infer_instance

def exec (s : St) : Op → Option St
  | .connect => some (connect s)
  | .publish n k => some (publish s n k)
  | .play n k => some (play s n k)
  | .attach n m role => some (attach s n m role)
  | .play2 n k => play2 s n k
  | .close n => close s n
  | .disconnect n => disconnect s n

inductive Reach : St → Abs → Prop
  | init : Reach init {}
  | step {s a o s'} : Reach s a → Legal s o → exec s o = some s' → Reach s' (specStep a s.stream o)

/-! ### Invariant -/

structure Inv (s : St) (a : Abs) : Prop where
  ch : Chains s.next s.heads a.on
  num : a.n = s.nsess
  lt : ∀ n, s.ctx n = true → n < s.nsess
  joined : ∀ n, a.joined n = s.ctx n
  on : ∀ n k r, a.on n = some (k, r) → s.ctx n = true ∧ s.stream n = some k ∧ s.publishing n = r ∧ s.closed n = false ∧ s.live n = true ∧ s.reg k = true
  off : ∀ n, s.ctx n = true → a.on n = none → s.closed n = true
  bare : ∀ n, s.ctx n = false → s.stream n = none ∧ s.live n = false ∧ a.on n = none ∧ s.relay n = false ∧ s.published n = false ∧ s.played n = false
  reg : ∀ k, s.reg k = true → ∃ n r, a.on n = some (k, r)
  freed : ∀ n, s.freed n = true → s.closed n = true

theorem init_inv : Inv init {} :=
  ⟨fun _ => ⟨[], rfl, List.nodup_nil, by simp⟩, rfl, fun _ h => (by cases h), fun _ => rfl, fun _ _ _ h => (by cases h), fun _ h => (by cases h),
    fun _ _ => ⟨rfl, rfl, rfl, rfl, rfl, rfl⟩, fun _ h => (by cases h), fun _ h => (by cases h)⟩

theorem set_id {α β : Type} [DecidableEq α] (f : α → β) (i : α) (v : β) (h : f i = v) : set f i v = f := by
  funext x; unfold set; split
  · rename_i e; rw [e, h]
  · rfl

/-- Registering the stream of a new member and linking it. -/
theorem join_inv {s : St} {a : Abs} (i : Inv s a) {n k : Nat} (role : Bool) (hn : n < s.nsess) (hf : Fresh s n) (pub pl rel : Nat → Bool)
    (h1 : ∀ m, m ≠ n → pub m = s.published m ∧ pl m = s.played m ∧ rel m = s.relay m) :
    Inv (createCtx (createStream { s with published := pub, played := pl, relay := rel, stream := set s.stream n (some k), live := set s.live n true } k) n k role)
      { a with on := set a.on n (some (k, role)), joined := set a.joined n true } := by
  obtain ⟨b1, b2, b3, b4, b5, b6⟩ := i.bare n hf.1
  -- lists of an unregistered stream are empty
  have hcs : ∃ S, createStream { s with published := pub, played := pl, relay := rel, stream := set s.stream n (some k), live := set s.live n true } k = S ∧
      S.heads = s.heads ∧ S.next = s.next ∧ S.reg = set s.reg k true ∧ S.nsess = s.nsess ∧ S.ctx = s.ctx ∧ S.publishing = s.publishing ∧
      S.closed = s.closed ∧ S.freed = s.freed ∧ S.stream = set s.stream n (some k) ∧ S.live = set s.live n true ∧
      S.published = pub ∧ S.played = pl ∧ S.relay = rel := by
    refine ⟨_, rfl, ?_⟩
    unfold createStream
    dsimp only
    by_cases hr : s.reg k = true
    · rw [if_pos hr]
      refine ⟨rfl, rfl, ?_, rfl, rfl, rfl, rfl, rfl, rfl, rfl, rfl, rfl, rfl⟩
      funext x; by_cases e : x = k
      · subst e; rw [set_same]; exact hr
      · rw [set_ne _ _ e]
    · rw [if_neg hr]
      refine ⟨?_, rfl, rfl, rfl, rfl, rfl, rfl, rfl, rfl, rfl, rfl, rfl, rfl⟩
      have hnone : ∀ r, s.heads (k, r) = none := fun r => by
        cases e : s.heads (k, r) with
        | none => rfl
        | some m => exact absurd (i.on m k r (i.ch.mem_head e)).2.2.2.2.2 hr
      dsimp only
      rw [set_id s.heads _ _ (hnone _), set_id s.heads _ _ (hnone _)]
  obtain ⟨S, e, c1, c2, c3, c4, c5, c6, c7, c8, c9, c10, c11, c12, c13⟩ := hcs
  rw [e]
  unfold createCtx
  refine ⟨?_, by rw [c4]; exact i.num, fun m h => ?_, fun m => ?_, fun m k' r h => ?_, fun m h h2 => ?_, fun m h => ?_, fun k' h => ?_, ?_⟩
  · dsimp only
    rw [c1, c2]
    exact i.ch.push b3 (set_same _ _ _) (fun m hm => set_ne _ _ hm)
  · dsimp only at h ⊢
    rw [c4]; rw [c5] at h
    by_cases em : m = n
    · rw [em]; exact hn
    · rw [set_ne _ _ em] at h; exact i.lt m h
  · dsimp only
    rw [c5]
    by_cases em : m = n
    · rw [em, set_same, set_same]
    · rw [set_ne _ _ em, set_ne _ _ em, i.joined]
  · dsimp only at h ⊢
    rw [c5, c6, c7, c9, c10, c3]
    by_cases em : m = n
    · subst em
      rw [set_same] at h
      cases h
      simp only [set_same]
      exact ⟨trivial, trivial, trivial, hf.2, trivial, trivial⟩
    · rw [set_ne _ _ em] at h
      obtain ⟨q1, q2, q3, q4, q5, q6⟩ := i.on m k' r h
      simp only [set_ne _ _ em]
      refine ⟨q1, q2, q3, q4, q5, ?_⟩
      by_cases ek : k' = k
      · rw [ek, set_same]
      · rw [set_ne _ _ ek]; exact q6
  · dsimp only at h h2 ⊢
    rw [c5] at h
    rw [c7]
    by_cases em : m = n
    · subst em; rw [set_same] at h2; cases h2
    · rw [set_ne _ _ em] at h h2; exact i.off m h h2
  · dsimp only at h ⊢
    rw [c5] at h
    rw [c9, c10, c11, c12, c13]
    by_cases em : m = n
    · subst em; rw [set_same] at h; cases h
    · rw [set_ne _ _ em] at h
      obtain ⟨q1, q2, q3, q4, q5, q6⟩ := i.bare m h
      simp only [set_ne _ _ em, (h1 m em).1, (h1 m em).2.1, (h1 m em).2.2]
      exact ⟨q1, q2, q3, q4, q5, q6⟩
  · dsimp only at h ⊢
    rw [c3] at h
    by_cases ek : k' = k
    · exact ⟨n, role, by rw [set_same, ek]⟩
    · rw [set_ne _ _ ek] at h
      obtain ⟨m, r, hm⟩ := i.reg k' h
      have : m ≠ n := fun em => by rw [em, b3] at hm; cases hm
      exact ⟨m, r, by rw [set_ne _ _ this]; exact hm⟩
  · dsimp only
    rw [c7, c8]; exact i.freed

/-- Closing: the state after `ngx_rtmp_close_stream_filter`. -/
theorem close_inv {s : St} {a : Abs} (i : Inv s a) (n : Nat) :
    ∃ s', close s n = some s' ∧ Inv s' { a with on := set a.on n none } ∧ s'.closed n = true ∧ s'.played = s.played ∧ s'.relay = s.relay ∧
      s'.nsess = s.nsess ∧ s'.freed = s.freed := by
  unfold close
  by_cases hc : s.closed n = true
  · rw [if_pos hc]
    have hn : a.on n = none := by
      cases e : a.on n with
      | none => rfl
      | some p => have := (i.on n p.1 p.2 e).2.2.2.1; rw [hc] at this; cases this
    rw [set_id _ _ _ hn]
    exact ⟨s, rfl, i, hc, rfl, rfl, rfl, rfl⟩
  · rw [if_neg hc]
    have hc : s.closed n = false := by simpa using hc
    cases hx : s.ctx n with
    | false =>
      obtain ⟨b1, b2, b3, b4, b5, b6⟩ := i.bare n hx
      have e1 : deleteCtx { s with closed := set s.closed n true } n = some { s with closed := set s.closed n true } := by
        unfold deleteCtx; dsimp only; rw [hx]
      have e2 : dropStream { s with closed := set s.closed n true } n = { s with closed := set s.closed n true } := by
        unfold dropStream; dsimp only; rw [b2]
      rw [e1, Option.map_some, e2, set_id _ _ _ b3]
      refine ⟨_, rfl, ⟨i.ch, i.num, i.lt, i.joined, fun m k r h => ?_, fun m h h2 => ?_, i.bare, i.reg, fun m h => ?_⟩, set_same _ _ _, rfl, rfl, rfl, rfl⟩
      · have hm : m ≠ n := fun e => by rw [e, b3] at h; cases h
        obtain ⟨q1, q2, q3, q4, q5, q6⟩ := i.on m k r h
        exact ⟨q1, q2, q3, by dsimp only; rw [set_ne _ _ hm]; exact q4, q5, q6⟩
      · by_cases em : m = n
        · rw [em]; exact set_same _ _ _
        · dsimp only; rw [set_ne _ _ em]; exact i.off m h h2
      · by_cases em : m = n
        · rw [em]; exact set_same _ _ _
        · dsimp only; rw [set_ne _ _ em]; exact i.freed m h
    | true =>
      have hon : ∃ k, a.on n = some (k, s.publishing n) ∧ s.stream n = some k ∧ s.live n = true ∧ s.reg k = true := by
        cases e : a.on n with
        | none => have := i.off n hx e; rw [hc] at this; cases this
        | some p =>
          obtain ⟨q1, q2, q3, q4, q5, q6⟩ := i.on n p.1 p.2 e
          exact ⟨p.1, by rw [q3], q2, q5, q6⟩
      obtain ⟨k, k1, k2, k3, k4⟩ := hon
      rcases i.ch.search (k, s.publishing n) (· == n) (N := s.nsess) (fun m hm => by
          cases e : a.on m with
          | none => exact absurd e hm
          | some p => exact i.lt m (i.on m p.1 p.2 e).1) with
        ⟨m, l1, l2, f1, f2, f3, f4, f5, f6⟩ | ⟨f1, _⟩
      rotate_left
      · have := f1 n k1; simp at this
      have em : m = n := by simpa using f2
      subst em
      have hch := i.ch.unlink f3 f4 f5
      have e1 : deleteCtx { s with closed := set s.closed m true } m = some { s with closed := set s.closed m true, next := setNext s.next (lastOr none l1) (s.next m), heads := set s.heads (k, s.publishing m) (setHead (s.heads (k, s.publishing m)) (lastOr none l1) (s.next m)) } := by
        unfold deleteCtx; dsimp only; rw [hx, k2]; dsimp only; rw [f6]
      rw [e1, Option.map_some]
      generalize hN : setNext s.next (lastOr none l1) (s.next m) = NX at *
      generalize hH : set s.heads (k, s.publishing m) (setHead (s.heads (k, s.publishing m)) (lastOr none l1) (s.next m)) = HD at *
      have hone : ∀ x k' r, set a.on m none x = some (k', r) → x ≠ m ∧ a.on x = some (k', r) := fun x k' r h => by
        by_cases e : x = m
        · rw [e, set_same] at h; cases h
        · rw [set_ne _ _ e] at h; exact ⟨e, h⟩
      have hcl : ∀ x, s.closed x = true → set s.closed m true x = true := fun x h => by
        by_cases e : x = m
        · rw [e, set_same]
        · rw [set_ne _ _ e]; exact h
      unfold dropStream
      dsimp only
      rw [k3, k2]
      dsimp only
      split
      · rename_i hd
        have hempty : ∀ x r, set a.on m none x ≠ some (k, r) := fun x r h => by
          obtain ⟨l, g1, _, g3⟩ := hch (k, r)
          have hxl := (g3 x).2 h
          have hn : HD (k, r) = none := by cases r; exact hd.1; exact hd.2
          rw [hn] at g1
          cases l with
          | nil => cases hxl
          | cons y l => cases g1.1
        refine ⟨_, rfl, ⟨hch, i.num, i.lt, i.joined, fun x k' r h => ?_, fun x h h2 => ?_, fun x h => ?_, fun k' h => ?_, fun x h => hcl x (i.freed x h)⟩,
          set_same _ _ _, rfl, rfl, rfl, rfl⟩
        · obtain ⟨e, h'⟩ := hone x k' r h
          obtain ⟨q1, q2, q3, q4, q5, q6⟩ := i.on x k' r h'
          have ek : k' ≠ k := fun e => hempty x r (e ▸ h)
          exact ⟨q1, q2, q3, by dsimp only; rw [set_ne _ _ e]; exact q4, q5, by dsimp only; rw [set_ne _ _ ek]; exact q6⟩
        · by_cases e : x = m
          · rw [e]; exact set_same _ _ _
          · dsimp only at h h2 ⊢; rw [set_ne _ _ e] at h2; exact hcl x (i.off x h h2)
        · obtain ⟨q1, q2, q3, q4⟩ := i.bare x h
          have e : x ≠ m := fun e => by dsimp only at h; rw [e, hx] at h; cases h
          exact ⟨q1, q2, by dsimp only; rw [set_ne _ _ e]; exact q3, q4⟩
        · dsimp only at h
          by_cases ek : k' = k
          · rw [ek, set_same] at h; cases h
          · rw [set_ne _ _ ek] at h
            obtain ⟨x, r, hx'⟩ := i.reg k' h
            have e : x ≠ m := fun e => by rw [e, k1] at hx'; cases hx'; exact ek rfl
            exact ⟨x, r, by dsimp only; rw [set_ne _ _ e]; exact hx'⟩
      · rename_i hd
        refine ⟨_, rfl, ⟨hch, i.num, i.lt, i.joined, fun x k' r h => ?_, fun x h h2 => ?_, fun x h => ?_, fun k' h => ?_, fun x h => hcl x (i.freed x h)⟩,
          set_same _ _ _, rfl, rfl, rfl, rfl⟩
        · obtain ⟨e, h'⟩ := hone x k' r h
          obtain ⟨q1, q2, q3, q4, q5, q6⟩ := i.on x k' r h'
          exact ⟨q1, q2, q3, by dsimp only; rw [set_ne _ _ e]; exact q4, q5, q6⟩
        · by_cases e : x = m
          · rw [e]; exact set_same _ _ _
          · dsimp only at h h2 ⊢; rw [set_ne _ _ e] at h2; exact hcl x (i.off x h h2)
        · obtain ⟨q1, q2, q3, q4⟩ := i.bare x h
          have e : x ≠ m := fun e => by dsimp only at h; rw [e, hx] at h; cases h
          exact ⟨q1, q2, by dsimp only; rw [set_ne _ _ e]; exact q3, q4⟩
        · dsimp only at h
          by_cases ek : k' = k
          · -- one of the heads is left
            subst ek
            have : ∃ r y, HD (k', r) = some y := by
              cases e1 : HD (k', false) with
              | some y => exact ⟨false, y, e1⟩
              | none =>
                cases e2 : HD (k', true) with
                | some y => exact ⟨true, y, e2⟩
                | none => exact absurd ⟨e1, e2⟩ hd
            obtain ⟨r, y, hy⟩ := this
            exact ⟨y, r, hch.mem_head hy⟩
          · obtain ⟨x, r, hx'⟩ := i.reg k' h
            have e : x ≠ m := fun e => by rw [e, k1] at hx'; cases hx'; exact ek rfl
            exact ⟨x, r, by dsimp only; rw [set_ne _ _ e]; exact hx'⟩

theorem Inv.congr {s s' : St} {a a' : Abs} (i : Inv s a) (h : s' = s) (h' : a' = a) : Inv s' a' := by subst h h'; exact i

/-- Flags of a session that has joined may change. -/
theorem flags_inv {s : St} {a : Abs} (i : Inv s a) {n : Nat} (hx : s.ctx n = true) (pub pl : Nat → Bool)
    (h : ∀ m, m ≠ n → pub m = s.published m ∧ pl m = s.played m) : Inv { s with published := pub, played := pl } a :=
  ⟨i.ch, i.num, i.lt, i.joined, i.on, i.off, fun m hm => by
    have e : m ≠ n := fun e => by dsimp only at hm; rw [e, hx] at hm; cases hm
    obtain ⟨q1, q2, q3, q4, q5, q6⟩ := i.bare m hm
    exact ⟨q1, q2, q3, q4, by dsimp only; rw [(h m e).1]; exact q5, by dsimp only; rw [(h m e).2]; exact q6⟩, i.reg, i.freed⟩

theorem Inv.hasCtx {s : St} {a : Abs} (i : Inv s a) {n : Nat} (h : s.published n = true ∨ s.played n = true ∨ s.relay n = true) : s.ctx n = true := by
  cases e : s.ctx n with
  | true => rfl
  | false =>
    obtain ⟨_, _, _, q4, q5, q6⟩ := i.bare n e
    rcases h with h | h | h
    · rw [q5] at h; cases h
    · rw [q6] at h; cases h
    · rw [q4] at h; cases h

theorem Inv.join_same {s : St} {a : Abs} (i : Inv s a) {n : Nat} (h : s.ctx n = true) (k : Nat) (r : Bool) : a.join n k r = a := by
  unfold Abs.join; rw [i.joined, h]; rfl

theorem Inv.join_new {s : St} {a : Abs} (i : Inv s a) {n : Nat} (h : s.ctx n = false) (k : Nat) (r : Bool) :
    a.join n k r = { a with on := set a.on n (some (k, r)), joined := set a.joined n true } := by
  unfold Abs.join; rw [i.joined, h]; rfl

theorem play_inv {s : St} {a : Abs} (i : Inv s a) (n k : Nat) (hn : n < s.nsess) (h : s.played n = true ∨ s.relay n = true ∨ Fresh s n) :
    Inv (play s n k) (a.join n k false) := by
  unfold play
  by_cases hp : s.played n = true
  · rw [if_pos hp, i.join_same (i.hasCtx (.inr (.inl hp)))]; exact i
  · rw [if_neg hp]
    dsimp only
    by_cases hr : s.relay n = true
    · rw [if_pos hr, i.join_same (i.hasCtx (.inr (.inr hr)))]
      exact flags_inv i (i.hasCtx (.inr (.inr hr))) _ _ (fun m hm => ⟨rfl, set_ne _ _ hm⟩)
    · rw [if_neg hr]
      have hf := (h.resolve_left hp).resolve_left hr
      rw [i.join_new hf.1]
      unfold streamInit
      dsimp only
      rw [(i.bare n hf.1).1]
      exact join_inv i false hn hf _ _ _ (fun m hm => ⟨rfl, set_ne _ _ hm, rfl⟩)

theorem publish_inv {s : St} {a : Abs} (i : Inv s a) (n k : Nat) (hn : n < s.nsess) (h : s.published n = true ∨ s.relay n = true ∨ Fresh s n) :
    Inv (publish s n k) (a.join n k true) := by
  unfold publish
  by_cases hp : s.published n = true
  · rw [if_pos hp, i.join_same (i.hasCtx (.inl hp))]; exact i
  · rw [if_neg hp]
    dsimp only
    by_cases hr : s.relay n = true
    · rw [if_pos hr, i.join_same (i.hasCtx (.inr (.inr hr)))]
      exact flags_inv i (i.hasCtx (.inr (.inr hr))) _ _ (fun m hm => ⟨set_ne _ _ hm, rfl⟩)
    · rw [if_neg hr]
      have hf := (h.resolve_left hp).resolve_left hr
      rw [i.join_new hf.1]
      unfold streamInit
      dsimp only
      rw [(i.bare n hf.1).1]
      exact join_inv i true hn hf _ _ _ (fun m hm => ⟨set_ne _ _ hm, rfl, rfl⟩)

theorem exec_inv {s : St} {a : Abs} (i : Inv s a) (o : Op) (hl : Legal s o) : ∃ s', exec s o = some s' ∧ Inv s' (specStep a s.stream o) := by
  cases o with
  | connect => exact ⟨_, rfl, i.ch, by simp [connect, i.num, specStep], fun n h => Nat.lt_succ_of_lt (i.lt n h), i.joined, i.on, i.off, i.bare, i.reg, i.freed⟩
  | publish n k => exact ⟨_, rfl, publish_inv i n k hl.1 hl.2.2⟩
  | play n k => exact ⟨_, rfl, play_inv i n k hl.1 hl.2.2⟩
  | attach n m role =>
    obtain ⟨h1, _, h3, h4⟩ := hl
    obtain ⟨k, h4, h5⟩ := (Option.any_eq_true _ _).1 h4
    refine ⟨_, rfl, ?_⟩
    unfold attach
    dsimp only [specStep]
    rw [h4]
    dsimp only
    rw [i.join_new h3.1]
    have hj := join_inv (k := k) i role h1 h3 s.published s.played (set s.relay n true) (fun m hm => ⟨rfl, rfl, set_ne _ _ hm⟩)
    refine hj.congr ?_ rfl
    have : createStream { s with published := s.published, played := s.played, relay := set s.relay n true, stream := set s.stream n (some k), live := set s.live n true } k =
        { s with relay := set s.relay n true, stream := set s.stream n (some k), live := set s.live n true } := by
      unfold createStream; rw [if_pos h5]
    rw [this]
  | play2 n k =>
    obtain ⟨s', e, i', _, c2, c3, c4, _⟩ := close_inv i n
    refine ⟨play s' n k, by dsimp only [exec]; unfold play2; rw [e]; rfl, ?_⟩
    have hp : s'.played n = true ∨ s'.relay n = true ∨ Fresh s' n := by
      rw [c2, c3]; exact hl.2.2.elim .inl (fun h => .inr (.inl h))
    have := play_inv i' n k (by rw [c4]; exact hl.1) hp
    have hc : s'.ctx n = true := i'.hasCtx (by rw [c2, c3]; exact .inr hl.2.2)
    rw [i'.join_same hc] at this
    exact this
  | close n =>
    obtain ⟨s', e, i', _⟩ := close_inv i n
    exact ⟨s', e, i'⟩
  | disconnect n =>
    obtain ⟨s', e, i', c1, _, _, _, c5⟩ := close_inv i n
    refine ⟨{ s' with freed := set s'.freed n true }, by dsimp only [exec]; unfold disconnect; rw [e]; rfl, i'.ch, i'.num, i'.lt, i'.joined, i'.on, i'.off, i'.bare, i'.reg, fun m h => ?_⟩
    by_cases em : m = n
    · rw [em]; exact c1
    · dsimp only at h; rw [set_ne _ _ em] at h; exact i'.freed m h

theorem reach_inv {s : St} {a : Abs} (r : Reach s a) : Inv s a := by
  induction r with
  | init => exact init_inv
  | step _ hl he ih =>
    obtain ⟨s2, e, i⟩ := exec_inv ih _ hl
    rw [he] at e; cases e; exact i

/-! ### The property -/

/-- C45: every operation ends. -/
theorem C45_ends_partial {s : St} {a : Abs} (r : Reach s a) (o : Op) (hl : Legal s o) :
    ∃ s', exec s o = some s' ∧ Reach s' (specStep a s.stream o) := by
  obtain ⟨s', e, _⟩ := exec_inv (reach_inv r) o hl
  exact ⟨s', e, .step r hl e⟩

/-- C45: the lists hold exactly the sessions that publish or play the stream, each once; the stream is registered exactly while there is
one; a session whose memory was released is on no list. -/
theorem C45_lists_partial {s : St} {a : Abs} (r : Reach s a) :
    (∀ k role, ∃ l, Linked s.next (s.heads (k, role)) l ∧ l.Nodup ∧ ∀ n, n ∈ l ↔ a.on n = some (k, role)) ∧
    (∀ k, s.reg k = true ↔ ∃ n role, a.on n = some (k, role)) ∧
    (∀ n, s.freed n = true → a.on n = none) ∧ (∀ n, a.on n ≠ none → n < a.n) := by
  have i := reach_inv r
  refine ⟨fun k role => i.ch (k, role), fun k => ⟨i.reg k, fun ⟨n, role, h⟩ => (i.on n k role h).2.2.2.2.2⟩, fun n h => ?_, fun n h => ?_⟩
  · cases e : a.on n with
    | none => rfl
    | some p => have := (i.on n p.1 p.2 e).2.2.2.1; rw [i.freed n h] at this; cases this
  · cases e : a.on n with
    | none => exact absurd e h
    | some p => rw [i.num]; exact i.lt n (i.on n p.1 p.2 e).1

/-- C45: after closing or disconnecting, a session is not on any list, whatever it did. -/
theorem C45_closed_partial {s : St} {a : Abs} (r : Reach s a) (n : Nat) (h : s.closed n = true) : a.on n = none := by
  cases e : a.on n with
  | none => rfl
  | some p => have := ((reach_inv r).on n p.1 p.2 e).2.2.2.1; rw [h] at this; cases this

/-! ### Where it fails -/

/-- Run operations. -/
def run : St → List Op → Option St
  | s, [] => some s
  | s, o :: os => (exec s o).bind fun s => run s os

/-- C45 fails for a session that publishes and then plays: after it disconnects, its released context is still the head of the
publisher list, and the stream stays registered. -/
theorem C45_both_violation :
    (run init [.connect, .publish 0 7, .play 0 7, .disconnect 0]).map (fun s => (s.heads (7, true), s.freed 0, s.reg 7)) =
      some (some 0, true, true) := by decide

/-- C45 fails for a session that closes first: `closed` stays set, so its disconnect does not take it off the list. -/
theorem C45_close_first_violation :
    (run init [.connect, .close 0, .publish 0 7, .disconnect 0]).map (fun s => (s.heads (7, true), s.freed 0, s.reg 7)) =
      some (some 0, true, true) ∧
    (run init [.connect, .play2 0 7, .disconnect 0]).map (fun s => (s.heads (7, false), s.freed 0, s.reg 7)) =
      some (some 0, true, true) := by decide

/-- C45 fails for a session that plays while another one publishes: the lists run into each other, a player is found on the list of
publishers. -/
theorem C45_mixed_violation :
    (run init [.connect, .connect, .play 1 7, .publish 0 7, .play 0 7]).map (fun s => (s.heads (7, true), s.next 0)) =
      some (some 0, some 1) := by decide

/-! ### A history that meets the conditions -/

def wOps : List Op := [.connect, .connect, .connect, .connect, .play 0 7, .play 1 7, .publish 2 7, .play2 0 9, .attach 3 1 true, .disconnect 1, .close 2,
  .publish 2 7, .disconnect 0]

theorem wReach : ∃ s a, run init wOps = some s ∧ Reach s a := by
  have r0 := Reach.init
  have r1 := Reach.step (o := .connect) r0 trivial rfl
  have r2 := Reach.step (o := .connect) r1 trivial rfl
  have r3 := Reach.step (o := .connect) r2 trivial rfl
  have r4 := Reach.step (o := .connect) r3 trivial rfl
  have r5 := Reach.step (o := .play 0 7) r4 (by decide) rfl
  have r6 := Reach.step (o := .play 1 7) r5 (by decide) rfl
  have r7 := Reach.step (o := .publish 2 7) r6 (by decide) rfl
  obtain ⟨s8, e8, r8⟩ := C45_ends_partial r7 (.play2 0 9) (by decide)
  cases e8
  have r9 := Reach.step (o := .attach 3 1 true) r8 (by decide) rfl
  obtain ⟨s10, e10, r10⟩ := C45_ends_partial r9 (.disconnect 1) (by decide)
  cases e10
  obtain ⟨s11, e11, r11⟩ := C45_ends_partial r10 (.close 2) (by decide)
  cases e11
  have r12 := Reach.step (o := .publish 2 7) r11 (by decide) rfl
  obtain ⟨s13, e13, r13⟩ := C45_ends_partial r12 (.disconnect 0) (by decide)
  cases e13
  exact ⟨_, _, rfl, r13⟩

/-- At the end only the relay session publishes. -/
example : (run init wOps).map (fun s => (s.heads (7, true), s.heads (7, false), s.reg 7, s.next 3)) = some (some 3, none, true, none) := by decide

end Verif.LiveCtx
