import Verif.Rtmp.LiveRegStreams
/-
C27: the registry of live servers and streams is a two-level map.

The claim holds as long as names have no NUL byte, stream names fit, and no server is created while more than one recycled server
is waiting; `_violation` theorems show that each condition is needed. In this source tree nothing calls `ngx_live_delete_server` except
`ngx_live_delete_stream` for a server marked by it, so the third condition always holds there (`C27_no_delete_partial`).
-/
namespace Verif.LiveReg
open Verif

/-- Run one operation; the outer `none` is an endless loop. -/
def exec (c : Cfg) (s : St) : Op → Option (St × Option Nat)
  | .createServer id => createServer c s id
  | .deleteServer id => (deleteServer c s id).map (·, none)
  | .createStream id name => createStream c s id name
  | .deleteStream id name => (deleteStream c s id name).map (·, none)

/-- The conditions. -/
def Legal (s : St) : Op → Prop
  | .createServer id => 0 ∉ id ∧ s.nfreeSrv ≤ 1
  | .createStream _ name => 0 ∉ name ∧ name.length ≤ maxName
  | _ => True

instance (s : St) (o : Op) : Decidable (Legal s o) := by cases o <;> unfold Legal <;> infer_instance

/-- Histories: the code runs beside the specification. -/
inductive Reach (c : Cfg) : St → Abs → Prop
  | init : Reach c init Abs.empty
  | step {s a o s' r a'} : Reach c s a → Legal s o → exec c s o = some (s', r) → Spec a o r a' → Reach c s' a'

/-- The same without `deleteServer`. -/
inductive ReachP (c : Cfg) : St → Abs → Prop
  | init : ReachP c init Abs.empty
  | step {s a o s' r a'} : ReachP c s a → (∀ id, o ≠ .deleteServer id) → (∀ id, o = .createServer id → 0 ∉ id) →
      (∀ id name, o = .createStream id name → 0 ∉ name ∧ name.length ≤ maxName) → exec c s o = some (s', r) → Spec a o r a' → ReachP c s' a'

theorem exec_inv {c : Cfg} {s : St} {a : Abs} {sk : Nat → Option (Option Nat)} {tk : Nat → Option (Option (Nat × Nat))}
    (i : Inv c s a sk tk) (o : Op) (hl : Legal s o) :
    ∃ s' r a' sk' tk', exec c s o = some (s', r) ∧ Spec a o r a' ∧ Inv c s' a' sk' tk' := by
  cases o with
  | createServer id =>
    obtain ⟨s', r, a', sk', h⟩ := createServer_inv i id hl.1 hl.2
    exact ⟨s', r, a', sk', tk, h⟩
  | deleteServer id =>
    obtain ⟨s', a', sk', h1, h⟩ := deleteServer_inv i id
    exact ⟨s', none, a', sk', tk, by simp [exec, h1], h⟩
  | createStream id name =>
    obtain ⟨s', r, a', tk', h⟩ := createStream_inv i id name hl.1 hl.2
    exact ⟨s', r, a', sk, tk', h⟩
  | deleteStream id name =>
    obtain ⟨s', a', sk', tk', h1, h⟩ := deleteStream_inv i id name
    exact ⟨s', none, a', sk', tk', by simp [exec, h1], h⟩

/-- The specification determines the next registry from the answer. -/
theorem spec_unique {a : Abs} {o : Op} {r : Option Nat} {b b' : Abs} (h : Spec a o r b) (h' : Spec a o r b') : b = b' := by
  cases o with
  | createServer id =>
    dsimp only [Spec] at h h'
    cases e : a.srvs id with
    | some p => rw [e] at h h'; dsimp only at h h'; rw [h.2, h'.2]
    | none =>
      rw [e] at h h'
      dsimp only at h h'
      split at h
      · rename_i hl
        rw [if_pos hl] at h'
        obtain ⟨x, e1, _, e2⟩ := h
        obtain ⟨y, e3, _, e4⟩ := h'
        rw [e1] at e3; cases e3; rw [e2, e4]
      · rename_i hl
        rw [if_neg hl] at h'
        rw [h.2, h'.2]
  | deleteServer id =>
    dsimp only [Spec] at h h'
    obtain ⟨_, h⟩ := h
    obtain ⟨_, h'⟩ := h'
    cases e : a.srvs id with
    | none => rw [e] at h h'; dsimp only at h h'; rw [h, h']
    | some p =>
      rw [e] at h h'
      dsimp only at h h'
      by_cases hb : a.Bare id
      · rw [h.1 hb, h'.1 hb]
      · rw [h.2 hb, h'.2 hb]
  | createStream id name =>
    dsimp only [Spec] at h h'
    split at h
    · simp only [*] at h'; rw [h.2, h'.2]
    · simp only [*] at h'; rw [h.2, h'.2]
    · simp only [*] at h'
      obtain ⟨x, e1, _, e2⟩ := h
      obtain ⟨y, e3, _, e4⟩ := h'
      rw [e1] at e3; cases e3; rw [e2, e4]
  | deleteStream id name =>
    dsimp only [Spec] at h h'
    obtain ⟨_, h⟩ := h
    obtain ⟨_, h'⟩ := h'
    split at h
    · rename_i x d y e1 e2
      simp only [e1, e2] at h'
      by_cases hb : d = true ∧ (a.setStr id name none).Bare id
      · rw [h.1 hb, h'.1 hb]
      · rw [h.2 hb, h'.2 hb]
    · rename_i hne
      split at h'
      · rename_i e1 e2; exact (hne _ _ _ e1 e2).elim
      · rw [h, h']

theorem reach_inv {c : Cfg} {s : St} {a : Abs} (r : Reach c s a) : ∃ sk tk, Inv c s a sk tk := by
  induction r with
  | init => exact ⟨_, _, init_inv c⟩
  | @step s a o s' r a' _ hl he hs ih =>
    obtain ⟨sk, tk, i⟩ := ih
    obtain ⟨s2, r2, a2, sk2, tk2, e2, h2, i2⟩ := exec_inv i o hl
    rw [he] at e2
    cases e2
    rw [spec_unique hs h2]
    exact ⟨sk2, tk2, i2⟩

/-- C27: every operation ends, answers what the two-level map answers, and leads to a registry that represents the
resulting map: same handle for a name that exists, a handle nobody else has for a new one; a deleted name is gone; a server deleted while it
has streams goes with its last stream. -/
theorem C27_step_partial {c : Cfg} {s : St} {a : Abs} (r : Reach c s a) (o : Op) (hl : Legal s o) :
    ∃ s' res a', exec c s o = some (s', res) ∧ Spec a o res a' ∧ Reach c s' a' := by
  obtain ⟨sk, tk, i⟩ := reach_inv r
  obtain ⟨s', res, a', _, _, h1, h2, _⟩ := exec_inv i o hl
  exact ⟨s', res, a', h1, h2, .step r hl h1 h2⟩

/-- C27: looking up gives what the map holds, for all names (of any length, with or without NUL). -/
theorem C27_fetch_partial {c : Cfg} {s : St} {a : Abs} (r : Reach c s a) (id name : Bytes) :
    fetchServer c s id = some ((a.srvs id).map (·.1)) ∧ fetchStream c s id name = some (a.strs id name) := by
  obtain ⟨sk, tk, i⟩ := reach_inv r
  unfold fetchServer fetchStream
  rcases find_server i id with ⟨j, _, _, h1, h2, h3, _, _, _, h7⟩ | ⟨h1, _, _, _, _, h5⟩
  · rw [h7, h1]
    refine ⟨rfl, ?_⟩
    dsimp only
    rcases find_stream i h2 name with ⟨n, _, _, f1, _, _, _, _, _, f7⟩ | ⟨f1, _, _, _, _, f5⟩
    · rw [f7, ← h3, f1]; rfl
    · rw [f5, ← h3, f1]; rfl
  · rw [h5, h1]
    refine ⟨rfl, ?_⟩
    cases e : a.strs id name with
    | none => rfl
    | some n =>
      obtain ⟨j, _, hj, e1, _, _⟩ := (i.astr _ _ _).1 e
      have := (i.asrv id j (s.srv j).deleted).2 ⟨hj, e1, rfl⟩
      rw [h1] at this; cases this

/-- C27: different names have different handles, and only existing servers have streams. -/
theorem C27_distinct_partial {c : Cfg} {s : St} {a : Abs} (r : Reach c s a) :
    (∀ id id' h d d', a.srvs id = some (h, d) → a.srvs id' = some (h, d') → id = id') ∧
    (∀ id id' n n' h, a.strs id n = some h → a.strs id' n' = some h → id = id' ∧ n = n') ∧
    (∀ id n h, a.strs id n = some h → a.srvs id ≠ none) := by
  obtain ⟨sk, tk, i⟩ := reach_inv r
  refine ⟨fun id id' h d d' h1 h2 => ?_, fun id id' n n' h h1 h2 => ?_, fun id n h h1 h2 => ?_⟩
  · rw [← ((i.asrv _ _ _).1 h1).2.1, ← ((i.asrv _ _ _).1 h2).2.1]
  · obtain ⟨j, b, _, e1, e2, e3⟩ := (i.astr _ _ _).1 h1
    obtain ⟨j', b', _, g1, g2, g3⟩ := (i.astr _ _ _).1 h2
    rw [e2] at g2; cases g2
    exact ⟨e1.symm.trans g1, e3.symm.trans g3⟩
  · obtain ⟨j, _, hj, e1, _⟩ := (i.astr _ _ _).1 h1
    have := (i.asrv id j (s.srv j).deleted).2 ⟨hj, e1, rfl⟩
    rw [h2] at this; cases this

/-- C27: a server marked for deletion always has a stream, so its removal is still to come. -/
theorem C27_marked_partial {c : Cfg} {s : St} {a : Abs} (r : Reach c s a) (id : Bytes) (h : Nat) (hm : a.srvs id = some (h, true)) :
    ∃ name t, a.strs id name = some t := by
  suffices H : ∀ id h, a.srvs id = some (h, true) → ¬ a.Bare id by
    have := H id h hm
    unfold Abs.Bare at this
    obtain ⟨name, hn⟩ := Classical.not_forall.1 this
    cases e : a.strs id name with
    | none => exact absurd e hn
    | some t => exact ⟨name, t, e⟩
  clear hm h id
  induction r with
  | init => intro id h hm; cases hm
  | @step s a o s' r a' _ _ _ hs ih =>
    intro id h hm
    cases o with
    | createServer id' =>
      dsimp only [Spec] at hs
      cases e : a.srvs id' with
      | some p =>
        rw [e] at hs
        dsimp only at hs
        rw [hs.2] at hm ⊢
        by_cases ei : id = id'
        · simp [Abs.setSrv, ei] at hm
        · simp only [Abs.setSrv, if_neg ei] at hm
          exact ih id h hm
      | none =>
        rw [e] at hs
        dsimp only at hs
        split at hs
        · obtain ⟨x, _, _, e2⟩ := hs
          rw [e2] at hm ⊢
          by_cases ei : id = id'
          · simp [Abs.setSrv, ei] at hm
          · simp only [Abs.setSrv, if_neg ei] at hm
            exact ih id h hm
        · rw [hs.2] at hm ⊢; exact ih id h hm
    | deleteServer id' =>
      dsimp only [Spec] at hs
      obtain ⟨_, hs⟩ := hs
      cases e : a.srvs id' with
      | none => rw [e] at hs; dsimp only at hs; rw [hs] at hm ⊢; exact ih id h hm
      | some p =>
        rw [e] at hs
        dsimp only at hs
        by_cases hb : a.Bare id'
        · rw [hs.1 hb] at hm ⊢
          by_cases ei : id = id'
          · simp [Abs.setSrv, ei] at hm
          · simp only [Abs.setSrv, if_neg ei] at hm
            exact ih id h hm
        · rw [hs.2 hb] at hm ⊢
          by_cases ei : id = id'
          · rw [ei]; exact hb
          · simp only [Abs.setSrv, if_neg ei] at hm
            exact ih id h hm
    | createStream id' name =>
      dsimp only [Spec] at hs
      cases e : a.srvs id' with
      | none => rw [e] at hs; dsimp only at hs; rw [hs.2] at hm ⊢; exact ih id h hm
      | some p =>
        cases e' : a.strs id' name with
        | some t => rw [e, e'] at hs; dsimp only at hs; rw [hs.2] at hm ⊢; exact ih id h hm
        | none =>
          rw [e, e'] at hs
          obtain ⟨t, _, _, e2⟩ := hs
          rw [e2] at hm ⊢
          intro hb
          refine ih id h hm (fun n => ?_)
          have := hb n
          simp only [Abs.setStr] at this
          split at this
          · cases this
          · exact this
    | deleteStream id' name =>
      dsimp only [Spec] at hs
      obtain ⟨_, hs⟩ := hs
      cases e : a.srvs id' with
      | none => rw [e] at hs; dsimp only at hs; rw [hs] at hm ⊢; exact ih id h hm
      | some p =>
        cases e' : a.strs id' name with
        | none => rw [e, e'] at hs; dsimp only at hs; rw [hs] at hm ⊢; exact ih id h hm
        | some t =>
          rw [e, e'] at hs
          dsimp only at hs
          have other : ∀ b : Abs, (∀ n, b.strs id n = (a.setStr id' name none).strs id n) → id ≠ id' → a.srvs id = some (h, true) → ¬ b.Bare id := by
            intro b hb ei hm hbare
            refine ih id h hm (fun n => ?_)
            have := hbare n
            rw [hb n] at this
            simpa [Abs.setStr, ei] using this
          by_cases hd : p.2 = true ∧ (a.setStr id' name none).Bare id'
          · rw [hs.1 hd] at hm ⊢
            by_cases ei : id = id'
            · simp [Abs.setSrv, ei] at hm
            · refine other _ (fun n => rfl) ei ?_
              simp only [Abs.setSrv, if_neg ei] at hm
              exact hm
          · rw [hs.2 hd] at hm ⊢
            by_cases ei : id = id'
            · intro hb
              have hm : a.srvs id = some (h, true) := hm
              rw [ei, e] at hm
              cases hm
              exact hd ⟨rfl, ei ▸ hb⟩
            · exact other _ (fun n => rfl) ei hm

/-- C27: the counters of the state page are the numbers of nodes in use. -/
theorem C27_counters_partial {c : Cfg} {s : St} {a : Abs} (r : Reach c s a) (hs ts : List Nat) (h1 : hs.Nodup) (h2 : ts.Nodup)
    (h3 : ∀ h, h ∈ hs ↔ ∃ id d, a.srvs id = some (h, d)) (h4 : ∀ h, h ∈ ts ↔ ∃ id n, a.strs id n = some h) :
    hs.length + s.nfreeSrv = s.allocSrv ∧ ts.length + s.nfreeStr = s.allocStr := by
  obtain ⟨sk, tk, i⟩ := reach_inv r
  obtain ⟨fs, f1, f2, f3⟩ := i.sfree
  obtain ⟨ft, g1, g2, g3⟩ := i.tfree
  have f2 : ∀ n, n ∈ fs ↔ sk n = some none := f2
  have g2 : ∀ n, n ∈ ft ↔ tk n = some none := g2
  have hl : ∀ h, h ∈ hs ↔ ∃ b, sk h = some (some b) := fun h => by
    rw [h3]
    constructor
    · rintro ⟨id, d, e⟩; exact ((i.asrv _ _ _).1 e).1
    · intro hb; exact ⟨_, _, (i.asrv _ _ _).2 ⟨hb, rfl, rfl⟩⟩
  have ht : ∀ h, h ∈ ts ↔ ∃ p, tk h = some (some p) := fun h => by
    rw [h4]
    constructor
    · rintro ⟨id, n, e⟩; obtain ⟨_, _, _, _, e, _⟩ := (i.astr _ _ _).1 e; exact ⟨_, e⟩
    · rintro ⟨⟨j, b⟩, hp⟩
      exact ⟨_, _, (i.astr _ _ _).2 ⟨j, b, (i.tb h j b hp).2.2, rfl, hp, rfl⟩⟩
  have k1 := length_eq_of_mem_iff (l := hs ++ fs) (List.nodup_append.2 ⟨h1, f1, by
    rintro x hx y hy rfl
    obtain ⟨b, hb⟩ := (hl x).1 hx
    have := (f2 x).1 hy
    rw [hb] at this; cases this⟩) (List.nodup_range (n := s.srvFresh)) (fun x => by
    rw [List.mem_append, hl, f2, List.mem_range, ← i.sN]
    cases sk x with
    | none => simp
    | some k => cases k <;> simp)
  have k2 := length_eq_of_mem_iff (l := ts ++ ft) (List.nodup_append.2 ⟨h2, g1, by
    rintro x hx y hy rfl
    obtain ⟨b, hb⟩ := (ht x).1 hx
    have := (g2 x).1 hy
    rw [hb] at this; cases this⟩) (List.nodup_range (n := s.strFresh)) (fun x => by
    rw [List.mem_append, ht, g2, List.mem_range, ← i.tN]
    cases tk x with
    | none => simp
    | some k => cases k <;> simp)
  simp only [List.length_append, List.length_range] at k1 k2
  rw [i.allocS, i.allocT]
  omega

/-- C27: in a program that never deletes servers (as this one) the condition about recycled servers always holds. -/
theorem C27_no_delete_partial {c : Cfg} {s : St} {a : Abs} (r : ReachP c s a) : Reach c s a ∧ s.nfreeSrv = 0 ∧ ∀ id h, a.srvs id ≠ some (h, true) := by
  induction r with
  | init => exact ⟨.init, rfl, fun _ _ h => by cases h⟩
  | @step s a o s' r a' _ hd hc ht he hs ih =>
    obtain ⟨ih1, ih2, ih3⟩ := ih
    have hl : Legal s o := by
      cases o with
      | createServer id => exact ⟨hc id rfl, by omega⟩
      | deleteServer id => exact absurd rfl (hd id)
      | createStream id name => exact ht id name rfl
      | deleteStream id name => trivial
    have hr := Reach.step ih1 hl he hs
    refine ⟨hr, ?_, ?_⟩
    · obtain ⟨sk, tk, i⟩ := reach_inv ih1
      cases o with
      | createServer id =>
        simp only [exec] at he
        rcases find_server i id with ⟨n, _, _, _, _, _, _, _, _, h7⟩ | ⟨_, l, _, _, _, h5⟩
        · unfold createServer at he
          rw [h7] at he; cases he; exact ih2
        · unfold createServer at he
          rw [h5] at he
          cases he
          rw [(setPsrv_same (c := c) _ id _ _).2.2.2.2.1]
          unfold getServer
          split
          · exact ih2
          · split
            · exact ih2
            · show s.nfreeSrv - 1 = 0; omega
      | deleteServer id => exact absurd rfl (hd id)
      | createStream id name =>
        simp only [exec] at he
        unfold createStream at he
        split at he
        · cases he
        · cases he; exact ih2
        · split at he
          · cases he
          · cases he; exact ih2
          · cases he
            show (setPst c (getStream s name).1 _ name _ (getStream s name).2).nfreeSrv = 0
            rw [(setPst_same (c := c) _ _ name _ _).2.2.2.2.2.1]
            unfold getStream
            split
            · exact ih2
            · split <;> exact ih2
      | deleteStream id name =>
        simp only [exec] at he
        rcases find_server i id with ⟨j, _, _, h1, h2, _, _, _, _, h7⟩ | ⟨_, l, _, _, _, h5⟩
        · unfold deleteStream at he
          rw [h7] at he
          dsimp only at he
          split at he
          · cases he
          · cases he; exact ih2
          · rename_i pr n _
            have hdel : (s.srv j).deleted = false := by
              cases h : (s.srv j).deleted with
              | false => rfl
              | true => rw [h] at h1; exact absurd h1 (ih3 id j)
            rw [if_neg] at he
            · cases he
              show (setPst c s j name pr (s.str n).next).nfreeSrv = 0
              rw [(setPst_same (c := c) _ _ name _ _).2.2.2.2.2.1]; exact ih2
            · rintro ⟨h, _⟩
              rw [upd_same] at h
              have h' : ((setPst c s j name pr (s.str n).next).srv j).deleted = true := h
              rw [((setPst_same (c := c) s j name pr (s.str n).next).1 j).2.2.1, hdel] at h'
              cases h'
        · unfold deleteStream at he
          rw [h5] at he; cases he; exact ih2
    · intro id' h
      cases o with
      | createServer id =>
        dsimp only [Spec] at hs
        have key : ∀ x, (a.setSrv id (some (x, false))).srvs id' ≠ some (h, true) := fun x => by
          unfold Abs.setSrv
          dsimp only
          split
          · intro e; cases e
          · exact ih3 id' h
        split at hs
        · rw [hs.2]; exact key _
        · split at hs
          · obtain ⟨x, _, _, e⟩ := hs; rw [e]; exact key x
          · rw [hs.2]; exact ih3 id' h
      | deleteServer id => exact absurd rfl (hd id)
      | createStream id name =>
        dsimp only [Spec] at hs
        split at hs
        · rw [hs.2]; exact ih3 id' h
        · rw [hs.2]; exact ih3 id' h
        · obtain ⟨x, _, _, e⟩ := hs; rw [e]; exact ih3 id' h
      | deleteStream id name =>
        dsimp only [Spec] at hs
        obtain ⟨_, hs⟩ := hs
        split at hs
        · rename_i x d y e1 e2
          have : ¬ (d = true ∧ (a.setStr id name none).Bare id) := fun hh => ih3 id x (by rw [e1, hh.1])
          rw [hs.2 this]; exact ih3 id' h
        · rw [hs]; exact ih3 id' h

/-! ### Where it fails -/

/-- Run a list of operations, collecting the answers. -/
def run (c : Cfg) : St → List Op → Option (St × List (Option Nat))
  | s, [] => some (s, [])
  | s, o :: os => (exec c s o).bind fun p => (run c p.1 os).map fun q => (q.1, p.2 :: q.2)

def wCfg : Cfg := ⟨1, 1, fun b => b.length⟩

/-- C27 fails when two recycled servers wait: the new server keeps its old link into the free list, so after deleting "a" and "b" and creating "c" the
deleted server "a" is found again; creating "a" returns it although it is still on the free list, and creating "d" gives the same server again: two
names, one server. -/
theorem C27_recycled_violation :
    (run wCfg init [.createServer [97], .createServer [98], .deleteServer [97], .deleteServer [98], .createServer [99]]).bind
      (fun p => fetchServer wCfg p.1 [97]) = some (some 0) ∧
    (run wCfg init [.createServer [97], .createServer [98], .deleteServer [97], .deleteServer [98], .createServer [99], .createServer [97],
      .createServer [100]]).map (·.2) = some [some 0, some 1, none, none, some 1, some 0, some 0] := by decide

/-- C27 fails for a stream name that does not fit: NULL is returned but the server counts a stream, so that it is not removed although it
never had one. -/
theorem C27_long_name_violation :
    (run wCfg init [.createServer [97], .createStream [97] (List.replicate 512 98), .deleteServer [97]]).map (·.2) = some [some 0, none, none] ∧
    (run wCfg init [.createServer [97], .createStream [97] (List.replicate 512 98), .deleteServer [97]]).bind
      (fun p => fetchServer wCfg p.1 [97]) = some (some 0) := by decide +kernel

/-- C27 fails for a name with a NUL byte: the stream is created anew each time and never found. -/
theorem C27_nul_violation :
    (run wCfg init [.createServer [97], .createStream [97] [98, 0], .createStream [97] [98, 0]]).map (·.2) = some [some 0, some 0, some 1] ∧
    (run wCfg init [.createServer [97], .createStream [97] [98, 0]]).bind (fun p => fetchStream wCfg p.1 [97] [98, 0]) = some none := by decide

/-! ### A history that meets the conditions -/

/-- Legality along a list of operations. -/
def legals (c : Cfg) : St → List Op → Bool
  | _, [] => true
  | s, o :: os => decide (Legal s o) && (match exec c s o with | some p => legals c p.1 os | none => false)

theorem reach_run {c : Cfg} : ∀ (os : List Op) {s : St} {a : Abs}, Reach c s a → legals c s os = true →
    ∃ s' rs a', run c s os = some (s', rs) ∧ Reach c s' a'
  | [], s, a, r, _ => ⟨s, [], a, rfl, r⟩
  | o :: os, s, a, r, h => by
    unfold legals at h
    simp only [Bool.and_eq_true, decide_eq_true_eq] at h
    obtain ⟨s1, r1, a1, e, _, hr⟩ := C27_step_partial r o h.1
    rw [e] at h
    obtain ⟨s2, rs, a2, e2, hr2⟩ := reach_run os hr h.2
    exact ⟨s2, r1 :: rs, a2, by simp [run, e, e2], hr2⟩

/-- Collisions (one bucket), a server deleted with a stream in it, its name used again. -/
def wOps : List Op := [.createServer [97], .createServer [98], .createStream [97] [1], .createStream [97] [2], .createStream [98] [1],
  .deleteServer [97], .deleteStream [97] [1], .deleteStream [97] [2], .createServer [97], .createStream [97] [2], .deleteStream [98] [1]]

example : legals wCfg init wOps = true := by decide
example : ∃ s' rs a', run wCfg init wOps = some (s', rs) ∧ Reach wCfg s' a' := reach_run wOps .init (by decide)
example : (run wCfg init wOps).map (·.2) =
    some [some 0, some 1, some 0, some 1, some 2, none, none, none, some 0, some 1, none] := by decide

end Verif.LiveReg
