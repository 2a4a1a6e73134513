import Verif.Zone.Lemmas
/- The invariant of the concurrent stream zone and its preservation by every step. -/
namespace Verif.Zone
open Verif

/-- The node a process has in hand: neither free nor in a bucket. -/
def holds : Pc → Option Nat
  | .insHave _ i | .delPut _ i | .clrPut _ _ i => some i
  | _ => none

/-- What is known about a process from its position. `N` says that only names without NUL are inserted. -/
def PcOk (c : Cfg) (N : Prop) (m : Mem) (ch : Nat → List Nat) (w : Nat) : Pc → Prop
  | .idle => True
  | .insNeed name => name.length < nameLen ∧ (N → 0 ∉ name ∧ ∀ i ∈ ch (c.bucket name), (m.nodes i).name ≠ name)
  | .insHave name i => i < c.ns ∧ (m.nodes i).name = name.take (nameLen - 1) ∧ name.length < nameLen ∧
      (N → 0 ∉ name ∧ ∀ i ∈ ch (c.bucket name), (m.nodes i).name ≠ name)
  | .delPut _ i => i < c.ns
  | .clrAt b => ∀ b', b' < b → b' < c.nb → ∀ i ∈ ch b', (m.nodes i).slot ≠ w
  | .clr b cur => b < c.nb ∧ (∀ b', b' < b → ∀ i ∈ ch b', (m.nodes i).slot ≠ w) ∧
      ∃ pre post, ch b = pre ++ post ∧ cur = pre.getLast? ∧ ∀ i ∈ pre, (m.nodes i).slot ≠ w
  | .clrPut b cur i => i < c.ns ∧ b < c.nb ∧ (∀ b', b' < b → ∀ i ∈ ch b', (m.nodes i).slot ≠ w) ∧
      ∃ pre post, ch b = pre ++ post ∧ cur = pre.getLast? ∧ ∀ i ∈ pre, (m.nodes i).slot ≠ w

structure SInv (c : Cfg) (N : Prop) (s : Sys) (ch : Nat → List Nat) (fr : List Nat) (pl : Nat → Place) : Prop where
  rep : Rep c s.mem ch fr pl
  held : ∀ w i, i < c.ns → (pl i = .held w ↔ holds (s.pc w) = some i)
  lock : ∀ w w' b, c.locked (s.pc w) = some b → c.locked (s.pc w') = some b → w = w'
  pcOk : ∀ w, PcOk c N s.mem ch w (s.pc w)
  names : N → ∀ b, b < c.nb → ∀ i ∈ ch b, 0 ∉ (s.mem.nodes i).name ∧ c.bucket (s.mem.nodes i).name = b
  uniq : N → ∀ b, b < c.nb → ∀ i ∈ ch b, ∀ j ∈ ch b, (s.mem.nodes i).name = (s.mem.nodes j).name → i = j

theorem bucket_lt {c : Cfg} (h : 0 < c.nb) (n : Bytes) : c.bucket n < c.nb := Nat.mod_lt _ h

theorem locked_lt {c : Cfg} (h0 : 0 < c.nb) {N m ch w} : ∀ {pc : Pc}, PcOk c N m ch w pc → ∀ {b}, c.locked pc = some b →
    b < c.nb := by
  intro pc h b hb
  cases pc with
  | idle => simp [Cfg.locked] at hb
  | clrAt b' => simp [Cfg.locked] at hb
  | insNeed n => simp [Cfg.locked] at hb; subst hb; exact bucket_lt h0 n
  | insHave n i => simp [Cfg.locked] at hb; subst hb; exact bucket_lt h0 n
  | delPut n i => simp [Cfg.locked] at hb; subst hb; exact bucket_lt h0 n
  | clr b' cur => simp [Cfg.locked] at hb; subst hb; exact h.1
  | clrPut b' cur i => simp [Cfg.locked] at hb; subst hb; exact h.2.1

theorem PcOk.mono {c : Cfg} {N : Prop} {m m' : Mem} {ch ch' : Nat → List Nat} {w : Nat} {pc : Pc} (h : PcOk c N m ch w pc)
    (h1 : ∀ b, b < c.nb → ∀ i ∈ ch' b, (m'.nodes i).slot = w → i ∈ ch b ∧ (m.nodes i).slot = w)
    (h2 : ∀ b, c.locked pc = some b → ch' b = ch b)
    (h3 : ∀ i, holds pc = some i → (m'.nodes i).name = (m.nodes i).name)
    (h4 : ∀ b, c.locked pc = some b → ∀ i ∈ ch b, (m'.nodes i).name = (m.nodes i).name) : PcOk c N m' ch' w pc := by
  cases pc with
  | idle => trivial
  | insNeed n =>
    refine ⟨h.1, fun hN => ⟨(h.2 hN).1, ?_⟩⟩
    rw [h2 _ rfl]
    intro i hi
    rw [h4 _ rfl i hi]
    exact (h.2 hN).2 i hi
  | insHave n i =>
    refine ⟨h.1, ?_, h.2.2.1, fun hN => ⟨(h.2.2.2 hN).1, ?_⟩⟩
    · rw [h3 i rfl]; exact h.2.1
    rw [h2 _ rfl]
    intro i hi
    rw [h4 _ rfl i hi]
    exact (h.2.2.2 hN).2 i hi
  | delPut n i => exact h
  | clrAt b =>
    intro b' hb' hn i hi hs
    have := h1 b' hn i hi hs
    exact h b' hb' hn i this.1 this.2
  | clr b cur =>
    obtain ⟨hb, hl, pre, post, e1, e2, e3⟩ := h
    refine ⟨hb, ?_, pre, post, by rw [h2 b rfl]; exact e1, e2, ?_⟩
    · intro b' hb' i hi hs
      have := h1 b' (by omega) i hi hs
      exact hl b' hb' i this.1 this.2
    · intro i hi hs
      have := h1 b hb i (by rw [h2 b rfl, e1]; exact List.mem_append_left _ hi) hs
      exact e3 i hi this.2
  | clrPut b cur k =>
    obtain ⟨hk, hb, hl, pre, post, e1, e2, e3⟩ := h
    refine ⟨hk, hb, ?_, pre, post, by rw [h2 b rfl]; exact e1, e2, ?_⟩
    · intro b' hb' i hi hs
      have := h1 b' (by omega) i hi hs
      exact hl b' hb' i this.1 this.2
    · intro i hi hs
      have := h1 b hb i (by rw [h2 b rfl, e1]; exact List.mem_append_left _ hi) hs
      exact e3 i hi this.2

/-- General form of a step of process `w` to position `x` and memory `m'`. -/
theorem SInv.move {c : Cfg} {N : Prop} {s : Sys} {ch fr pl} (h : SInv c N s ch fr pl) {m' : Mem} {ch' fr' pl'}
    (w : Nat) (x : Pc) (rep : Rep c m' ch' fr' pl')
    (held : ∀ i, i < c.ns → (pl' i = .held w ↔ holds x = some i))
    (heldO : ∀ w', w' ≠ w → ∀ i, i < c.ns → (pl' i = .held w' ↔ pl i = .held w'))
    (lock : ∀ b, c.locked x = some b → c.locked (s.pc w) = some b ∨ s.canLock c b)
    (mono : ∀ w', w' ≠ w → PcOk c N m' ch' w' (s.pc w'))
    (hx : PcOk c N m' ch' w x)
    (names : N → ∀ b, b < c.nb → ∀ i ∈ ch' b, 0 ∉ (m'.nodes i).name ∧ c.bucket (m'.nodes i).name = b)
    (uniq : N → ∀ b, b < c.nb → ∀ i ∈ ch' b, ∀ j ∈ ch' b, (m'.nodes i).name = (m'.nodes j).name → i = j) :
    SInv c N { mem := m', pc := upd s.pc w x } ch' fr' pl' where
  rep := rep
  held := by
    intro w' i hi
    by_cases e : w' = w
    · subst e; simp only [upd_self]; exact held i hi
    · simp only [upd_ne _ _ e]; rw [heldO w' e i hi]; exact h.held w' i hi
  lock := by
    intro w1 w2 b h1 h2
    by_cases e1 : w1 = w
    · subst e1
      by_cases e2 : w2 = w1
      · exact e2.symm
      · simp only [upd_self] at h1
        simp only [upd_ne _ _ e2] at h2
        rcases lock b h1 with h3 | h3
        · exact h.lock _ _ b h3 h2
        · exact absurd h2 (h3 w2)
    · by_cases e2 : w2 = w
      · subst e2
        simp only [upd_self] at h2
        simp only [upd_ne _ _ e1] at h1
        rcases lock b h2 with h3 | h3
        · exact h.lock _ _ b h1 h3
        · exact absurd h1 (h3 w1)
      · simp only [upd_ne _ _ e1] at h1
        simp only [upd_ne _ _ e2] at h2
        exact h.lock _ _ b h1 h2
  pcOk := by
    intro w'
    by_cases e : w' = w
    · subst e; simp only [upd_self]; exact hx
    · simp only [upd_ne _ _ e]; exact mono w' e
  names := names
  uniq := uniq

/-- A step that does not change the memory. -/
theorem SInv.stay {c : Cfg} {N : Prop} {s : Sys} {ch fr pl} (h : SInv c N s ch fr pl) (w : Nat) (x : Pc)
    (held : holds x = holds (s.pc w))
    (lock : ∀ b, c.locked x = some b → c.locked (s.pc w) = some b ∨ s.canLock c b)
    (hx : PcOk c N s.mem ch w x) : SInv c N { s with pc := upd s.pc w x } ch fr pl :=
  h.move w x h.rep (by intro i hi; rw [held]; exact h.held w i hi) (by simp) lock (fun w' _ => h.pcOk w') hx h.names h.uniq

/-! Names without NUL -/
theorem cstr_eq {n : Bytes} (h : (0 : UInt8) ∉ n) : cstr n = n := by
  induction n with
  | nil => rfl
  | cons a n ih =>
    simp only [List.mem_cons, not_or] at h
    have : cstr (a :: n) = a :: cstr n := by
      simp only [cstr, List.takeWhile_cons]
      rw [if_pos (by simpa using Ne.symm h.1)]
    rw [this, ih h.2]

theorem isName_iff {n : Node} {name : Bytes} (h : (0 : UInt8) ∉ n.name) : isName n name = true ↔ n.name = name := by
  simp [isName, cstr_eq h]

theorem take_name {n : Bytes} (h : n.length < nameLen) : n.take (nameLen - 1) = n :=
  List.take_of_length_le (by unfold nameLen at *; omega)

/-- Chains and the nodes on them are as before. -/
def Same (c : Cfg) (m m' : Mem) (ch ch' : Nat → List Nat) : Prop :=
  ∀ b, b < c.nb → ch' b = ch b ∧ ∀ i ∈ ch b, (m'.nodes i).name = (m.nodes i).name ∧ (m'.nodes i).slot = (m.nodes i).slot

theorem Same.refl (c : Cfg) (m : Mem) (ch) : Same c m m ch ch := fun _ _ => ⟨rfl, fun _ _ => ⟨rfl, rfl⟩⟩

/-- Node `i` was taken out of bucket `b`; the rest is as before. -/
def Del (c : Cfg) (m m' : Mem) (ch ch' : Nat → List Nat) (b i : Nat) : Prop :=
  b < c.nb ∧ (∃ pre post, ch b = pre ++ i :: post ∧ ch' = upd ch b (pre ++ post)) ∧
  ∀ j, (m'.nodes j).name = (m.nodes j).name ∧ (m'.nodes j).slot = (m.nodes j).slot

/-- What a step does to the chains. -/
def Eff (c : Cfg) (s s' : Sys) (ch ch' : Nat → List Nat) (fr : List Nat) : Ev → Prop
  | .tau => Same c s.mem s'.mem ch ch'
  | .asked _ name => Same c s.mem s'.mem ch ch' ∧ ∀ i ∈ ch (c.bucket name), isName (s.mem.nodes i) name = false
  | .inserted _ name .error => Same c s.mem s'.mem ch ch' ∧ (nameLen ≤ name.length ∨ fr = [])
  | .inserted w name (.slot p) => name.length < nameLen ∧
      ((Same c s.mem s'.mem ch ch' ∧ ∃ i ∈ ch (c.bucket name), isName (s.mem.nodes i) name = true ∧ (s.mem.nodes i).slot = p) ∨
      (p = w ∧ ∃ i, s.pc w = .insHave name i ∧ ch' = upd ch (c.bucket name) (i :: ch (c.bucket name)) ∧
        (s'.mem.nodes i).slot = w ∧ (s'.mem.nodes i).name = name ∧
        ∀ b, b < c.nb → ∀ j ∈ ch b, (s'.mem.nodes j).name = (s.mem.nodes j).name ∧
          (s'.mem.nodes j).slot = (s.mem.nodes j).slot))
  | .removed w name => ∃ i, Del c s.mem s'.mem ch ch' (c.bucket name) i ∧ isName (s.mem.nodes i) name = true ∧
      (s.mem.nodes i).slot = w
  | .notRemoved w name => Same c s.mem s'.mem ch ch' ∧ ((∀ i ∈ ch (c.bucket name), isName (s.mem.nodes i) name = false) ∨
      ∃ i ∈ ch (c.bucket name), isName (s.mem.nodes i) name = true ∧ (s.mem.nodes i).slot ≠ w)
  | .dropped w i => ∃ b, Del c s.mem s'.mem ch ch' b i ∧ (s.mem.nodes i).slot = w
  | .cleared w => Same c s.mem s'.mem ch ch' ∧ ∀ b, b < c.nb → ∀ i ∈ ch b, (s.mem.nodes i).slot ≠ w

theorem SInv.search {c N s ch fr pl} (h : SInv c N s ch fr pl) (h0 : 0 < c.nb) (name : Bytes) :
    (∃ pre i post, ch (c.bucket name) = pre ++ i :: post ∧ isName (s.mem.nodes i) name = true ∧
      search s.mem name (c.ns + 1) none (s.mem.head (c.bucket name)) = some (pre.getLast?, some i)) ∨
    ((∀ j ∈ ch (c.bucket name), isName (s.mem.nodes j) name = false) ∧ ∃ cur,
      search s.mem name (c.ns + 1) none (s.mem.head (c.bucket name)) = some (cur, none)) := by
  have hb := bucket_lt h0 name
  rcases search_spec s.mem name _ (c.ns + 1) [] _ (h.rep.chain _ hb) (h.rep.chLen hb) (by simp) with
    ⟨mid, i, post, e1, _, e3, e4⟩ | ⟨e1, e2⟩
  · left; exact ⟨mid, i, post, e1, e3, by simpa using e4⟩
  · right; exact ⟨e1, _, by simpa using e2⟩

/-- Removing a node from a bucket whose lock `w` holds. -/
theorem SInv.del {c : Cfg} {N : Prop} {s : Sys} {ch fr pl} (h : SInv c N s ch fr pl) (w : Nat) (x : Pc)
    {b i : Nat} {pre post : List Nat} (hb : b < c.nb) (hs : ch b = pre ++ i :: post) (hx : holds x = some i)
    (hw : holds (s.pc w) = none) (hl : c.locked x = some b) (lock : c.locked (s.pc w) = some b ∨ s.canLock c b)
    (hok : PcOk c N (unlink s.mem b pre.getLast? i) (upd ch b (pre ++ post)) w x) :
    SInv c N { mem := unlink s.mem b pre.getLast? i, pc := upd s.pc w x } (upd ch b (pre ++ post)) fr (upd pl i (.held w)) ∧
      Del c s.mem (unlink s.mem b pre.getLast? i) ch (upd ch b (pre ++ post)) b i := by
  have hsub : ∀ b', ∀ j ∈ upd ch b (pre ++ post) b', j ∈ ch b' := by
    intro b' j hj
    by_cases e : b' = b
    · subst e
      rw [upd_self] at hj
      rw [hs]
      simp only [List.mem_append, List.mem_cons] at hj ⊢
      rcases hj with hj | hj
      · exact .inl hj
      · exact .inr (.inr hj)
    · rwa [upd_ne _ _ e] at hj
  have him : i ∈ ch b := by rw [hs]; simp
  have hi := (h.rep.chMem b hb i).1 him
  refine ⟨h.move w x (h.rep.unlink w hb hs) ?_ ?_ ?_ ?_ hok ?_ ?_, hb, ⟨pre, post, hs, rfl⟩, fun j => unlink_name _ _ _ _ j⟩
  · intro j hj
    rw [hx]
    by_cases e : j = i
    · subst e; simp
    · rw [upd_ne _ _ e, h.held w j hj, hw]; simp [Ne.symm e]
  · intro w' hw' j hj
    by_cases e : j = i
    · subst e
      simp only [upd_self, Place.held.injEq, hi.2, reduceCtorEq, iff_false]
      exact fun e => hw' e.symm
    · rw [upd_ne _ _ e]
  · intro b' hb'
    rw [hl] at hb'; cases hb'
    exact lock
  · intro w' hw'
    refine (h.pcOk w').mono ?_ ?_ ?_ ?_
    · intro b' _ j hj hsl
      exact ⟨hsub b' j hj, by rw [← (unlink_name s.mem b pre.getLast? i j).2]; exact hsl⟩
    · intro b' hb'
      have : b' ≠ b := by
        intro e
        subst e
        rcases lock with h3 | h3
        · exact hw' (h.lock _ _ _ hb' h3)
        · exact h3 w' hb'
      rw [upd_ne _ _ this]
    · intro j _; exact (unlink_name _ _ _ _ j).1
    · intro _ _ j _; exact (unlink_name _ _ _ _ j).1
  · intro hN b' hb' j hj
    rw [(unlink_name _ _ _ _ j).1]
    exact h.names hN b' hb' j (hsub b' j hj)
  · intro hN b' hb' j hj k hk
    rw [(unlink_name _ _ _ _ j).1, (unlink_name _ _ _ _ k).1]
    exact h.uniq hN b' hb' j (hsub b' j hj) k (hsub b' k hk)

/-- Giving back the node in hand. -/
theorem SInv.give {c : Cfg} {N : Prop} {s : Sys} {ch fr pl} (h : SInv c N s ch fr pl) (w : Nat) (x : Pc)
    {i : Nat} (hi : i < c.ns) (hw : holds (s.pc w) = some i) (hx : holds x = none)
    (lock : ∀ b, c.locked x = some b → c.locked (s.pc w) = some b)
    (hok : PcOk c N (putNode s.mem i) ch w x) :
    SInv c N { mem := putNode s.mem i, pc := upd s.pc w x } ch (i :: fr) (upd pl i .free) ∧
      Same c s.mem (putNode s.mem i) ch ch := by
  have hp := (h.held w i hi).2 hw
  refine ⟨h.move w x (h.rep.put hi hp) ?_ ?_ (fun b hb => .inl (lock b hb)) ?_ hok ?_ ?_,
    fun b _ => ⟨rfl, fun j _ => put_name _ _ j⟩⟩
  · intro j hj
    rw [hx]
    by_cases e : j = i
    · subst e; simp
    · rw [upd_ne _ _ e, h.held w j hj, hw]; simp [Ne.symm e]
  · intro w' hw' j hj
    by_cases e : j = i
    · subst e; simp [hp, Ne.symm hw']
    · rw [upd_ne _ _ e]
  · intro w' hw'
    refine (h.pcOk w').mono ?_ (fun _ _ => rfl) (fun j _ => (put_name _ _ j).1) (fun _ _ j _ => (put_name _ _ j).1)
    intro b' _ j hj hsl
    exact ⟨hj, by rw [← (put_name s.mem i j).2]; exact hsl⟩
  · intro hN b' hb' j hj
    rw [(put_name _ _ j).1]
    exact h.names hN b' hb' j hj
  · intro hN b' hb' j hj k hk
    rw [(put_name _ _ j).1, (put_name _ _ k).1]
    exact h.uniq hN b' hb' j hj k hk

theorem step_inv {c : Cfg} {N : Prop} {s s' : Sys} {w : Nat} {e : Ev} {ch fr pl} (h0 : 0 < c.nb)
    (h : SInv c N s ch fr pl) (hst : Step c s w e s') (hn : N → ∀ n, e.asks = some n → 0 ∉ n) :
    ∃ ch' fr' pl', SInv c N s' ch' fr' pl' ∧ Eff c s s' ch ch' fr e := by
  cases hst with
  | insLong hi hl => exact ⟨ch, fr, pl, h, Same.refl c _ ch, .inl hl⟩
  | @insFound name cur i hi hl hc hs =>
    refine ⟨ch, fr, pl, h, hl, .inl ⟨Same.refl c _ ch, ?_⟩⟩
    rcases h.search h0 name with ⟨pre, i', post, e1, e2, e3⟩ | ⟨_, _, e3⟩
    · rw [e3] at hs
      simp only [Option.some.injEq, Prod.mk.injEq] at hs
      rw [← hs.2]
      exact ⟨i', by rw [e1]; simp, e2, rfl⟩
    · rw [e3] at hs; simp at hs
  | @insMiss name cur hi hl hc hs =>
    rcases h.search h0 name with ⟨pre, i', post, e1, e2, e3⟩ | ⟨e1, _, e3⟩
    · rw [e3] at hs; simp at hs
    · refine ⟨ch, fr, pl, h.stay w _ (by rw [hi]; rfl) ?_ ?_, Same.refl c _ ch, e1⟩
      · intro b hb
        simp only [Cfg.locked, Option.some.injEq] at hb
        subst hb
        exact .inr hc
      · refine ⟨hl, fun hN => ⟨hn hN _ rfl, ?_⟩⟩
        intro i hi e
        have := e1 i hi
        rw [Bool.eq_false_iff, Ne, isName_iff (h.names hN _ (bucket_lt h0 name) i hi).1] at this
        exact this e
  | @insGet name i m hp hg =>
    have hpc := h.pcOk w
    rw [hp] at hpc
    cases fr with
    | nil => rw [h.rep.get_none] at hg; cases hg
    | cons i' fr =>
      obtain ⟨m', hg', hrep, hi, hpl, hnodes, _⟩ := h.rep.get name w w
      rw [hg] at hg'
      simp only [Option.some.injEq, Prod.mk.injEq] at hg'
      obtain ⟨rfl, rfl⟩ := hg'
      have hnch : ∀ b, b < c.nb → ∀ j ∈ ch b, m.nodes j = s.mem.nodes j := by
        intro b hb j hj
        rw [hnodes]
        refine upd_ne _ _ ?_
        intro e
        subst e
        have := ((h.rep.chMem b hb j).1 hj).2
        rw [hpl] at this; cases this
      have hb := bucket_lt h0 name
      refine ⟨ch, fr, upd pl i (.held w), h.move w _ hrep ?_ ?_ ?_ ?_ ?_ ?_ ?_,
        fun b hb => ⟨rfl, fun j hj => by rw [hnch b hb j hj]; exact ⟨rfl, rfl⟩⟩⟩
      · intro j hj
        by_cases e : j = i
        · subst e; simp [holds]
        · rw [upd_ne _ _ e, h.held w j hj, hp]; simp [holds, Ne.symm e]
      · intro w' hw' j hj
        by_cases e : j = i
        · subst e; simp [hpl, Ne.symm hw']
        · rw [upd_ne _ _ e]
      · intro b hb
        left; rw [hp]; exact hb
      · intro w' hw'
        refine (h.pcOk w').mono ?_ (fun _ _ => rfl) ?_ ?_
        · intro b' hb' j hj hsl
          rw [hnch b' hb' j hj] at hsl
          exact ⟨hj, hsl⟩
        · intro j hj
          have : j ≠ i := by
            intro e
            subst e
            have := (h.held w' j hi).2 hj
            rw [hpl] at this; cases this
          rw [hnodes, upd_ne _ _ this]
        · intro b' hb' j hj
          rw [hnch b' (locked_lt h0 (h.pcOk w') hb') j hj]
      · refine ⟨hi, by rw [hnodes]; simp, hpc.1, fun hN => ⟨(hpc.2 hN).1, ?_⟩⟩
        intro j hj
        rw [hnch _ hb j hj]
        exact (hpc.2 hN).2 j hj
      · intro hN b hb j hj
        rw [hnch b hb j hj]
        exact h.names hN b hb j hj
      · intro hN b hb j hj k hk
        rw [hnch b hb j hj, hnch b hb k hk]
        exact h.uniq hN b hb j hj k hk
  | @insFull name hp hg =>
    refine ⟨ch, fr, pl, h.stay w _ (by rw [hp]; rfl) (by intro b hb; simp [Cfg.locked] at hb) trivial, Same.refl c _ ch, .inr ?_⟩
    cases fr with
    | nil => rfl
    | cons i' fr =>
      obtain ⟨m', hg', _⟩ := h.rep.get name w w
      rw [hg] at hg'; cases hg'
  | @insLink name i hp =>
    have hpc := h.pcOk w
    rw [hp] at hpc
    obtain ⟨hi, hname, hlen, hN'⟩ := hpc
    rw [take_name hlen] at hname
    have hb := bucket_lt h0 name
    have hpl := (h.held w i hi).2 (by rw [hp]; rfl)
    have hnot : ∀ b, b < c.nb → i ∉ ch b := by
      intro b hb hm
      have := ((h.rep.chMem b hb i).1 hm).2
      rw [hpl] at this; cases this
    have hmem : ∀ b', ∀ j ∈ upd ch (c.bucket name) (i :: ch (c.bucket name)) b', (j = i ∧ b' = c.bucket name) ∨ j ∈ ch b' := by
      intro b' j hj
      by_cases e : b' = c.bucket name
      · subst e
        rw [upd_self] at hj
        rcases List.mem_cons.1 hj with hj | hj
        · exact .inl ⟨hj, rfl⟩
        · exact .inr hj
      · rw [upd_ne _ _ e] at hj; exact .inr hj
    have hslot : ∀ b, b < c.nb → ∀ j ∈ ch b, ((link s.mem (c.bucket name) w i).nodes j).slot = (s.mem.nodes j).slot := by
      intro b hb j hj
      rw [link_slot, if_neg]
      intro e
      exact hnot b hb (e ▸ hj)
    refine ⟨_, fr, _, h.move w .idle (h.rep.link w hb hi hpl) ?_ ?_ (by intro b hb; simp [Cfg.locked] at hb) ?_ trivial ?_ ?_,
      hlen, .inr ⟨rfl, i, hp, rfl, by rw [link_slot, if_pos rfl], by rw [link_name]; exact hname, ?_⟩⟩
    · intro j hj
      by_cases e : j = i
      · subst e; simp [holds]
      · rw [upd_ne _ _ e, h.held w j hj, hp]; simp [holds, Ne.symm e]
    · intro w' hw' j hj
      by_cases e : j = i
      · subst e; simp [hpl, Ne.symm hw']
      · rw [upd_ne _ _ e]
    · intro w' hw'
      refine (h.pcOk w').mono ?_ ?_ (fun j _ => link_name _ _ _ _ j) (fun _ _ j _ => link_name _ _ _ _ j)
      · intro b' hb' j hj hsl
        rcases hmem b' j hj with ⟨e, _⟩ | hj
        · rw [link_slot, if_pos e] at hsl
          exact absurd (Int.ofNat_inj.1 hsl).symm hw'
        · rw [hslot b' hb' j hj] at hsl
          exact ⟨hj, hsl⟩
      · intro b' hb'
        have : b' ≠ c.bucket name := by
          intro e
          subst e
          exact hw' (h.lock _ _ _ hb' (by rw [hp]; rfl))
        rw [upd_ne _ _ this]
    · intro hN b' hb' j hj
      rw [link_name]
      rcases hmem b' j hj with ⟨rfl, e⟩ | hj
      · rw [hname]; exact ⟨(hN' hN).1, e.symm⟩
      · exact h.names hN b' hb' j hj
    · intro hN b' hb' j hj k hk
      rw [link_name, link_name]
      rcases hmem b' j hj with ⟨rfl, e⟩ | hj
      · rcases hmem b' k hk with ⟨rfl, _⟩ | hk
        · intro _; rfl
        · intro e2
          rw [hname] at e2
          subst e
          exact absurd e2.symm ((hN' hN).2 k hk)
      · rcases hmem b' k hk with ⟨rfl, e⟩ | hk
        · intro e2
          rw [hname] at e2
          subst e
          exact absurd e2 ((hN' hN).2 j (by assumption))
        · exact h.uniq hN b' hb' j hj k hk
    · intro b hb j hj
      exact ⟨link_name _ _ _ _ j, hslot b hb j hj⟩
  | @delNone name cur i? hi hc hs hno =>
    refine ⟨ch, fr, pl, h, Same.refl c _ ch, ?_⟩
    rcases h.search h0 name with ⟨pre, i', post, e1, e2, e3⟩ | ⟨e1, _, e3⟩
    · rw [e3] at hs
      simp only [Option.some.injEq, Prod.mk.injEq] at hs
      exact .inr ⟨i', by rw [e1]; simp, e2, hno i' hs.2.symm⟩
    · exact .inl e1
  | @delUnlink name cur i hi hc hs hsl =>
    rcases h.search h0 name with ⟨pre, i', post, e1, e2, e3⟩ | ⟨e1, _, e3⟩
    · rw [e3] at hs
      simp only [Option.some.injEq, Prod.mk.injEq] at hs
      obtain ⟨rfl, rfl⟩ := hs
      have hb := bucket_lt h0 name
      have hil := ((h.rep.chMem _ hb i').1 (by rw [e1]; simp)).1
      obtain ⟨h1, h2⟩ := h.del w (.delPut name i') hb e1 rfl (by rw [hi]; rfl) rfl (.inr hc) hil
      exact ⟨_, _, _, h1, i', h2, e2, hsl⟩
    · rw [e3] at hs; simp at hs
  | @delPut name i hp =>
    have hpc := h.pcOk w
    rw [hp] at hpc
    obtain ⟨h1, h2⟩ := h.give w .idle hpc (by rw [hp]; rfl) rfl (by intro b hb; simp [Cfg.locked] at hb) trivial
    exact ⟨_, _, _, h1, h2⟩
  | clrStart hi =>
    exact ⟨ch, fr, pl, h.stay w _ (by rw [hi]; rfl) (by intro b hb; simp [Cfg.locked] at hb) (by intro b hb; omega),
      Same.refl c _ ch⟩
  | @clrLock b hp hb hc =>
    have hpc := h.pcOk w
    rw [hp] at hpc
    refine ⟨ch, fr, pl, h.stay w _ (by rw [hp]; rfl) ?_ ?_, Same.refl c _ ch⟩
    · intro b' hb'
      simp only [Cfg.locked, Option.some.injEq] at hb'
      subst hb'
      exact .inr hc
    · exact ⟨hb, fun b' hb' => hpc b' hb' (by omega), [], ch b, rfl, rfl, by simp⟩
  | @clrEnd b hp hb =>
    have hpc := h.pcOk w
    rw [hp] at hpc
    exact ⟨ch, fr, pl, h.stay w _ (by rw [hp]; rfl) (by intro b hb; simp [Cfg.locked] at hb) trivial, Same.refl c _ ch,
      fun b' hb' => hpc b' (by omega) hb'⟩
  | @clrUnlink b cur i hp hnx hsl =>
    have hpc := h.pcOk w
    rw [hp] at hpc
    obtain ⟨hb, hl, pre, post, e1, e2, e3⟩ := hpc
    have hch := h.rep.chain b hb
    rw [e1] at hch
    have ha := hch.after
    have hx : following s.mem b cur = after s.mem.nodes (s.mem.head b) cur := by cases cur <;> rfl
    rw [hx, e2, ha] at hnx
    cases post with
    | nil => simp at hnx
    | cons i' post =>
      simp only [List.head?_cons, Option.some.injEq] at hnx
      subst hnx
      subst e2
      have hil := ((h.rep.chMem _ hb i').1 (by rw [e1]; simp)).1
      have hok : PcOk c N (unlink s.mem b pre.getLast? i') (upd ch b (pre ++ post)) w (.clrPut b pre.getLast? i') := by
        refine ⟨hil, hb, ?_, pre, post, by simp, rfl, ?_⟩
        · intro b' hb' j hj
          rw [upd_ne _ _ (by omega)] at hj
          rw [(unlink_name _ _ _ _ j).2]
          exact hl b' hb' j hj
        · intro j hj
          rw [(unlink_name _ _ _ _ j).2]
          exact e3 j hj
      obtain ⟨h1, h2⟩ := h.del w (.clrPut b pre.getLast? i') hb e1 rfl (by rw [hp]; rfl) rfl (.inl (by rw [hp]; rfl)) hok
      exact ⟨_, _, _, h1, b, h2, hsl⟩
  | @clrPut b cur i hp =>
    have hpc := h.pcOk w
    rw [hp] at hpc
    obtain ⟨hil, hb, hl, pre, post, e1, e2, e3⟩ := hpc
    have hok : PcOk c N (putNode s.mem i) ch w (.clr b cur) := by
      refine ⟨hb, ?_, pre, post, e1, e2, ?_⟩
      · intro b' hb' j hj
        rw [(put_name _ _ j).2]
        exact hl b' hb' j hj
      · intro j hj
        rw [(put_name _ _ j).2]
        exact e3 j hj
    obtain ⟨h1, h2⟩ := h.give w (.clr b cur) hil (by rw [hp]; rfl) rfl (by intro b hb; rw [hp]; exact hb) hok
    exact ⟨_, _, _, h1, h2⟩
  | @clrNext b cur i hp hnx hsl =>
    have hpc := h.pcOk w
    rw [hp] at hpc
    obtain ⟨hb, hl, pre, post, e1, e2, e3⟩ := hpc
    have hch := h.rep.chain b hb
    rw [e1] at hch
    have ha := hch.after
    have hx : following s.mem b cur = after s.mem.nodes (s.mem.head b) cur := by cases cur <;> rfl
    rw [hx, e2, ha] at hnx
    cases post with
    | nil => simp at hnx
    | cons i' post =>
      simp only [List.head?_cons, Option.some.injEq] at hnx
      subst hnx
      refine ⟨ch, fr, pl, h.stay w _ (by rw [hp]; rfl) (by intro b hb; rw [hp]; exact .inl hb) ?_, Same.refl c _ ch⟩
      refine ⟨hb, hl, pre ++ [i'], post, by simp [e1], by simp, ?_⟩
      intro j hj
      rcases List.mem_append.1 hj with hj | hj
      · exact e3 j hj
      · simp at hj; subst hj; exact hsl
  | @clrBucket b cur hp hnx =>
    have hpc := h.pcOk w
    rw [hp] at hpc
    obtain ⟨hb, hl, pre, post, e1, e2, e3⟩ := hpc
    have hch := h.rep.chain b hb
    rw [e1] at hch
    have ha := hch.after
    have hx : following s.mem b cur = after s.mem.nodes (s.mem.head b) cur := by cases cur <;> rfl
    rw [hx, e2, ha] at hnx
    cases post with
    | cons i' post => simp at hnx
    | nil =>
      simp only [List.append_nil] at e1
      refine ⟨ch, fr, pl, h.stay w _ (by rw [hp]; rfl) (by intro b hb; simp [Cfg.locked] at hb) ?_, Same.refl c _ ch⟩
      intro b' hb' _ j hj
      by_cases e : b' = b
      · subst e; rw [e1] at hj; exact e3 j hj
      · exact hl b' (by omega) j hj

theorem init_inv (c : Cfg) (N : Prop) (h0 : 0 < c.ns) :
    SInv c N { mem := init c, pc := fun _ => .idle } (fun _ => []) (List.range' 0 c.ns) (fun _ => .free) where
  rep := init_rep c h0
  held := by simp [holds]
  lock := by simp [Cfg.locked]
  pcOk := fun _ => trivial
  names := by simp
  uniq := by simp

theorem reach_inv {c : Cfg} {ok : Bytes → Prop} {N : Prop} {s : Sys} (h0 : 0 < c.nb) (h1 : 0 < c.ns)
    (hok : N → ∀ n, ok n → 0 ∉ n) (h : Reach c ok s) : ∃ ch fr pl, SInv c N s ch fr pl := by
  induction h with
  | init => exact ⟨_, _, _, init_inv c N h1⟩
  | step _ hst he ih =>
    obtain ⟨ch, fr, pl, h⟩ := ih
    obtain ⟨ch', fr', pl', h', _⟩ := step_inv h0 h hst (fun hN n hn => hok hN n (he n hn))
    exact ⟨ch', fr', pl', h'⟩

end Verif.Zone
