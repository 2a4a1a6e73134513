import Verif.Rtmp.FrameModel
/-
C09: exact reference counting of shared frames.
-/
namespace Verif.Frame

/-! Specification: clients hold references; `held a` is the number of references to frame `a` in the hands of clients. -/

inductive Op where
  | alloc (k : Kind) (chain : List Nat)
  | acquire (a : Nat)
  | release (a : Nat)
deriving DecidableEq, Repr

/-- The code's step, with the frame handed out (if any) and the buffers given back. -/
def step (s : St) : Op → St × Option Nat × List Nat
  | .alloc k chain => ((alloc s k chain).1, some (alloc s k chain).2, [])
  | .acquire a => (acquire s a, none, [])
  | .release a => ((release s a).1, none, (release s a).2)

/-- Clients only touch frames they hold. -/
def Legal (held : Nat → Nat) : Op → Prop
  | .alloc _ _ => True
  | .acquire a => 0 < held a
  | .release a => 0 < held a

instance (held : Nat → Nat) (op : Op) : Decidable (Legal held op) := by
  cases op <;> unfold Legal <;> infer_instance

/-- Book-keeping of the clients, from what they were given. -/
def track (held : Nat → Nat) (res : Option Nat) : Op → Nat → Nat
  | .alloc _ _ => fun b => if some b = res then held b + 1 else held b
  | .acquire a => fun b => if b = a then held b + 1 else held b
  | .release a => fun b => if b = a then held b - 1 else held b

/-- States reachable by legal clients. -/
inductive Reach : St → (Nat → Nat) → Prop
  | init : Reach Frame.init (fun _ => 0)
  | step {s held op} : Reach s held → Legal held op → Reach (step s op).1 (track held (step s op).2.1 op)

/-! Invariant -/

/-- `l` is the linked list starting at `h`. -/
def IsList (heap : Nat → Frame) : Option Nat → List Nat → Prop
  | h, [] => h = none
  | h, a :: l => h = some a ∧ IsList heap (heap a).next l

theorem isList_congr {heap heap' : Nat → Frame} {l : List Nat} (hh : ∀ a ∈ l, (heap' a).next = (heap a).next) (h : Option Nat) :
    IsList heap h l → IsList heap' h l := by
  induction l generalizing h with
  | nil => exact id
  | cons a l ih =>
    intro ⟨h1, h2⟩
    refine ⟨h1, ?_⟩
    rw [hh a (by simp)]
    exact ih (fun b hb => hh b (by simp [hb])) _ h2

structure Inv (s : St) (held : Nat → Nat) : Prop where
  ref : ∀ a, a < s.fresh → (s.heap a).ref = held a
  out : ∀ a, s.fresh ≤ a → held a = 0
  lists : ∃ l : Kind → List Nat, (∀ k, IsList s.heap (s.free k) (l k) ∧ (l k).Nodup ∧
      ∀ a, a ∈ l k ↔ a < s.fresh ∧ s.kind a = k ∧ held a = 0) ∧
    s.nfree = (l .rtmp).length + (l .mpegts).length
  nalloc : s.nalloc = s.fresh

theorem inv_init : Inv init (fun _ => 0) :=
  ⟨fun a h => absurd h (Nat.not_lt_zero _), fun _ _ => rfl, ⟨fun _ => [], by simp [IsList, init], rfl⟩, rfl⟩

@[simp] theorem setFrame_heap (s : St) (a : Nat) (f : Frame) (b : Nat) :
    (s.setFrame a f).heap b = if b = a then f else s.heap b := rfl

theorem kind_ne : ∀ {k k' : Kind}, k ≠ k' → (k = .rtmp ∧ k' = .mpegts) ∨ (k = .mpegts ∧ k' = .rtmp) := by
  intro k k'; cases k <;> cases k' <;> simp

theorem sum_kind (f g : Kind → Nat) (k : Kind) (h : ∀ k', k' ≠ k → f k' = g k') :
    f .rtmp + f .mpegts + g k = g .rtmp + g .mpegts + f k := by
  cases k
  · have := h .mpegts (by simp); omega
  · have := h .rtmp (by simp); omega

theorem sum_pos_kind (g : Kind → Nat) (k : Kind) : g k ≤ g .rtmp + g .mpegts := by
  cases k <;> omega

theorem alloc_inv {s : St} {held} (hi : Inv s held) (k : Kind) (chain : List Nat) :
    held (alloc s k chain).2 = 0 ∧
    Inv (alloc s k chain).1 (track held (some (alloc s k chain).2) (.alloc k chain)) := by
  obtain ⟨href, hout, ⟨l, hl, hn⟩, hna⟩ := hi
  cases hf : s.free k with
  | none =>
    have e : alloc s k chain = ({ s.setFrame s.fresh { ref := 1, next := none, chain := chain } with
        fresh := s.fresh + 1, kind := fun b => if b = s.fresh then k else s.kind b, nalloc := s.nalloc + 1 }, s.fresh) := by
      unfold alloc; rw [hf]
    rw [e]
    refine ⟨hout _ (Nat.le_refl _), ⟨?_, ?_, ⟨l, ?_, hn⟩, by simp [hna]⟩⟩
    · intro a ha
      simp only [track, setFrame_heap, Option.some.injEq]
      by_cases hb : a = s.fresh
      · simp [hb, hout]
      · rw [if_neg hb, if_neg hb]; exact href a (by simp at ha; omega)
    · intro a ha
      simp only at ha
      simp only [track, Option.some.injEq]
      rw [if_neg (by omega)]; exact hout a (by omega)
    · intro k'
      obtain ⟨h1, h2, h3⟩ := hl k'
      have hmem : ∀ a ∈ l k', a ≠ s.fresh := fun a ha => by have := (h3 a).1 ha; omega
      refine ⟨isList_congr (fun a ha => by simp [hmem a ha]) _ h1, h2, fun a => ?_⟩
      rw [h3]
      simp only [track, Option.some.injEq]
      by_cases hb : a = s.fresh
      · subst hb; simp
      · simp only [if_neg hb]
        constructor
        · rintro ⟨a1, a2⟩; exact ⟨by omega, a2⟩
        · rintro ⟨a1, a2⟩; exact ⟨by omega, a2⟩
  | some a =>
    obtain ⟨g1, g2, g3⟩ := hl k
    rw [hf] at g1
    cases hk : l k with
    | nil => rw [hk] at g1; simp [IsList] at g1
    | cons a' t =>
      rw [hk] at g1 g2 g3
      obtain ⟨ea, g1⟩ := g1
      cases ea
      obtain ⟨ha1, ha2, ha3⟩ := (g3 a).1 (by simp)
      have e : ∃ f' : Frame, f'.ref = 1 ∧ f'.next = none ∧ alloc s k chain = ({ s.setFrame a f' with
          free := fun k' => if k' = k then (s.heap a).next else s.free k', nfree := s.nfree - 1 }, a) := by
        unfold alloc; rw [hf]; cases k
        · exact ⟨_, rfl, rfl, rfl⟩
        · exact ⟨_, rfl, rfl, rfl⟩
      obtain ⟨f', f1, f2, e⟩ := e
      rw [e]
      refine ⟨ha3, ⟨?_, ?_, ⟨fun k' => if k' = k then t else l k', ?_, ?_⟩, hna⟩⟩
      · intro b hb
        simp only [track, setFrame_heap, Option.some.injEq]
        by_cases hba : b = a
        · simp [hba, f1, ha3]
        · rw [if_neg hba, if_neg hba]; exact href b hb
      · intro b hb
        simp only [track, Option.some.injEq]
        have : s.fresh ≤ b := hb
        rw [if_neg (by omega)]; exact hout b hb
      · intro k'
        by_cases hkk : k' = k
        · subst hkk
          simp only [if_true]
          have hat : a ∉ t := (List.nodup_cons.1 g2).1
          refine ⟨isList_congr (fun b hb => ?_) _ g1, (List.nodup_cons.1 g2).2, fun b => ?_⟩
          · have : b ≠ a := fun h => hat (h ▸ hb)
            simp [this]
          · simp only [track, Option.some.injEq]
            by_cases hba : b = a
            · subst hba; simp [hat]
            · have := g3 b
              simp only [List.mem_cons, hba, false_or] at this
              rw [if_neg hba]; exact this
        · simp only [if_neg hkk]
          obtain ⟨h1, h2, h3⟩ := hl k'
          have hat : a ∉ l k' := fun h => hkk (by rw [← ((h3 a).1 h).2.1, ha2])
          refine ⟨isList_congr (fun b hb => ?_) _ h1, h2, fun b => ?_⟩
          · have : b ≠ a := fun h => hat (h ▸ hb)
            simp [this]
          · simp only [track, Option.some.injEq]
            by_cases hba : b = a
            · subst hba; simp only [hat, false_iff]
              rintro ⟨_, hx, _⟩
              exact hkk (by rw [← hx]; exact ha2)
            · rw [if_neg hba]; exact h3 b
      · have := sum_kind (fun k' => (if k' = k then t else l k').length) (fun k' => (l k').length) k
          (fun k' h => by simp [h])
        simp only [if_true, hk, List.length_cons] at this
        have e2 : s.nfree - 1 + (t.length + 1) = (l .rtmp).length + (l .mpegts).length + t.length := by
          have := sum_pos_kind (fun k' => (l k').length) k
          simp only [hk, List.length_cons] at this
          omega
        show s.nfree - 1 = (if Kind.rtmp = k then t else l .rtmp).length + (if Kind.mpegts = k then t else l .mpegts).length
        omega

theorem acquire_inv {s : St} {held} (hi : Inv s held) (a : Nat) (hh : 0 < held a) :
    Inv (acquire s a) (track held none (.acquire a)) := by
  obtain ⟨href, hout, ⟨l, hl, hn⟩, hna⟩ := hi
  have ha : a < s.fresh := by
    apply Classical.byContradiction; intro h; have := hout a (by omega); omega
  refine ⟨?_, ?_, ⟨l, ?_, hn⟩, hna⟩
  · intro b hb
    simp only [acquire, track, setFrame_heap]
    by_cases hba : b = a
    · simp [hba, href a ha]
    · rw [if_neg hba, if_neg hba]; exact href b hb
  · intro b hb
    have : s.fresh ≤ b := hb
    simp only [track]; rw [if_neg (by omega)]; exact hout b hb
  · intro k
    obtain ⟨h1, h2, h3⟩ := hl k
    refine ⟨isList_congr (fun b hb => ?_) _ h1, h2, fun b => ?_⟩
    · simp only [acquire, setFrame_heap]; split
      · rename_i e; subst e; rfl
      · rfl
    · rw [h3]
      simp only [track]
      by_cases hba : b = a
      · subst hba; simp only [if_true]
        constructor
        · rintro ⟨_, _, h⟩; omega
        · rintro ⟨_, _, h⟩; omega
      · rw [if_neg hba]; rfl

theorem release_inv {s : St} {held} (hi : Inv s held) (a : Nat) (hh : 0 < held a) :
    Inv (release s a).1 (track held none (.release a)) := by
  obtain ⟨href, hout, ⟨l, hl, hn⟩, hna⟩ := hi
  have ha : a < s.fresh := by
    apply Classical.byContradiction; intro h; have := hout a (by omega); omega
  have hra := href a ha
  by_cases h1 : held a = 1
  · have e : (release s a).1 = { s.setFrame a { s.heap a with ref := 0, chain := [], next := s.free (s.kind a) } with
        free := fun k' => if k' = s.kind a then some a else s.free k', nfree := s.nfree + 1 } := by
      unfold release; rw [if_neg (by omega)]
    rw [e]
    have hnot : ∀ k, a ∉ l k := fun k hm => by have := ((hl k).2.2 a).1 hm; omega
    refine ⟨?_, ?_, ⟨fun k' => if k' = s.kind a then a :: l k' else l k', ?_, ?_⟩, hna⟩
    · intro b hb
      simp only [track, setFrame_heap]
      by_cases hba : b = a
      · simp [hba, h1]
      · rw [if_neg hba, if_neg hba]; exact href b hb
    · intro b hb
      have : s.fresh ≤ b := hb
      simp only [track]; rw [if_neg (by omega)]; exact hout b hb
    · intro k
      obtain ⟨g1, g2, g3⟩ := hl k
      have hnext : ∀ b ∈ l k, (({ s.setFrame a { s.heap a with ref := 0, chain := [], next := s.free (s.kind a) } with
        free := fun k' => if k' = s.kind a then some a else s.free k', nfree := s.nfree + 1 } : St).heap b).next =
        (s.heap b).next := fun b hb => by
          have : b ≠ a := fun h => hnot k (h ▸ hb)
          simp [this]
      by_cases hk : k = s.kind a
      · simp only [if_pos hk]
        refine ⟨⟨rfl, ?_⟩, List.nodup_cons.2 ⟨hnot k, g2⟩, fun b => ?_⟩
        · simp only [setFrame_heap, if_true]
          exact isList_congr hnext _ (hk ▸ g1)
        · simp only [track, List.mem_cons]
          by_cases hba : b = a
          · subst hba
            simp only [true_or, if_true, true_iff]
            exact ⟨ha, hk.symm, by omega⟩
          · simp only [hba, false_or]
            rw [if_neg (by simp)]
            exact g3 b
      · simp only [if_neg hk]
        refine ⟨isList_congr hnext _ g1, g2, fun b => ?_⟩
        simp only [track]
        by_cases hba : b = a
        · subst hba
          simp only [hnot k, false_iff]
          rintro ⟨_, hx, _⟩
          exact hk hx.symm
        · rw [if_neg hba]; exact g3 b
    · have := sum_kind (fun k' => (if k' = s.kind a then a :: l k' else l k').length) (fun k' => (l k').length) (s.kind a)
          (fun k' h => by simp [h])
      simp only [if_true, List.length_cons] at this
      show s.nfree + 1 = (if Kind.rtmp = s.kind a then a :: l .rtmp else l .rtmp).length +
        (if Kind.mpegts = s.kind a then a :: l .mpegts else l .mpegts).length
      omega
  · have e : (release s a).1 = s.setFrame a { s.heap a with ref := (s.heap a).ref - 1 } := by
      unfold release; rw [if_pos (by omega)]
    rw [e]
    refine ⟨?_, ?_, ⟨l, ?_, hn⟩, hna⟩
    · intro b hb
      simp only [track, setFrame_heap]
      by_cases hba : b = a
      · simp [hba, hra]
      · rw [if_neg hba, if_neg hba]; exact href b hb
    · intro b hb
      have : s.fresh ≤ b := hb
      simp only [track]; rw [if_neg (by omega)]; exact hout b hb
    · intro k
      obtain ⟨g1, g2, g3⟩ := hl k
      refine ⟨isList_congr (fun b hb => ?_) _ g1, g2, fun b => ?_⟩
      · simp only [setFrame_heap]; split
        · rename_i e; subst e; rfl
        · rfl
      · rw [g3]
        simp only [track]
        by_cases hba : b = a
        · subst hba
          simp only [if_true]
          constructor
          · rintro ⟨_, _, h⟩; omega
          · rintro ⟨_, _, h⟩; omega
        · rw [if_neg hba]; rfl

theorem reach_inv {s held} (hr : Reach s held) : Inv s held := by
  induction hr with
  | init => exact inv_init
  | @step s held op _ hl ih =>
    cases op with
    | alloc k chain => exact (alloc_inv ih k chain).2
    | acquire a => exact acquire_inv ih a hl
    | release a => exact release_inv ih a hl

/-! ### Property theorems -/

/-- C09: whatever legal clients did before, a frame handed out is one nobody holds. -/
theorem C09_alloc_exclusive {s held} (hr : Reach s held) (k : Kind) (chain : List Nat) : held (alloc s k chain).2 = 0 :=
  (alloc_inv (reach_inv hr) k chain).1

/-- C09: releasing a frame gives its buffers back exactly when this was the last reference, otherwise nothing is given
back. -/
theorem C09_release_last {s held} (hr : Reach s held) (a : Nat) (ha : 0 < held a) :
    (release s a).2 = if held a = 1 then (s.heap a).chain else [] := by
  have hi := reach_inv hr
  have hf : a < s.fresh := by
    apply Classical.byContradiction; intro h; have := hi.out a (by omega); omega
  have := hi.ref a hf
  unfold release
  by_cases h1 : held a = 1
  · rw [if_neg (by omega), if_pos h1]
  · rw [if_pos (by omega), if_neg h1]

/-- C09: as long as somebody holds a frame, nothing done to the pool by anybody changes its header, flags or payload. -/
theorem C09_held_frame_stable {s held} (hr : Reach s held) (op : Op) (hl : Legal held op) (a : Nat) (ha : 0 < held a)
    (hk : 0 < track held (step s op).2.1 op a) :
    let f := s.heap a
    let f' := (step s op).1.heap a
    f'.hdr = f.hdr ∧ f'.avHeader = f.avHeader ∧ f'.keyframe = f.keyframe ∧ f'.mandatory = f.mandatory ∧ f'.chain = f.chain := by
  have hi := reach_inv hr
  have hf : a < s.fresh := by
    apply Classical.byContradiction; intro h; have := hi.out a (by omega); omega
  have href := hi.ref a hf
  cases op with
  | alloc k chain =>
    have hx := C09_alloc_exclusive hr k chain
    have hne : a ≠ (alloc s k chain).2 := fun h => by rw [← h] at hx; omega
    have : (alloc s k chain).1.heap a = s.heap a := by
      revert hne
      unfold alloc
      split
      · intro hne; exact if_neg hne
      · intro hne; exact if_neg hne
    simp only [step, this, and_self]
  | acquire b =>
    simp only [step, acquire, setFrame_heap]
    by_cases hba : a = b
    · subst hba; simp
    · rw [if_neg hba]; simp
  | release b =>
    by_cases hba : a = b
    · subst hba
      simp only [track, if_true] at hk
      simp only [step, release]
      rw [if_pos (by omega)]
      simp
    · have : (release s b).1.heap a = s.heap a := by
        simp only [release]
        split
        · exact if_neg hba
        · exact if_neg hba
      simp only [step, this, and_self]

/-- C09: the frames in the free lists are exactly the allocated frames nobody holds, each once: nothing is leaked and nothing is
put back twice. -/
theorem C09_free_exactly_unheld {s held} (hr : Reach s held) :
    ∃ l : Kind → List Nat, (∀ k, IsList s.heap (s.free k) (l k) ∧ (l k).Nodup) ∧
      ∀ k a, a ∈ l k ↔ a < s.fresh ∧ s.kind a = k ∧ held a = 0 := by
  obtain ⟨l, hl, _⟩ := (reach_inv hr).lists
  exact ⟨l, fun k => ⟨(hl k).1, (hl k).2.1⟩, fun k a => (hl k).2.2 a⟩

theorem count_split (n : Nat) (p : Nat → Bool) :
    ((List.range n).filter p).length + ((List.range n).filter (fun a => !p a)).length = n := by
  have := List.length_eq_countP_add_countP p (l := List.range n)
  rw [List.length_range] at this
  rw [← List.countP_eq_length_filter, ← List.countP_eq_length_filter]
  simp only [Bool.not_eq_true] at this
  have e : List.countP (fun a => !p a) (List.range n) = List.countP (fun a => decide (p a = false)) (List.range n) := by
    congr 1; funext a; cases p a <;> rfl
  rw [e]
  omega

/-- C09: the counters account for every frame: `nalloc` frames exist and `nalloc - nfree` of them are held by somebody. -/
theorem C09_counters {s held} (hr : Reach s held) :
    s.nalloc = s.fresh ∧ s.nfree ≤ s.nalloc ∧
    s.nalloc - s.nfree = ((List.range s.fresh).filter (fun a => decide (0 < held a))).length := by
  obtain ⟨_, _, ⟨l, hl, hn⟩, hna⟩ := reach_inv hr
  have hdis : (l .rtmp ++ l .mpegts).Nodup := by
    rw [List.nodup_append]
    refine ⟨(hl _).2.1, (hl _).2.1, fun a ha b hb hab => ?_⟩
    subst hab
    have h1 := (((hl .rtmp).2.2 a).1 ha).2.1
    have h2 := (((hl .mpegts).2.2 a).1 hb).2.1
    rw [h1] at h2; cases h2
  have hperm : (l .rtmp ++ l .mpegts).Perm ((List.range s.fresh).filter (fun a => !decide (0 < held a))) := by
    rw [List.perm_ext_iff_of_nodup hdis (List.nodup_range.sublist (List.filter_sublist))]
    intro a
    simp only [List.mem_append, (hl _).2.2, List.mem_filter, List.mem_range]
    constructor
    · rintro (⟨h1, _, h3⟩ | ⟨h1, _, h3⟩) <;> exact ⟨h1, by simp [h3]⟩
    · rintro ⟨h1, h2⟩
      have h3 : held a = 0 := by simpa using h2
      cases hk : s.kind a
      · exact Or.inl ⟨h1, rfl, h3⟩
      · exact Or.inr ⟨h1, rfl, h3⟩
  have hlen := hperm.length_eq
  rw [List.length_append] at hlen
  have hc := count_split s.fresh (fun a => decide (0 < held a))
  omega

/-- Witness: a history with recycling; frame 0 is held twice, released twice, and then handed out again. -/
example : ∃ s held, Reach s held ∧ held 0 = 1 ∧ held 1 = 1 ∧ (alloc s .rtmp []).2 = 2 ∧
    (s.heap 0).chain = [7] ∧ s.nalloc = 2 ∧ s.nfree = 0 := by
  refine ⟨_, _, .step (op := .alloc .rtmp [7]) (.step (op := .release 0) (.step (op := .release 0)
    (.step (op := .alloc .mpegts [6]) (.step (op := .acquire 0) (.step (op := .alloc .rtmp [5]) .init trivial) ?_) trivial)
    ?_) ?_) trivial, ?_, ?_, ?_, ?_, ?_, ?_⟩ <;> decide

end Verif.Frame
