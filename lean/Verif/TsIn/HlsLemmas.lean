import Verif.TsIn.HlsText
import Verif.TsIn.WriteProps
import Verif.Base.ListInd
/-
Segments, one variant: what is kept true over units.
-/
namespace Verif.TsHls
open Verif Verif.TsIn

/-- A unit with its program and its stream as they are then. -/
abbrev U := Prog × Es × List Bytes

/-! ### Writing more often -/

theorem rounds_more : ∀ n m h first left c r, n ≤ m → rounds n h first left c = some r → rounds m h first left c = some r := by
  intro n
  induction n with
  | zero => intro m h first left c r _ g; cases g
  | succ n ih =>
    intro m h first left c r hm g
    obtain ⟨m, rfl⟩ : ∃ x, m = x + 1 := ⟨m - 1, by omega⟩
    simp only [rounds] at g ⊢
    split
    · rename_i hx
      rw [if_pos hx] at g
      exact g
    · rename_i hx
      rw [if_neg hx] at g
      rw [Option.map_eq_some_iff] at g ⊢
      obtain ⟨y, g1, g2⟩ := g
      exact ⟨y, ih m _ _ _ _ y (by omega) g1, g2⟩

theorem writePes_more {n m : Nat} (h : n ≤ m) {P e b r} (g : writePes n P e b = some r) : writePes m P e b = some r := rounds_more n m _ _ _ _ _ h g
theorem writePat_more {n m : Nat} (h : n ≤ m) {p r} (g : writePat n p = some r) : writePat m p = some r := rounds_more n m _ _ _ _ _ h g
theorem writePmt_more {n m : Nat} (h : n ≤ m) {p r} (g : writePmt n p = some r) : writePmt m p = some r := rounds_more n m _ _ _ _ _ h g

theorem writeEach_more {n m : Nat} (h : n ≤ m) : ∀ us k r, writeEach n k us = some r → writeEach m k us = some r := by
  intro us
  induction us with
  | nil => intro k r g; exact g
  | cons u us ih =>
    intro k r g
    obtain ⟨P, e, b⟩ := u
    simp only [writeEach, Option.bind_eq_some_iff, Option.map_eq_some_iff] at g ⊢
    obtain ⟨x, g1, y, g2, g3⟩ := g
    exact ⟨x, writePes_more h g1, y, ih _ _ g2, g3⟩

theorem writeEach_append (n : Nat) : ∀ a b k, writeEach n k (a ++ b) = (writeEach n k a).bind fun r => (writeEach n r.2 b).map fun x => (r.1 ++ x.1, x.2) := by
  intro a
  induction a with
  | nil => intro b k; simp [writeEach]
  | cons u a ih =>
    intro b k
    obtain ⟨P, e, d⟩ := u
    simp only [List.cons_append, writeEach]
    cases writePes n P { e with cont := k e.pid } d with
    | none => rfl
    | some r =>
      simp only [Option.bind_some, ih]
      cases writeEach n (fun q => if q = e.pid then r.2 else k q) a with
      | none => rfl
      | some x =>
        simp only [Option.bind_some, Option.map_some]
        cases writeEach n x.2 b <;> simp

/-! ### The ring -/

/-- The ring has the last of all segments there were, and nothing else. -/
def RingOk (N : Nat) (hist segs : List Seg) : Prop :=
  segs.length = N ∧ (∀ j, hist.length ≤ j + N → j < hist.length → segs[j % N]? = hist[j]?) ∧ ∀ j, hist.length ≤ j → j < N → segs[j]? = some {}

theorem RingOk.start (N : Nat) : RingOk N [] (List.replicate N {}) := by
  refine ⟨by simp, fun j _ h => by simp at h, fun j _ h => by simp [h]⟩

theorem RingOk.add {N : Nat} {hist segs : List Seg} (h : RingOk N hist segs) (_ : N ≠ 0) (s : Seg) : RingOk N (hist ++ [s]) (segs.set (hist.length % N) s) := by
  obtain ⟨h1, h2, h3⟩ := h
  refine ⟨by simp [h1], ?_, ?_⟩
  · intro j a b
    rw [List.length_append, List.length_singleton] at a b
    rw [List.getElem?_set]
    by_cases e : j = hist.length
    · subst e
      rw [if_pos rfl, if_pos (by rw [h1]; exact Nat.mod_lt _ (by omega)), List.getElem?_append_right (Nat.le_refl _)]
      simp
    · have hne : ¬ hist.length % N = j % N := by
        intro g
        have : (hist.length - j) % N = 0 := Nat.sub_mod_eq_zero_of_mod_eq g
        rw [Nat.mod_eq_of_lt (by omega)] at this
        omega
      rw [if_neg hne, h2 j (by omega) (by omega), List.getElem?_append_left (by omega)]
  · intro j a b
    rw [List.length_append, List.length_singleton] at a
    rw [List.getElem?_set, if_neg, h3 j (by omega) b]
    rw [Nat.mod_eq_of_lt (by omega)]
    omega

theorem range_ring (N L : Nat) (h : L ≤ N) (f : Nat → Option Seg) : (List.range N).filterMap f =
    (List.range (N - L)).filterMap f ++ (List.range L).filterMap (fun i => f (N - L + i)) := by
  have : List.range N = List.range (N - L) ++ (List.range L).map (N - L + ·) := by
    rw [← List.range_add]
    congr 1
    omega
  rw [this, List.filterMap_append, List.filterMap_map]
  rfl

theorem filterMap_same (r : List Nat) (f g : Nat → Option Seg) (h : ∀ i ∈ r, f i = g i) : r.filterMap f = r.filterMap g := by
  induction r with
  | nil => rfl
  | cons x r ih => rw [List.filterMap_cons, List.filterMap_cons, h x (by simp), ih (fun i hi => h i (by simp [hi]))]

theorem filterMap_get (l : List Seg) : ∀ m a, a + m = l.length → (List.range m).filterMap (fun i => l[a + i]?) = l.drop a := by
  intro m
  induction m with
  | zero => intro a h; simp [← h]
  | succ m ih =>
    intro a h
    have := ih (a + 1) (by omega)
    rw [List.range_succ_eq_map, List.filterMap_cons, List.filterMap_map, Nat.add_zero, List.getElem?_eq_getElem (by omega), List.drop_eq_getElem_cons (by omega), ← this]
    simp only
    congr 1
    apply filterMap_same
    intro i _
    simp only [Function.comp]
    rw [show a + (i + 1) = a + 1 + i by omega]

theorem listed_ring {N : Nat} {hist : List Seg} (v : Var) (h : RingOk N hist v.segs) (hs : v.seg = hist.length) :
    listed v = (hist.drop (hist.length - N)).filter fun s => s.duration ≠ 0 := by
  obtain ⟨h1, h2, h3⟩ := h
  unfold listed ring
  rw [h1, hs]
  by_cases hl : hist.length ≤ N
  · rw [range_ring N hist.length hl, List.filter_append]
    have e1 : (List.filterMap (fun i => v.segs[(hist.length + i) % N]?) (List.range (N - hist.length))).filter (fun s => decide (s.duration ≠ 0)) = [] := by
      rw [List.filter_eq_nil_iff]
      intro s hs'
      rw [List.mem_filterMap] at hs'
      obtain ⟨i, hi, g⟩ := hs'
      rw [List.mem_range] at hi
      rw [Nat.mod_eq_of_lt (by omega), h3 _ (by omega) (by omega)] at g
      injection g with g
      subst g
      simp
    have e2 : List.filterMap (fun i => v.segs[(hist.length + (N - hist.length + i)) % N]?) (List.range hist.length) = hist := by
      have := filterMap_get hist hist.length 0 (by omega)
      rw [List.drop_zero] at this
      conv => rhs; rw [← this]
      apply filterMap_same
      intro i hi
      rw [List.mem_range] at hi
      rw [show hist.length + (N - hist.length + i) = i + N by omega, Nat.add_mod_right, h2 i (by omega) hi, Nat.zero_add]
    rw [e1, e2, show hist.length - N = 0 by omega, List.drop_zero, List.nil_append]
  · congr 1
    rw [← filterMap_get hist N (hist.length - N) (by omega)]
    apply filterMap_same
    intro i hi
    rw [List.mem_range] at hi
    rw [← h2 (hist.length - N + i) (by omega) (by omega), show hist.length + i = hist.length - N + i + N by omega, Nat.add_mod_right]

/-! ### Segments -/

def firstDts : List U → Nat
  | [] => 0
  | u :: _ => u.2.1.dts

/-- The unit does not end the segment that started at `t`. -/
def Stay (c : Conf) (t : Nat) (u : U) : Prop :=
  (u.2.1.dts : Int) - t < (c.minSeg * 90 : Nat) ∨ (u.2.1.dts : Int) - t < (c.maxSeg * 90 : Nat) ∧ (u.2.1.video = true ∧ u.2.1.rand = false ∨ u.2.1.video = false ∧ u.1.video = true)

/-- Units of a segment after the first, and what was in the file before each. -/
def SegOk (n : Nat) (c : Conf) (pro : List Bytes) (k : Nat → Nat) (s : List U) (b : List Bytes) : Prop :=
  ∀ a u r, s = a ++ u :: r → a ≠ [] → Stay c (firstDts s) u ∧ ∃ x y kx, writeEach n k a = some (x, kx) ∧ b = x ++ y ∧ (c.maxSize = 0 ∨ (pro ++ x).flatten.length < c.maxSize)

/-- Segments one after another, the counters going on. -/
def Chain (n : Nat) (c : Conf) (pro : List Bytes) : (Nat → Nat) → List (List U) → List (List Bytes) → (Nat → Nat) → Prop
  | k, [], [], k' => k = k'
  | k, s :: S, b :: B, k' => SegOk n c pro k s b ∧ ∃ k1, writeEach n k s = some (b, k1) ∧ Chain n c pro k1 S B k'
  | _, _, _, _ => False

theorem Chain.snoc {n c pro} : ∀ {S B k k' s b k''}, Chain n c pro k S B k' → SegOk n c pro k' s b → writeEach n k' s = some (b, k'') → Chain n c pro k (S ++ [s]) (B ++ [b]) k'' := by
  intro S
  induction S with
  | nil =>
    intro B k k' s b k'' h g1 g2
    cases B with
    | nil =>
      simp only [Chain] at h
      subst h
      exact ⟨g1, k'', g2, rfl⟩
    | cons _ _ => cases h
  | cons t S ih =>
    intro B k k' s b k'' h g1 g2
    cases B with
    | nil => cases h
    | cons x B =>
      obtain ⟨h1, k1, h2, h3⟩ := h
      exact ⟨h1, k1, h2, ih h3 g1 g2⟩

theorem Chain.length {n c pro} : ∀ {S B k k'}, Chain n c pro k S B k' → B.length = S.length := by
  intro S
  induction S with
  | nil => intro B k k' h; cases B with | nil => rfl | cons _ _ => cases h
  | cons t S ih =>
    intro B k k' h
    cases B with
    | nil => cases h
    | cons x B =>
      obtain ⟨-, k1, -, h3⟩ := h
      simp [ih h3]

theorem Chain.all {n c pro} : ∀ {S B k k'}, Chain n c pro k S B k' → writeEach n k S.flatten = some (B.flatten, k') := by
  intro S
  induction S with
  | nil => intro B k k' h; cases B with | nil => simp only [Chain] at h; subst h; rfl | cons _ _ => cases h
  | cons t S ih =>
    intro B k k' h
    cases B with
    | nil => cases h
    | cons x B =>
      obtain ⟨-, k1, h2, h3⟩ := h
      rw [List.flatten_cons, writeEach_append, h2]
      simp [ih h3]

theorem Chain.at {n c pro} : ∀ {S B k k'} {j : Nat} {s}, Chain n c pro k S B k' → S[j]? = some s → ∃ b k1 k2, B[j]? = some b ∧ writeEach n k1 s = some (b, k2) ∧ SegOk n c pro k1 s b := by
  intro S
  induction S with
  | nil => intro B k k' j s h g; simp at g
  | cons t S ih =>
    intro B k k' j s h g
    cases B with
    | nil => cases h
    | cons x B =>
      obtain ⟨h1, k1, h2, h3⟩ := h
      cases j with
      | zero =>
        simp at g
        subst g
        exact ⟨x, k, k1, by simp, h2, h1⟩
      | succ j =>
        rw [List.getElem?_cons_succ] at g
        obtain ⟨b, a1, a2, a3, a4, a5⟩ := ih h3 g
        exact ⟨b, a1, a2, by simpa using a3, a4, a5⟩

/-- All segments there were, by the times at which they start. -/
def HistOk (pro : List Bytes) (T : List Nat) (B : List (List Bytes)) (hist : List Seg) : Prop :=
  hist.map (fun s => (s.id, s.duration)) = Spec.extents 0 T ∧ hist.map (·.size) = B.map fun b => (pro ++ b).flatten.length

theorem extents_snoc : ∀ (T : List Nat) (i x y : Nat), Spec.extents i (T ++ [x, y]) = Spec.extents i (T ++ [x]) ++ [(i + T.length, (((y : Int) - x) % (2 ^ 64 : Nat)).toNat)] := by
  intro T
  induction T with
  | nil => intro i x y; rfl
  | cons t T ih =>
    intro i x y
    cases T with
    | nil => simp [Spec.extents]
    | cons t' T =>
      have := ih (i + 1) x y
      simp only [List.cons_append] at this ⊢
      rw [Spec.extents, this, Spec.extents]
      simp
      omega

theorem extents_length : ∀ T i, (Spec.extents i T).length = T.length - 1 := by
  intro T
  induction T with
  | nil => intro i; rfl
  | cons t T ih =>
    intro i
    cases T with
    | nil => rfl
    | cons t' T =>
      rw [Spec.extents, List.length_cons, ih]
      simp

/-! ### Units -/

/-- Units of one program, all with times. -/
def feed (n : Nat) (c : Conf) : Var → List U → R Var
  | v, [] => .ok v
  | v, u :: us => (unit n c v u.1 u.2.1 u.2.2).bind fun x => feed n c x.1 us

theorem feed_append (n : Nat) (c : Conf) : ∀ a v b, feed n c v (a ++ b) = (feed n c v a).bind fun v' => feed n c v' b := by
  intro a
  induction a with
  | nil => intro v b; rfl
  | cons u a ih =>
    intro v b
    simp only [List.cons_append, feed]
    cases unit n c v u.1 u.2.1 u.2.2 with
    | ok x => simp only [R.bind]; exact ih _ _
    | error => rfl
    | crash => rfl
    | more => rfl

theorem bind_ok {α β : Type} {r : R α} {f : α → R β} {b : β} (h : r.bind f = .ok b) : ∃ a, r = .ok a ∧ f a = .ok b := by
  cases r with
  | ok a => exact ⟨a, rfl, h⟩
  | error => cases h
  | crash => cases h
  | more => cases h

theorem bandwidth_frame {c v bufs pts v'} (h : updateBandwidth c v bufs pts = .ok v') : ∃ x y z, v' = { v with bandwidth := x, bwBytes := y, bwDts := z } := by
  unfold updateBandwidth at h
  split at h
  · injection h with h
    exact ⟨v.bandwidth, v.bwBytes, v.bwDts, h ▸ rfl⟩
  · dsimp only at h
    generalize (if v.bwBytes = 0 then pts else v.bwDts) = start at h
    split at h
    · split at h
      · cases h
      · injection h with h
        exact ⟨_, _, _, h.symm⟩
    · injection h with h
      exact ⟨v.bandwidth, _, _, h.symm⟩

theorem playlist_same (c : Conf) (v w : Var) (done : Bool) (h1 : v.number = w.number) (h2 : v.multi = w.multi) (h3 : v.segs = w.segs) (h4 : v.seg = w.seg) :
    playlist c v done = playlist c w done := by
  have e : entry v = entry w := by
    funext s
    unfold entry nameOf
    rw [h1, h2]
  have l : listed v = listed w := by
    unfold listed ring
    rw [h3, h4]
  unfold playlist
  rw [h3, h4, e, l]

theorem goesOn_iff (c : Conf) (v : Var) (u : U) (t : Nat) : goesOn c v u.1.video u.2.1 ((u.2.1.dts : Int) - t) = true ↔ Stay c t u ∧ (c.maxSize = 0 ∨ v.offset < c.maxSize) := by
  unfold goesOn Stay
  generalize (u.2.1.dts : Int) - t = d
  cases u.2.1.video <;> cases u.2.1.rand <;> cases u.1.video <;> simp

/-- What is true after the units. -/
structure Inv (n : Nat) (c : Conf) (v0 : Var) (P0 : Prog) (us : List U) (v : Var) (S : List (List U)) (s : List U) (B : List (List Bytes)) (b : List Bytes) (k : Nat → Nat)
    (pro : List Bytes) (hist : List Seg) : Prop where
  flat : S.flatten ++ s = us
  ne : s ≠ [] ∧ ∀ t ∈ S, t ≠ []
  opened : v.opened = true
  seg : v.seg = S.length
  before : ∀ j x, B[j]? = some x → v.disk j = pro ++ x
  disk : v.disk v.seg = pro ++ b
  after : ∀ j, v.seg < j → v.disk j = []
  tables : v.prologue = some pro ∧ ∃ x y, writePat n [P0] = some x ∧ writePmt n P0 = some y ∧ pro = x.1 ++ y.1
  dts : v.segDts = firstDts s
  chain : Chain n c pro v0.cont S B k
  segOk : SegOk n c pro k s b
  last : writeEach n k s = some (b, v.cont)
  ring : RingOk c.nsegs hist v.segs
  hist : HistOk pro ((S ++ [s]).map firstDts) B hist
  cut : ∀ j x y z u r, S[j]? = some x → (S ++ [s])[j + 1]? = some (u :: r) → B[j]? = some y → z = (pro ++ y).flatten.length →
    ¬ (Stay c (firstDts x) u ∧ (c.maxSize = 0 ∨ z < c.maxSize))
  names : v.number = v0.number ∧ v.multi = v0.multi
  lists : S = [] ∧ v.playlists = [] ∨ S ≠ [] ∧ v.playlists.getLast? = some (playlist c v false)

theorem firstDts_snoc (s : List U) (u : U) (h : s ≠ []) : firstDts (s ++ [u]) = firstDts s := by
  cases s with
  | nil => exact absurd rfl h
  | cons _ _ => rfl

theorem writeEach_one (n : Nat) (k : Nat → Nat) (u : U) : writeEach n k [u] =
    (writePes n u.1 { u.2.1 with cont := k u.2.1.pid } u.2.2).map fun r => (r.1, fun q => if q = u.2.1.pid then r.2 else k q) := by
  obtain ⟨P, e, b⟩ := u
  simp only [writeEach]
  cases writePes n P { e with cont := k e.pid } b <;> simp

theorem writeUnit_ok {n v u v'} (h : writeUnit n v u.1 u.2.1 u.2.2 = .ok v') : ∃ r k, writeEach n v.cont [u] = some (r, k) ∧
    v' = { v with disk := fun q => if q = v.seg then v.disk q ++ r else v.disk q, cont := k } := by
  rw [writeEach_one]
  unfold writeUnit at h
  split at h
  · rename_i r hr
    injection h with h
    rw [hr]
    exact ⟨_, _, rfl, h.symm⟩
  · cases h

theorem openSegment_ok {n v P v'} (h : openSegment n v P = .ok v') (ho : v.opened = false) : ∃ pro, v' = { v with opened := true, prologue := some pro, disk := fun q => if q = v.seg then pro else v.disk q } ∧
    (v.prologue = some pro ∨ v.prologue = none ∧ ∃ x y, writePat n [P] = some x ∧ writePmt n P = some y ∧ pro = x.1 ++ y.1) := by
  unfold openSegment at h
  rw [if_neg (by simp [ho])] at h
  split at h
  · rename_i pro hp
    injection h with h
    exact ⟨pro, by rw [← h, hp], .inl hp⟩
  · rename_i hp
    split at h
    · rename_i x y hx hy
      injection h with h
      exact ⟨_, h.symm, .inr ⟨hp, x, y, hx, hy, rfl⟩⟩
    · cases h

/-- Nothing has come yet. -/
structure Fresh (c : Conf) (v : Var) : Prop where
  opened : v.opened = false
  seg : v.seg = 0
  disk : ∀ j, v.disk j = []
  prologue : v.prologue = none
  segs : v.segs = List.replicate c.nsegs {}
  playlists : v.playlists = []

theorem segOk_one (n c pro k u b) : SegOk n c pro k [u] b := by
  intro a w r e h
  cases a with
  | nil => exact absurd rfl h
  | cons x a => simp at e

theorem inv_first {n c v0 u x} (h0 : Fresh c v0) (h : unit n c v0 u.1 u.2.1 u.2.2 = .ok x) : ∃ b pro, Inv n c v0 u.1 [u] x.1 [] [u] [] b v0.cont pro [] := by
  unfold unit at h
  obtain ⟨v1, h1, h⟩ := bind_ok h
  obtain ⟨w2, h2, h⟩ := bind_ok h
  obtain ⟨v3, h3, h⟩ := bind_ok h
  obtain ⟨v4, h4, h⟩ := bind_ok h
  injection h with h
  subst h
  obtain ⟨a1, a2, a3, rfl⟩ := bandwidth_frame h1
  unfold closeSegment at h2
  rw [if_pos h0.opened] at h2
  injection h2 with h2
  subst h2
  obtain ⟨pro, rfl, hp⟩ := openSegment_ok h3 h0.opened
  obtain ⟨r, k, g1, rfl⟩ := writeUnit_ok h4
  dsimp only at g1 hp ⊢
  rcases hp with hp | ⟨-, hp⟩
  · rw [h0.prologue] at hp
    cases hp
  refine ⟨r, pro, ?_⟩
  constructor
  · rfl
  · simp
  · rfl
  · exact h0.seg
  · intro j x hx; simp at hx
  · simp
  · intro j hj
    dsimp only at hj ⊢
    rw [h0.seg] at hj ⊢
    rw [if_neg (by omega), if_neg (by omega), h0.disk]
  · exact ⟨rfl, hp⟩
  · rfl
  · rfl
  · exact segOk_one _ _ _ _ _ _
  · exact g1
  · dsimp only
    rw [h0.segs]
    exact RingOk.start _
  · exact ⟨rfl, rfl⟩
  · intro j x y z u r hx; simp at hx
  · exact ⟨rfl, rfl⟩
  · left; exact ⟨rfl, h0.playlists⟩

theorem snoc_split {α : Type} {s a r : List α} {u w : α} (h : s ++ [u] = a ++ w :: r) : (r = [] ∧ a = s ∧ w = u) ∨ ∃ r', r = r' ++ [u] ∧ s = a ++ w :: r' := by
  rcases List.eq_nil_or_concat r with rfl | ⟨r', x, rfl⟩
  · left
    have := List.append_inj' h (by simp)
    simp at this
    exact ⟨rfl, this.1.symm, this.2.symm⟩
  · right
    rw [List.concat_eq_append] at h ⊢
    have h' : s ++ [u] = (a ++ w :: r') ++ [x] := by rw [h]; simp
    have := List.append_inj' h' rfl
    simp at this
    refine ⟨r', by rw [this.2], this.1⟩

theorem inv_step {n c v0 P0 us v S s B b k pro hist u x} (I : Inv n c v0 P0 us v S s B b k pro hist) (h : unit n c v u.1 u.2.1 u.2.2 = .ok x) :
    ∃ S' s' B' b' k' hist', Inv n c v0 P0 (us ++ [u]) x.1 S' s' B' b' k' pro hist' := by
  unfold unit at h
  obtain ⟨v1, h1, h⟩ := bind_ok h
  obtain ⟨w2, h2, h⟩ := bind_ok h
  obtain ⟨v3, h3, h⟩ := bind_ok h
  obtain ⟨v4, h4, h⟩ := bind_ok h
  injection h with h
  subst h
  obtain ⟨a1, a2, a3, rfl⟩ := bandwidth_frame h1
  have hlen := I.chain.length
  have hseg := I.seg
  unfold closeSegment at h2
  rw [if_neg (by simp [I.opened])] at h2
  dsimp only at h2
  have hoff : ({ v with bandwidth := a1, bwBytes := a2, bwDts := a3 } : Var).offset = (pro ++ b).flatten.length := by
    unfold Var.offset
    dsimp only
    rw [I.disk]
  have hgo := goesOn_iff c ({ v with bandwidth := a1, bwBytes := a2, bwDts := a3 } : Var) u v.segDts
  rw [hoff, I.dts] at hgo
  rw [I.dts] at h2
  split at h2
  · -- the segment goes on
    rename_i hg
    rw [hgo] at hg
    injection h2 with h2
    subst h2
    unfold openSegment at h3
    rw [if_pos I.opened] at h3
    injection h3 with h3
    subst h3
    obtain ⟨r, k', g1, rfl⟩ := writeUnit_ok h4
    dsimp only at g1 ⊢
    have hw : writeEach n k (s ++ [u]) = some (b ++ r, k') := by
      rw [writeEach_append, I.last]
      simp [g1]
    have hmap : (S ++ [s ++ [u]]).map firstDts = (S ++ [s]).map firstDts := by
      simp [firstDts_snoc s u I.ne.1]
    refine ⟨S, s ++ [u], B, b ++ r, k, hist, ?_⟩
    constructor
    · rw [← I.flat, List.append_assoc]
    · exact ⟨by simp, I.ne.2⟩
    · exact I.opened
    · exact I.seg
    · intro j x hx
      have : j ≠ v.seg := by
        have := (List.getElem?_eq_some_iff.1 hx).1
        omega
      dsimp only
      rw [if_neg this]
      exact I.before j x hx
    · dsimp only
      rw [if_pos rfl, I.disk, List.append_assoc]
    · intro j hj
      dsimp only at hj ⊢
      rw [if_neg (by omega)]
      exact I.after j hj
    · exact I.tables
    · dsimp only
      rw [firstDts_snoc s u I.ne.1]
    · exact I.chain
    · intro a w r' e ha
      rw [firstDts_snoc s u I.ne.1]
      rcases snoc_split e with ⟨rfl, rfl, rfl⟩ | ⟨r'', rfl, e'⟩
      · exact ⟨hg.1, b, r, v.cont, I.last, rfl, hg.2⟩
      · obtain ⟨q1, x, y, kx, q2, q3, q4⟩ := I.segOk a w r'' e' ha
        exact ⟨q1, x, y ++ r, kx, q2, by rw [q3, List.append_assoc], q4⟩
    · exact hw
    · exact I.ring
    · rw [hmap]
      exact I.hist
    · intro j x y z w r' e1 e2 e3 e4
      have hj := (List.getElem?_eq_some_iff.1 e1).1
      by_cases hlast : j + 1 = S.length
      · rw [hlast, List.getElem?_append_right (Nat.le_refl _)] at e2
        simp at e2
        obtain ⟨w', s', rfl⟩ := List.exists_cons_of_ne_nil I.ne.1
        simp at e2
        obtain ⟨rfl, -⟩ := e2
        exact I.cut j x y z _ s' e1 (by rw [hlast, List.getElem?_append_right (Nat.le_refl _)]; simp) e3 e4
      · rw [List.getElem?_append_left (by omega)] at e2
        exact I.cut j x y z w r' e1 (by rw [List.getElem?_append_left (by omega)]; exact e2) e3 e4
    · exact I.names
    · rcases I.lists with l | l
      · exact .inl l
      · right
        refine ⟨l.1, ?_⟩
        dsimp only
        rw [l.2]
        congr 1
  · -- it is closed
    rename_i hg
    rw [hgo] at hg
    have hseglen := I.ring.1
    split at h2
    · cases h2
    rename_i hN
    rw [hseglen] at hN
    injection h2 with h2
    subst h2
    dsimp only [addSeg] at h3
    obtain ⟨pro', rfl, hp⟩ := openSegment_ok h3 rfl
    dsimp only at hp h4
    have hpro : pro' = pro := by
      rw [I.tables.1] at hp
      rcases hp with hp | ⟨hp, -⟩
      · injection hp with hp; exact hp.symm
      · cases hp
    subst hpro
    obtain ⟨r, k', g1, rfl⟩ := writeUnit_ok h4
    dsimp only at g1 ⊢
    have hT : (S ++ [s] ++ [[u]]).map firstDts = S.map firstDts ++ [firstDts s, u.2.1.dts] := by simp [firstDts]
    refine ⟨S ++ [s], [u], B ++ [b], r, v.cont, hist ++ [{ id := v.seg, duration := (((u.2.1.dts : Int) - firstDts s) % (2 ^ 64 : Nat)).toNat, size := (pro' ++ b).flatten.length }], ?_⟩
    have hhl : hist.length = S.length := by
      have := congrArg List.length I.hist.1
      rw [extents_length] at this
      simpa using this
    constructor
    · rw [← I.flat]; simp
    · refine ⟨by simp, ?_⟩
      intro t ht
      rw [List.mem_append, List.mem_singleton] at ht
      rcases ht with ht | rfl
      · exact I.ne.2 t ht
      · exact I.ne.1
    · rfl
    · dsimp only; rw [hseg]; simp
    · intro j x hx
      have hj := (List.getElem?_eq_some_iff.1 hx).1
      rw [List.length_append, List.length_singleton] at hj
      dsimp only
      rw [if_neg (by omega), if_neg (by omega)]
      by_cases hlast : j = B.length
      · rw [hlast, List.getElem?_append_right (Nat.le_refl _)] at hx
        simp at hx
        subst hx
        rw [hlast, hlen, ← hseg]
        exact I.disk
      · rw [List.getElem?_append_left (by omega)] at hx
        exact I.before j x hx
    · dsimp only
      rw [if_pos rfl, if_pos rfl]
    · intro j hj
      dsimp only at hj ⊢
      rw [if_neg (by omega), if_neg (by omega)]
      exact I.after j (by omega)
    · exact ⟨rfl, I.tables.2⟩
    · rfl
    · exact I.chain.snoc I.segOk I.last
    · exact segOk_one _ _ _ _ _ _
    · exact g1
    · dsimp only
      have := I.ring.add hN { id := v.seg, duration := (((u.2.1.dts : Int) - firstDts s) % (2 ^ 64 : Nat)).toNat, size := (pro' ++ b).flatten.length }
      rw [hhl, ← hseg] at this
      rw [hseglen]
      unfold Var.offset
      dsimp only
      rw [I.disk]
      exact this
    · refine ⟨?_, ?_⟩
      · rw [hT, extents_snoc, List.map_append, I.hist.1]
        simp [hseg]
      · rw [List.map_append, I.hist.2]
        simp
    · intro j x y z w r' e1 e2 e3 e4
      have hj := (List.getElem?_eq_some_iff.1 e1).1
      rw [List.length_append, List.length_singleton] at hj
      by_cases hlast : j = S.length
      · subst hlast
        rw [List.getElem?_append_right (Nat.le_refl _)] at e1
        rw [← hlen, List.getElem?_append_right (Nat.le_refl _)] at e3
        rw [List.getElem?_append_right (by simp)] at e2
        simp at e1 e2 e3
        obtain ⟨rfl, rfl⟩ := e2
        subst e1 e3 e4
        exact hg
      · rw [List.getElem?_append_left (by omega)] at e1
        rw [List.getElem?_append_left (by simp; omega)] at e2
        rw [List.getElem?_append_left (by omega)] at e3
        exact I.cut j x y z w r' e1 e2 e3 e4
    · exact I.names
    · right
      refine ⟨by simp, ?_⟩
      dsimp only
      rw [List.getLast?_append]
      simp only [List.getLast?_singleton, Option.some_or]
      congr 1

theorem inv_feed {n c v0} (h0 : Fresh c v0) : ∀ us v, us ≠ [] → feed n c v0 us = .ok v → ∃ u us' S s B b k pro hist, us = u :: us' ∧ Inv n c v0 u.1 us v S s B b k pro hist := by
  apply snocInd
  · intro v h; exact absurd rfl h
  · intro us u ih v _ h
    rw [feed_append] at h
    obtain ⟨v1, g1, g2⟩ := bind_ok h
    simp only [feed] at g2
    obtain ⟨x, g3, g4⟩ := bind_ok g2
    injection g4 with g4
    subst g4
    cases us with
    | nil =>
      simp only [feed] at g1
      injection g1 with g1
      subst g1
      obtain ⟨b, pro, I⟩ := inv_first h0 g3
      exact ⟨u, [], [], [u], [], b, _, pro, [], rfl, I⟩
    | cons w us =>
      obtain ⟨u', us', S, s, B, b, k, pro, hist, e, I⟩ := ih v1 (by simp) g1
      obtain ⟨S', s', B', b', k', hist', I'⟩ := inv_step I g3
      refine ⟨u', us' ++ [u], S', s', B', b', k', pro, hist', by rw [e]; rfl, I'⟩

end Verif.TsHls
