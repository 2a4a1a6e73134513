import Verif.Hls2.HeapLemmas
import Verif.Hls2.RunLemmas
/-
Lemmas for C75: a session with pointers does what one with values does.
-/
namespace Verif.Hls2.Mem
open Verif Verif.Hls2

/-- The session with the values its pointers lead to -/
def view (h : Heap) (s : HSt) : St := { opened := s.opened, playing := s.playing, nfrag := s.nfrag, nfrags := s.nfrags, fragTs := s.fragTs, ring := s.ring.map (·.bind h.get) }

/-- The addresses in a ring -/
def addrs (ring : List (Option Nat)) : List Nat := ring.filterMap id

/-- The open fragment -/
def cur (c : Conf) (s : HSt) : Option Nat := if s.opened then addr c s s.nfrags else none

/-- What holds of a session in memory; `extra` are the references others have. -/
structure Sim (c : Conf) (h : Heap) (s : HSt) (extra : Nat → Nat) : Prop where
  ok : HeapOk c.queue h
  hLen : s.ring.length = c.size
  hRef : ∀ a, h.ref a = (addrs s.ring).count a + extra a
  hNodup : (addrs s.ring).Nodup

/-- Others refer to at most `E` objects. -/
def Bound (extra : Nat → Nat) (E : Nat) : Prop := ∀ l : List Nat, l.Nodup → (∀ a ∈ l, 0 < extra a) → l.length ≤ E

/-- What a step of a session leaves alone, and how many objects there are -/
structure Eff (c : Conf) (extra : Nat → Nat) (h : Heap) (s : HSt) (h' : Heap) (s' : HSt) : Prop where
  sim : Sim c h' s' extra
  keep : ∀ a, 0 < extra a → cur c s ≠ some a → h'.get a = h.get a ∧ cur c s' ≠ some a
  ring : ∀ a ∈ addrs s'.ring, a ∈ addrs s.ring ∨ extra a = 0
  grow : ∀ E, Bound extra E → h'.cells.length ≤ max h.cells.length (c.size + E)

theorem Eff.refl {c : Conf} {extra : Nat → Nat} {h : Heap} {s : HSt} (x : Sim c h s extra) : Eff c extra h s h s := ⟨x, fun _ _ h2 => ⟨rfl, h2⟩, fun _ h => Or.inl h, fun _ _ => by omega⟩

theorem Eff.trans {c : Conf} {extra : Nat → Nat} {h h' h'' : Heap} {s s' s'' : HSt} (x : Eff c extra h s h' s') (y : Eff c extra h' s' h'' s'') : Eff c extra h s h'' s'' := by
  refine ⟨y.sim, ?_, ?_, fun E hE => by have := x.grow E hE; have := y.grow E hE; omega⟩
  · intro a h1 h2
    obtain ⟨k1, k2⟩ := x.keep a h1 h2
    obtain ⟨k3, k4⟩ := y.keep a h1 k2
    exact ⟨by rw [k3, k1], k4⟩
  · intro a ha
    rcases y.ring a ha with h1 | h1
    · exact x.ring a h1
    · exact Or.inr h1

/-! ### Rings -/

theorem mem_addrs {ring : List (Option Nat)} {i a : Nat} (h : ring[i]? = some (some a)) : a ∈ addrs ring := by
  unfold addrs
  exact List.mem_filterMap.2 ⟨some a, List.mem_of_getElem? h, rfl⟩

theorem addrs_split (r1 r2 : List (Option Nat)) (o : Option Nat) : addrs (r1 ++ o :: r2) = addrs r1 ++ o.toList ++ addrs r2 := by
  unfold addrs
  cases o <;> simp

theorem split_at {α : Type} : ∀ (l : List α) (i : Nat) (x : α), l[i]? = some x → ∃ l1 l2, l = l1 ++ x :: l2 ∧ l1.length = i := by
  intro l
  induction l with
  | nil => intro i x h; simp at h
  | cons y l ih =>
    intro i x h
    cases i with
    | zero => simp at h; exact ⟨[], l, by rw [h]; rfl, rfl⟩
    | succ i =>
      simp at h
      obtain ⟨l1, l2, e, hl⟩ := ih i x h
      exact ⟨y :: l1, l2, by rw [e]; rfl, by simp [hl]⟩

theorem set_split {α : Type} (l1 l2 : List α) (x y : α) : (l1 ++ x :: l2).set l1.length y = l1 ++ y :: l2 := by simp

/-- In a ring without duplicates an address is in one slot. -/
theorem slot_inj {ring : List (Option Nat)} (hn : (addrs ring).Nodup) {i j a : Nat} (hi : ring[i]? = some (some a)) (hj : ring[j]? = some (some a)) : i = j := by
  obtain ⟨l1, l2, e, hl⟩ := split_at ring i _ hi
  rw [e, addrs_split] at hn
  have hn' := List.nodup_append.1 hn
  have hn1 := List.nodup_append.1 hn'.1
  refine Decidable.by_contra fun hij => ?_
  rw [e] at hj
  by_cases hlt : j < l1.length
  · rw [List.getElem?_append_left hlt] at hj
    exact hn1.2.2 a (mem_addrs hj) a (by simp) rfl
  · rw [List.getElem?_append_right (by omega)] at hj
    obtain ⟨m, hm⟩ : ∃ m, j - l1.length = m + 1 := ⟨j - l1.length - 1, by omega⟩
    rw [hm, List.getElem?_cons_succ] at hj
    exact hn'.2.2 a (by simp) a (mem_addrs hj) rfl

theorem addr_slot {c : Conf} {s : HSt} {n a : Nat} (h : addr c s n = some a) : s.ring[(s.nfrag + n) % c.size]? = some (some a) := by
  unfold addr at h
  cases e : s.ring[(s.nfrag + n) % c.size]? with
  | none => rw [e] at h; simp at h
  | some o => rw [e] at h; simp at h; rw [h]

theorem getFrag_view (c : Conf) (h : Heap) (s : HSt) (n : Nat) : getFrag c (view h s) n = (addr c s n).bind h.get := by
  unfold getFrag view addr
  dsimp only
  rw [List.getElem?_map]
  cases s.ring[(s.nfrag + n) % c.size]? with
  | none => rfl
  | some o => rfl

theorem Sim.ref_pos {c : Conf} {h : Heap} {s : HSt} {extra : Nat → Nat} (x : Sim c h s extra) {a : Nat} (ha : a ∈ addrs s.ring) : 0 < h.ref a := by
  have := x.hRef a
  have h2 := List.count_pos_iff.2 ha
  omega

/-- A slot is written through its pointer. -/
theorem view_set {c : Conf} {h h' : Heap} {s : HSt} {extra : Nat → Nat} (x : Sim c h s extra) {n a : Nat} (ha : addr c s n = some a) (f : Frag) (hg : ∀ b, h'.get b = if b = a then some f else h.get b) :
    view h' s = setFrag c (view h s) n f := by
  have hslot := addr_slot ha
  have hlt : (s.nfrag + n) % c.size < s.ring.length := (List.getElem?_eq_some_iff.1 hslot).1
  unfold view setFrag
  dsimp only
  congr 1
  apply List.ext_getElem?
  intro j
  by_cases hj : j = (s.nfrag + n) % c.size
  · rw [hj, List.getElem?_set_self (by simpa using hlt), List.getElem?_map, hslot]
    simp [hg]
  · rw [List.getElem?_set_ne (by omega), List.getElem?_map, List.getElem?_map]
    cases e : s.ring[j]? with
    | none => rfl
    | some o =>
      cases o with
      | none => rfl
      | some b =>
        have hb : b ≠ a := by
          intro hb
          subst hb
          exact hj (slot_inj x.hNodup e hslot)
        simp [hg, hb]

theorem modify_sim {c : Conf} {h : Heap} {s : HSt} {extra : Nat → Nat} (x : Sim c h s extra) (ho : s.opened = true) {a : Nat} (ha : addr c s s.nfrags = some a) {g : Frag} (hg : h.get a = some g) (f : Frag → Frag) :
    ∃ h', h.modify a f = some h' ∧ view h' s = setFrag c (view h s) s.nfrags (f g) ∧ Eff c extra h s h' s ∧ h'.get a = some (f g) := by
  obtain ⟨h', e, k1, k2, k3⟩ := modify_ok x.ok hg f
  refine ⟨h', e, view_set x ha _ k3, ⟨⟨k1, x.hLen, fun b => by rw [k2]; exact x.hRef b, x.hNodup⟩, ?_, fun _ h => Or.inl h, fun _ _ => by rw [modify_len e]; omega⟩, by rw [k3, if_pos rfl]⟩
  intro b _ hb
  refine ⟨?_, hb⟩
  have hba : b ≠ a := by
    intro e
    subst e
    unfold cur at hb
    rw [if_pos ho] at hb
    exact hb ha
  rw [k3, if_neg hba]

theorem hwrite_sim {c : Conf} {h : Heap} {s : HSt} {extra : Nat → Nat} (x : Sim c h s extra) (ho : s.opened = true) (f : Frame) {v : St} (hv : writeFrame c (view h s) f = some v) :
    ∃ h', hwrite c h s f = some h' ∧ view h' s = v ∧ Eff c extra h s h' s := by
  unfold writeFrame at hv
  have hnf : (view h s).nfrags = s.nfrags := rfl
  rw [getFrag_view, hnf] at hv
  cases ha : addr c s s.nfrags with
  | none => rw [ha] at hv; simp at hv
  | some a =>
    rw [ha, Option.bind_some] at hv
    cases hg : h.get a with
    | none => rw [hg] at hv; simp at hv
    | some g =>
      rw [hg] at hv
      dsimp only at hv
      by_cases hq : c.queue = 0
      · rw [if_pos hq] at hv; simp at hv
      · rw [if_neg hq] at hv
        injection hv with hv
        obtain ⟨h', e1, e2, e3, _⟩ := modify_sim x ho ha hg (Frag.put c.queue · f)
        refine ⟨h', ?_, by rw [e2, hv], e3⟩
        unfold hwrite
        rw [ha, Option.bind_some, if_neg hq]
        exact e1

theorem hclose_view (c : Conf) (h : Heap) (s : HSt) : view h (hclose c s) = closeFragment c (view h s) := by
  obtain ⟨o, p, n, m, t, r⟩ := s
  unfold hclose closeFragment hnext nextFrag view
  dsimp only
  cases o with
  | false => rfl
  | true =>
    simp only [Bool.not_true, Bool.false_eq_true, if_false]
    split <;> (dsimp only; split <;> rfl)

theorem hclose_ring (c : Conf) (s : HSt) : (hclose c s).ring = s.ring ∧ (s.opened = true → (hclose c s).opened = false) ∧ (s.opened = false → hclose c s = s) := by
  obtain ⟨o, p, n, m, t, r⟩ := s
  unfold hclose hnext
  cases o with
  | false => exact ⟨rfl, by simp, fun _ => rfl⟩
  | true =>
    simp only [Bool.not_true, Bool.false_eq_true, if_false]
    split <;> (dsimp only; split <;> simp)

theorem hclose_opened (c : Conf) (s : HSt) : (hclose c s).opened = false := by
  obtain ⟨_, h1, h2⟩ := hclose_ring c s
  cases h : s.opened with
  | true => exact h1 h
  | false => rw [h2 h]; exact h

theorem hclose_sim {c : Conf} {h : Heap} {s : HSt} {extra : Nat → Nat} (x : Sim c h s extra) : Eff c extra h s h (hclose c s) := by
  have hr := (hclose_ring c s).1
  have hc : cur c (hclose c s) = none := by unfold cur; rw [hclose_opened]; rfl
  exact ⟨⟨x.ok, by rw [hr]; exact x.hLen, by rw [hr]; exact x.hRef, by rw [hr]; exact x.hNodup⟩, fun a _ _ => ⟨rfl, by rw [hc]; simp⟩, fun a ha => Or.inl (by rw [hr] at ha; exact ha), fun _ _ => by omega⟩

/-- A slot gets a new fragment; the old one is given up. -/
theorem renew {c : Conf} {h : Heap} {s : HSt} {extra : Nat → Nat} (x : Sim c h s extra) (i : Nat) (hi : i < c.size) (f : Frag) :
    ∃ h1 h2 a, h.giveUp (s.ring[i]?).join = some h1 ∧ h1.create c.queue f = some (h2, a) ∧
      (s.ring.set i (some a)).map (·.bind h2.get) = (s.ring.map (·.bind h.get)).set i (some f) ∧ (addrs (s.ring.set i (some a))).Nodup ∧
      (∀ b, h2.ref b = (addrs (s.ring.set i (some a))).count b + extra b) ∧ HeapOk c.queue h2 ∧ extra a = 0 ∧ (∀ b, 0 < extra b → h2.get b = h.get b) ∧
      (∀ b ∈ addrs (s.ring.set i (some a)), b ∈ addrs s.ring ∨ b = a) := by
  have hlt : i < s.ring.length := by rw [x.hLen]; exact hi
  obtain ⟨o, ho⟩ : ∃ o, s.ring[i]? = some o := ⟨_, List.getElem?_eq_getElem hlt⟩
  obtain ⟨r1, r2, er, hl⟩ := split_at s.ring i o ho
  have hset : ∀ y, s.ring.set i y = r1 ++ y :: r2 := fun y => by rw [er, ← hl]; exact set_split r1 r2 o y
  have hnd := x.hNodup
  rw [er, addrs_split] at hnd
  have hnd' := List.nodup_append.1 hnd
  have hnd1 := List.nodup_append.1 hnd'.1
  -- the old one
  obtain ⟨h1, e1, ok1, ref1, get1⟩ : ∃ h1, h.giveUp (s.ring[i]?).join = some h1 ∧ HeapOk c.queue h1 ∧
      (∀ b, h1.ref b = (addrs r1 ++ addrs r2).count b + extra b) ∧ (∀ b, 0 < h1.ref b → h1.get b = h.get b) := by
    rw [ho]
    cases o with
    | none =>
      refine ⟨h, rfl, x.ok, ?_, fun _ _ => rfl⟩
      intro b
      rw [x.hRef b, er, addrs_split]
      simp
    | some d =>
      obtain ⟨h1, e, k1, k2, k3⟩ := release_ok x.ok (x.ref_pos (mem_addrs ho))
      refine ⟨h1, e, k1, ?_, k3⟩
      intro b
      rw [k2 b, x.hRef b, er, addrs_split]
      simp only [List.count_append, Option.toList_some, List.count_singleton]
      by_cases hb : b = d
      · subst hb; simp; omega
      · have : (d == b) = false := by simp; exact fun e => hb e.symm
        rw [if_neg hb, this]
        simp
  obtain ⟨h2, a, e2, ok2, z, ref2, get2⟩ := create_ok ok1 f
  have hz := ref1 a
  rw [z] at hz
  have hza : extra a = 0 := by omega
  have hzc : (addrs r1 ++ addrs r2).count a = 0 := by omega
  have hna : a ∉ addrs r1 ++ addrs r2 := List.count_eq_zero.1 hzc
  have hn1 : a ∉ addrs r1 := fun h => hna (List.mem_append_left _ h)
  have hn2 : a ∉ addrs r2 := fun h => hna (List.mem_append_right _ h)
  have hold : ∀ b, b ∈ addrs r1 ++ addrs r2 → h2.get b = h.get b := by
    intro b hb
    have hba : b ≠ a := fun e => hna (e ▸ hb)
    have hp := List.count_pos_iff.2 hb
    rw [get2 b, if_neg hba]
    exact get1 b (by rw [ref1 b]; omega)
  have hmap : ∀ (r : List (Option Nat)), (∀ b ∈ addrs r, h2.get b = h.get b) → r.map (·.bind h2.get) = r.map (·.bind h.get) := by
    intro r hr
    apply List.map_congr_left
    intro o ho
    cases o with
    | none => rfl
    | some b => exact hr b (List.mem_filterMap.2 ⟨some b, ho, rfl⟩)
  refine ⟨h1, h2, a, e1, e2, ?_, ?_, ?_, ok2, hza, ?_, ?_⟩
  · rw [hset, er, ← hl]
    simp only [List.map_append, List.map_cons]
    rw [hmap r1 (fun b hb => hold b (List.mem_append_left _ hb)), hmap r2 (fun b hb => hold b (List.mem_append_right _ hb)), ← List.length_map (f := fun x : Option Nat => x.bind h.get) (as := r1), set_split]
    simp [get2]
  · rw [hset, addrs_split]
    simp only [Option.toList_some]
    refine List.nodup_append.2 ⟨List.nodup_append.2 ⟨hnd1.1, by simp, ?_⟩, hnd'.2.1, ?_⟩
    · intro b hb d hd
      simp at hd
      rw [hd]
      exact fun e => hn1 (e ▸ hb)
    · intro b hb d hd
      rcases List.mem_append.1 hb with hb | hb
      · exact hnd'.2.2 b (by simp [hb]) d hd
      · simp at hb
        rw [hb]
        exact fun e => hn2 (e ▸ hd)
  · intro b
    rw [hset, addrs_split, ref2 b]
    simp only [List.count_append, Option.toList_some, List.count_singleton]
    by_cases hb : b = a
    · subst hb
      rw [if_pos rfl, hza]
      simp only [List.count_append] at hzc
      simp
      omega
    · have : (a == b) = false := by simp; exact fun e => hb e.symm
      rw [if_neg hb, ref1 b, this]
      simp only [List.count_append]
      simp
  · intro b hb
    have hba : b ≠ a := fun e => by rw [e, hza] at hb; omega
    rw [get2 b, if_neg hba]
    exact get1 b (by rw [ref1 b]; omega)
  · intro b hb
    rw [hset, addrs_split] at hb
    rw [er, addrs_split]
    simp only [List.mem_append, Option.toList_some, List.mem_singleton] at hb ⊢
    rcases hb with (hb | hb) | hb
    · exact Or.inl (Or.inl (Or.inl hb))
    · exact Or.inr hb
    · exact Or.inl (Or.inr hb)

theorem filter_split {α : Type} (p : α → Bool) (l : List α) : l.length = (l.filter p).length + (l.filter fun x => !p x).length := by
  induction l with
  | nil => rfl
  | cons x l ih => cases h : p x <;> simp [h] <;> omega

/-- If no object is free then each is in a slot, or others refer to it. -/
theorem full {c : Conf} {h : Heap} {s : HSt} {extra : Nat → Nat} (x : Sim c h s extra) (hf : h.free = []) (E : Nat) (hE : Bound extra E) : h.cells.length ≤ c.size + E := by
  have hr : (List.range h.cells.length).length = h.cells.length := List.length_range
  rw [filter_split (fun a => decide (0 < extra a))] at hr
  have h1 := hE ((List.range h.cells.length).filter fun a => decide (0 < extra a)) (List.nodup_range.filter _) (fun a ha => by simpa using (List.mem_filter.1 ha).2)
  have h2 : ((List.range h.cells.length).filter fun a => !decide (0 < extra a)).length ≤ (addrs s.ring).length := by
    refine List.Nodup.length_le_of_subset (List.nodup_range.filter _) ?_
    intro a ha
    obtain ⟨ha1, ha2⟩ := List.mem_filter.1 ha
    have ha1 := List.mem_range.1 ha1
    simp at ha2
    have hi := x.ok.hIff a
    rw [hf] at hi
    have hpos : h.ref a ≠ 0 := fun e => by have := hi.2 ⟨ha1, e⟩; simp at this
    have := x.hRef a
    exact List.count_pos_iff.1 (by omega)
  have h3 : (addrs s.ring).length ≤ s.ring.length := List.length_filterMap_le _ _
  have h4 := x.hLen
  omega

theorem hopen_sim {c : Conf} {h : Heap} {s : HSt} {extra : Nat → Nat} (x : Sim c h s extra) (ho : s.opened = false) (k : Codec) (ts : Nat) (d : Bool) {v : St} (hv : openFragment c k ts d (view h s) = some v) :
    ∃ h' s', hopen c k ts d h s = some (h', s') ∧ view h' s' = v ∧ Eff c extra h s h' s' := by
  obtain ⟨h1, h2, a, e1, e2, e3, e4, e5, e6, e7, e8, e9⟩ := renew x ((s.nfrag + s.nfrags) % c.size) (Nat.mod_lt _ (size_pos c)) { id := s.nfrag + s.nfrags, discont := d }
  have hlt : (s.nfrag + s.nfrags) % c.size < s.ring.length := by rw [x.hLen]; exact Nat.mod_lt _ (size_pos c)
  -- after the slot is renewed
  obtain ⟨s2, hs2⟩ : ∃ s2 : HSt, s2 = { s with ring := s.ring.set ((s.nfrag + s.nfrags) % c.size) (some a), opened := true, fragTs := ts } := ⟨_, rfl⟩
  have ho2 : s2.opened = true := by rw [hs2]
  have hr2 : s2.ring = s.ring.set ((s.nfrag + s.nfrags) % c.size) (some a) := by rw [hs2]
  have ha2 : addr c s2 s2.nfrags = some a := by
    rw [hs2]
    unfold addr
    dsimp only
    rw [List.getElem?_set_self hlt]
    rfl
  have hv2 : view h2 s2 = { view h s with ring := (view h s).ring.set ((s.nfrag + s.nfrags) % c.size) (some { id := s.nfrag + s.nfrags, discont := d }), opened := true, fragTs := ts } := by
    rw [hs2]
    unfold view
    dsimp only
    rw [e3]
  have sim2 : Sim c h2 s2 extra := ⟨e6, by rw [hr2, List.length_set]; exact x.hLen, by rw [hr2]; exact e5, by rw [hr2]; exact e4⟩
  have eff2 : Eff c extra h s h2 s2 := by
    refine ⟨sim2, ?_, ?_, fun E hE => ?_⟩
    · intro b hb _
      refine ⟨e8 b hb, ?_⟩
      unfold cur
      rw [if_pos ho2, ha2]
      intro e
      injection e with e
      rw [← e, e7] at hb
      omega
    · intro b hb
      rw [hr2] at hb
      rcases e9 b hb with hb | hb
      · exact Or.inl hb
      · exact Or.inr (by rw [hb]; exact e7)
    · rcases create_len e2 with hl | hl
      · rw [hl, giveUp_len e1]
        omega
      · have := full sim2 hl E hE
        omega
  -- the tables
  unfold openFragment at hv
  have hov : (view h s).opened = false := ho
  rw [hov] at hv
  simp only [Bool.false_eq_true, if_false] at hv
  have hnn : (view h s).nfrag + (view h s).nfrags = s.nfrag + s.nfrags := rfl
  rw [hnn, ← hv2] at hv
  cases hw : writeFrame c (view h2 s2) k.frame with
  | none => rw [hw] at hv; simp at hv
  | some v3 =>
    rw [hw] at hv
    dsimp only at hv
    obtain ⟨h3, w1, w2, w3⟩ := hwrite_sim sim2 ho2 k.frame hw
    rw [← w2, getFrag_view, show (view h3 s2).nfrags = s2.nfrags from rfl, ha2, Option.bind_some] at hv
    cases hg : h3.get a with
    | none => rw [hg] at hv; simp at hv
    | some g =>
      rw [hg] at hv
      dsimp only at hv
      injection hv with hv
      obtain ⟨h4, m1, m2, m3, _⟩ := modify_sim w3.sim ho2 ha2 hg (fun g => { g with length := 376 })
      refine ⟨h4, s2, ?_, by rw [m2, hv], (eff2.trans w3).trans m3⟩
      unfold hopen
      rw [ho]
      simp only [Bool.false_eq_true, if_false]
      have e1' := e1
      rw [e1', Option.bind_some, e2, Option.bind_some]
      dsimp only
      rw [← hs2, w1, Option.bind_some, show s.nfrags = s2.nfrags by rw [hs2], ha2, Option.bind_some, m1]
      rfl

theorem updateFragment_shut {c : Conf} {k : Codec} {ts : Nat} {b : Bool} {s : St} (hpl : c.aligned = false) (ho : s.opened = false) :
    updateFragment c k ts b s = if b then openFragment c k ts true (closeFragment c s) else some s := by
  unfold updateFragment
  rw [ho, hpl]
  simp [ho]

theorem hupdateFragment_sim {c : Conf} (hpl : c.aligned = false) {h : Heap} {s : HSt} {extra : Nat → Nat} (x : Sim c h s extra) (k : Codec) (ts : Nat) (b : Bool) {v : St}
    (hv : updateFragment c k ts b (view h s) = some v) : ∃ h' s', hupdateFragment c k ts b h s = some (h', s') ∧ view h' s' = v ∧ Eff c extra h s h' s' := by
  cases ho : s.opened with
  | false =>
    have hov : (view h s).opened = false := ho
    rw [updateFragment_shut hpl hov] at hv
    unfold hupdateFragment hcut
    rw [ho, hpl]
    simp only [Bool.false_eq_true, if_false, false_and, Bool.false_and, Bool.not_false, Bool.and_true, Bool.or_false]
    cases b with
    | false =>
      simp only [Bool.false_eq_true, if_false] at hv ⊢
      injection hv with hv
      exact ⟨h, s, rfl, hv, Eff.refl x⟩
    | true =>
      simp only [if_true] at hv ⊢
      rw [← hclose_view] at hv
      have c1 := hclose_sim x
      obtain ⟨h', s', e1, e2, e3⟩ := hopen_sim c1.sim (hclose_opened c s) k ts true hv
      rw [ho]
      exact ⟨h', s', e1, e2, c1.trans e3⟩
  | true =>
    have hov : (view h s).opened = true := ho
    have hnn : (view h s).nfrags = s.nfrags := rfl
    -- the open fragment
    obtain ⟨a, g, ha, hg⟩ : ∃ a g, addr c s s.nfrags = some a ∧ h.get a = some g := by
      cases ha : addr c s s.nfrags with
      | none =>
        exfalso
        unfold updateFragment at hv
        rw [hov, getFrag_view, hnn, ha] at hv
        simp at hv
      | some a =>
        cases hg : h.get a with
        | none =>
          exfalso
          unfold updateFragment at hv
          rw [hov, getFrag_view, hnn, ha, Option.bind_some, hg] at hv
          simp at hv
        | some g => exact ⟨a, g, rfl, hg⟩
    have hgf : getFrag c (view h s) (view h s).nfrags = some g := by rw [getFrag_view, hnn, ha]; exact hg
    obtain ⟨force, hforce⟩ : ∃ force, (decide (((c.maxFraglen * 90 : Nat) : Int) < sdiff ts s.fragTs) || decide (sdiff ts s.fragTs < -90000)) = force := ⟨_, rfl⟩
    obtain ⟨d, hd⟩ : ∃ d, diff ts s.fragTs = d := ⟨_, rfl⟩
    rw [updateFragment_eq hpl hov hgf hforce hd, hnn] at hv
    unfold hupdateFragment
    rw [ho]
    simp only [if_true]
    rw [hforce, ha, Option.bind_some]
    unfold hlength
    rw [hd]
    cases force with
    | true =>
      simp only [if_true] at hv ⊢
      rw [hg, Option.map_some, Option.bind_some]
      unfold hcut
      rw [ho, hpl]
      simp only [Bool.false_eq_true, if_false, false_and, Bool.false_and, Bool.or_true, if_true]
      have hsame : setFrag c (view h s) s.nfrags g = view h s := by
        symm
        refine view_set x ha g ?_
        intro b
        by_cases hb : b = a
        · rw [if_pos hb, hb]; exact hg
        · rw [if_neg hb]
      rw [hsame, ← hclose_view] at hv
      have c1 := hclose_sim x
      obtain ⟨h', s', e1, e2, e3⟩ := hopen_sim c1.sim (hclose_opened c s) k ts false hv
      rw [ho]
      exact ⟨h', s', e1, e2, c1.trans e3⟩
    | false =>
      simp only [Bool.false_eq_true, if_false] at hv ⊢
      obtain ⟨h1, m1, m2, m3, _⟩ := modify_sim x ho ha hg (fun g => { g with ticks := d })
      rw [m1, Option.map_some, Option.bind_some]
      unfold hcut
      rw [ho, hpl]
      simp only [Bool.false_eq_true, if_false, false_and, Bool.false_and, Bool.or_false, Bool.not_false, Bool.and_true]
      rw [← m2] at hv
      cases hb : (b && !decide (d < c.fraglen * 90)) with
      | false =>
        rw [hb] at hv
        simp only [Bool.false_eq_true, if_false] at hv ⊢
        injection hv with hv
        exact ⟨h1, s, rfl, hv, m3⟩
      | true =>
        rw [hb] at hv
        simp only [if_true] at hv ⊢
        rw [← hclose_view] at hv
        have c1 := hclose_sim m3.sim
        obtain ⟨h', s', e1, e2, e3⟩ := hopen_sim c1.sim (hclose_opened c s) k ts false hv
        rw [ho]
        exact ⟨h', s', e1, e2, (m3.trans c1).trans e3⟩

theorem hupdate_sim {c : Conf} (hpl : c.aligned = false) {extra : Nat → Nat} (k : Codec) : ∀ (fs : List Frame) (h : Heap) (s : HSt), Sim c h s extra → ∀ v q, update c k fs (view h s) = some (v, q) →
    ∃ h' s', hupdate c k fs h s = some (h', s', q) ∧ view h' s' = v ∧ Eff c extra h s h' s' := by
  intro fs
  induction fs with
  | nil =>
    intro h s x v q hv
    rw [update] at hv
    injection hv with hv
    injection hv with hv1 hv2
    exact ⟨h, s, by rw [hupdate, ← hv2], hv1, Eff.refl x⟩
  | cons f fs ih =>
    intro h s x v q hv
    rw [update] at hv
    have hob : (view h s).opened = s.opened := rfl
    rw [hob] at hv
    cases hu : updateFragment c k f.pts (boundary k s.opened f) (view h s) with
    | none => rw [hu] at hv; simp at hv
    | some v1 =>
      rw [hu] at hv
      dsimp only at hv
      obtain ⟨h1, s1, e1, e2, e3⟩ := hupdateFragment_sim hpl x k f.pts _ hu
      have ho1 : v1.opened = s1.opened := by rw [← e2]; rfl
      rw [hupdate, e1]
      dsimp only
      cases ho : s1.opened with
      | false =>
        rw [ho1, ho] at hv
        simp only [Bool.not_false, if_true] at hv ⊢
        injection hv with hv
        injection hv with hv1 hv2
        exact ⟨h1, s1, by rw [hv2], by rw [e2, hv1], e3⟩
      | true =>
        rw [ho1, ho] at hv
        simp only [Bool.not_true, Bool.false_eq_true, if_false] at hv ⊢
        cases hw : writeFrame c v1 f with
        | none => rw [hw] at hv; simp at hv
        | some v2 =>
          rw [hw] at hv
          dsimp only at hv
          rw [← e2] at hw
          obtain ⟨h2, w1, w2, w3⟩ := hwrite_sim e3.sim ho f hw
          rw [w1]
          dsimp only
          rw [← w2] at hv
          obtain ⟨h3, s3, u1, u2, u3⟩ := ih h2 s1 w3.sim v q hv
          exact ⟨h3, s3, u1, u2, (e3.trans w3).trans u3⟩

end Verif.Hls2.Mem
