import Verif.Hls2.HeapModel
/-
Lemmas for C75: objects and their counts.
-/
namespace Verif.Hls2.Mem
open Verif Verif.Hls2

def Heap.ref (h : Heap) (a : Nat) : Nat := match h.cells[a]? with | none => 0 | some x => x.ref

structure HeapOk (q : Nat) (h : Heap) : Prop where
  hFree : h.free.Nodup
  hIff : ∀ a, a ∈ h.free ↔ a < h.cells.length ∧ h.ref a = 0
  hCap : ∀ x ∈ h.cells, x.cap = q

theorem heapOk_init (q : Nat) : HeapOk q {} := ⟨List.nodup_nil, by simp, by simp⟩

theorem ref_cell {h : Heap} {a : Nat} (hr : 0 < h.ref a) : ∃ x, h.cells[a]? = some x ∧ x.ref = h.ref a ∧ h.get a = some x.frag ∧ a < h.cells.length := by
  unfold Heap.ref at hr ⊢
  unfold Heap.get
  cases e : h.cells[a]? with
  | none => rw [e] at hr; simp at hr
  | some x =>
    rw [e] at hr
    dsimp only at hr
    have hl := (List.getElem?_eq_some_iff.1 e).1
    exact ⟨x, rfl, rfl, by simp only [if_neg (by omega : ¬ x.ref = 0)], hl⟩

theorem get_ref {h : Heap} {a : Nat} {g : Frag} (e : h.get a = some g) : 0 < h.ref a := by
  unfold Heap.get at e
  unfold Heap.ref
  cases e1 : h.cells[a]? with
  | none => rw [e1] at e; simp at e
  | some x =>
    rw [e1] at e
    dsimp only at e ⊢
    split at e
    · simp at e
    · omega

/-- What a cell that is set does to reading -/
theorem get_setCell (h : Heap) (a : Nat) (x : Cell) (fr : List Nat) (ha : a < h.cells.length) (b : Nat) :
    (Heap.mk (h.cells.set a x) fr).get b = (if b = a then (if x.ref = 0 then none else some x.frag) else h.get b) ∧ (Heap.mk (h.cells.set a x) fr).ref b = (if b = a then x.ref else h.ref b) := by
  unfold Heap.get Heap.ref
  by_cases hb : b = a
  · subst hb
    simp only [List.getElem?_set_self ha, if_true]
    exact ⟨trivial, trivial⟩
  · have : (h.cells.set a x)[b]? = h.cells[b]? := List.getElem?_set_ne (by omega)
    simp only [this, if_neg hb]
    exact ⟨trivial, trivial⟩

theorem caps_set {q : Nat} {l : List Cell} (h : ∀ x ∈ l, x.cap = q) (a : Nat) (x : Cell) (hx : x.cap = q) : ∀ y ∈ l.set a x, y.cap = q := by
  intro y hy
  rcases List.mem_or_eq_of_mem_set hy with hy | hy
  · exact h y hy
  · rw [hy]; exact hx

theorem set_ok {q : Nat} {h : Heap} (ok : HeapOk q h) {a : Nat} (hr : 0 < h.ref a) (f : Frag) :
    ∃ h', h.set a f = some h' ∧ HeapOk q h' ∧ (∀ b, h'.ref b = h.ref b) ∧ (∀ b, h'.get b = if b = a then some f else h.get b) := by
  obtain ⟨x, e, e2, _, hl⟩ := ref_cell hr
  have hx : x ∈ h.cells := List.mem_of_getElem? e
  have hn : ¬ x.ref = 0 := by omega
  have hg := get_setCell h a { x with frag := f } h.free hl
  have hrefs : ∀ b, (Heap.mk (h.cells.set a { x with frag := f }) h.free).ref b = h.ref b := by
    intro b
    rw [(hg b).2]
    split
    · rename_i hb; rw [hb]; exact e2
    · rfl
  refine ⟨⟨h.cells.set a { x with frag := f }, h.free⟩, ?_, ⟨ok.hFree, ?_, caps_set ok.hCap _ _ (ok.hCap x hx)⟩, hrefs, ?_⟩
  · unfold Heap.set
    rw [e]
    simp only [if_neg hn]
  · intro b
    rw [hrefs b, List.length_set]
    exact ok.hIff b
  · intro b
    rw [(hg b).1]
    split
    · simp only [if_neg hn]
    · rfl

theorem acquire_ok {q : Nat} {h : Heap} (ok : HeapOk q h) {a : Nat} (hr : 0 < h.ref a) :
    ∃ h', h.acquire a = some h' ∧ HeapOk q h' ∧ (∀ b, h'.ref b = h.ref b + if b = a then 1 else 0) ∧ (∀ b, h'.get b = h.get b) := by
  obtain ⟨x, e, e2, e3, hl⟩ := ref_cell hr
  have hx : x ∈ h.cells := List.mem_of_getElem? e
  have hn : ¬ x.ref = 0 := by omega
  have hg := get_setCell h a { x with ref := x.ref + 1 } h.free hl
  have hrefs : ∀ b, (Heap.mk (h.cells.set a { x with ref := x.ref + 1 }) h.free).ref b = h.ref b + if b = a then 1 else 0 := by
    intro b
    rw [(hg b).2]
    split
    · rename_i hb; rw [hb, ← e2]
    · rfl
  refine ⟨⟨h.cells.set a { x with ref := x.ref + 1 }, h.free⟩, ?_, ⟨ok.hFree, ?_, caps_set ok.hCap _ _ (ok.hCap x hx)⟩, hrefs, ?_⟩
  · unfold Heap.acquire
    rw [e]
    simp only [if_neg hn]
  · intro b
    rw [hrefs b, List.length_set, ok.hIff b]
    split
    · rename_i hb; rw [hb]; omega
    · rfl
  · intro b
    rw [(hg b).1]
    split
    · rename_i hb
      rw [hb, e3]
      simp
    · rfl

theorem release_ok {q : Nat} {h : Heap} (ok : HeapOk q h) {a : Nat} (hr : 0 < h.ref a) :
    ∃ h', h.release a = some h' ∧ HeapOk q h' ∧ (∀ b, h'.ref b = h.ref b - if b = a then 1 else 0) ∧ (∀ b, 0 < h'.ref b → h'.get b = h.get b) := by
  obtain ⟨x, e, e2, e3, hl⟩ := ref_cell hr
  have hx : x ∈ h.cells := List.mem_of_getElem? e
  have hn : ¬ x.ref = 0 := by omega
  have hna : a ∉ h.free := by rw [ok.hIff]; omega
  by_cases h1 : x.ref = 1
  · have hg := get_setCell h a { x with ref := 0 } (a :: h.free) hl
    have hrefs : ∀ b, (Heap.mk (h.cells.set a { x with ref := 0 }) (a :: h.free)).ref b = h.ref b - if b = a then 1 else 0 := by
      intro b
      rw [(hg b).2]
      split
      · rename_i hb; rw [hb, ← e2, h1]
      · rfl
    refine ⟨⟨h.cells.set a { x with ref := 0 }, a :: h.free⟩, ?_, ⟨?_, ?_, caps_set ok.hCap _ _ (ok.hCap x hx)⟩, hrefs, ?_⟩
    · unfold Heap.release
      rw [e]
      simp only [if_neg hn, if_pos h1]
    · exact List.nodup_cons.2 ⟨hna, ok.hFree⟩
    · intro b
      rw [hrefs b, List.length_set, List.mem_cons, ok.hIff b]
      split
      · rename_i hb; rw [hb]; omega
      · rename_i hb
        constructor
        · rintro (h | h)
          · exact absurd h hb
          · exact h
        · exact Or.inr
    · intro b hb
      rw [hrefs b] at hb
      rw [(hg b).1]
      split
      · rename_i hba; rw [hba] at hb; simp at hb; omega
      · rfl
  · have hg := get_setCell h a { x with ref := x.ref - 1 } h.free hl
    have hrefs : ∀ b, (Heap.mk (h.cells.set a { x with ref := x.ref - 1 }) h.free).ref b = h.ref b - if b = a then 1 else 0 := by
      intro b
      rw [(hg b).2]
      split
      · rename_i hb; rw [hb, ← e2]
      · rfl
    refine ⟨⟨h.cells.set a { x with ref := x.ref - 1 }, h.free⟩, ?_, ⟨ok.hFree, ?_, caps_set ok.hCap _ _ (ok.hCap x hx)⟩, hrefs, ?_⟩
    · unfold Heap.release
      rw [e]
      simp only [if_neg hn, if_neg h1]
    · intro b
      rw [hrefs b, List.length_set, ok.hIff b]
      split
      · rename_i hb; rw [hb]; omega
      · rfl
    · intro b _
      rw [(hg b).1]
      split
      · rename_i hba
        rw [hba, e3, if_neg (by show ¬ x.ref - 1 = 0; omega)]
      · rfl

theorem create_ok {q : Nat} {h : Heap} (ok : HeapOk q h) (f : Frag) :
    ∃ h' a, h.create q f = some (h', a) ∧ HeapOk q h' ∧ h.ref a = 0 ∧ (∀ b, h'.ref b = if b = a then 1 else h.ref b) ∧ (∀ b, h'.get b = if b = a then some f else h.get b) := by
  cases hf : h.free with
  | nil =>
    have hg : ∀ b, (Heap.mk (h.cells ++ [⟨1, q, f⟩]) []).get b = (if b = h.cells.length then some f else h.get b) ∧ (Heap.mk (h.cells ++ [⟨1, q, f⟩]) []).ref b = (if b = h.cells.length then 1 else h.ref b) := by
      intro b
      unfold Heap.get Heap.ref
      by_cases hb : b = h.cells.length
      · subst hb
        simp
      · by_cases hlt : b < h.cells.length
        · simp only [List.getElem?_append_left hlt, if_neg hb]
          exact ⟨trivial, trivial⟩
        · have e1 : (h.cells ++ [⟨1, q, f⟩])[b]? = none := List.getElem?_eq_none (by simp; omega)
          have e2 : h.cells[b]? = none := List.getElem?_eq_none (by omega)
          simp only [e1, e2, if_neg hb]
          exact ⟨trivial, trivial⟩
    have h0 : h.ref h.cells.length = 0 := by
      unfold Heap.ref
      rw [List.getElem?_eq_none (Nat.le_refl _)]
    refine ⟨⟨h.cells ++ [⟨1, q, f⟩], []⟩, h.cells.length, ?_, ⟨List.nodup_nil, ?_, ?_⟩, h0, fun b => (hg b).2, fun b => (hg b).1⟩
    · unfold Heap.create
      rw [hf]
    · intro b
      rw [(hg b).2]
      have := ok.hIff b
      rw [hf] at this
      simp only [List.not_mem_nil, false_iff, not_and, List.length_append, List.length_cons, List.length_nil] at this ⊢
      intro hb
      split
      · omega
      · exact this (by omega)
    · intro y hy
      rcases List.mem_append.1 hy with hy | hy
      · exact ok.hCap y hy
      · simp at hy; rw [hy]
  | cons a l =>
    have hm : a ∈ h.free := by rw [hf]; simp
    obtain ⟨hl, h0⟩ := (ok.hIff a).1 hm
    obtain ⟨x, e⟩ : ∃ x, h.cells[a]? = some x := ⟨_, List.getElem?_eq_getElem hl⟩
    have hc := ok.hCap x (List.mem_of_getElem? e)
    have hg := get_setCell h a ⟨1, x.cap, f⟩ l hl
    have hnd := ok.hFree
    rw [hf, List.nodup_cons] at hnd
    refine ⟨⟨h.cells.set a ⟨1, x.cap, f⟩, l⟩, a, ?_, ⟨hnd.2, ?_, caps_set ok.hCap _ _ hc⟩, h0, fun b => (hg b).2, fun b => by rw [(hg b).1]; rfl⟩
    · unfold Heap.create
      rw [hf]
      dsimp only
      rw [e]
      simp only [if_neg (by omega : ¬ x.cap < q)]
    · intro b
      rw [(hg b).2, List.length_set]
      have := ok.hIff b
      rw [hf, List.mem_cons] at this
      split
      · rename_i hb; rw [hb]; constructor
        · intro hx; exact absurd hx hnd.1
        · intro hx; exact absurd hx.2 Nat.one_ne_zero
      · rename_i hb
        rw [← this]
        constructor
        · exact Or.inr
        · rintro (h | h)
          · exact absurd h hb
          · exact h

theorem modify_ok {q : Nat} {h : Heap} (ok : HeapOk q h) {a : Nat} {g : Frag} (hr : h.get a = some g) (f : Frag → Frag) :
    ∃ h', h.modify a f = some h' ∧ HeapOk q h' ∧ (∀ b, h'.ref b = h.ref b) ∧ (∀ b, h'.get b = if b = a then some (f g) else h.get b) := by
  obtain ⟨h', e, r⟩ := set_ok ok (get_ref hr) (f g)
  exact ⟨h', by unfold Heap.modify; rw [hr]; exact e, r⟩

/-! ### How many there are -/

theorem set_len {h h' : Heap} {a : Nat} {f : Frag} (e : h.set a f = some h') : h'.cells.length = h.cells.length := by
  unfold Heap.set at e
  split at e
  · simp at e
  · split at e
    · simp at e
    · injection e with e; rw [← e]; simp

theorem acquire_len {h h' : Heap} {a : Nat} (e : h.acquire a = some h') : h'.cells.length = h.cells.length := by
  unfold Heap.acquire at e
  split at e
  · simp at e
  · split at e
    · simp at e
    · injection e with e; rw [← e]; simp

theorem release_len {h h' : Heap} {a : Nat} (e : h.release a = some h') : h'.cells.length = h.cells.length := by
  unfold Heap.release at e
  split at e
  · simp at e
  · split at e
    · simp at e
    · split at e
      · injection e with e; rw [← e]; simp
      · injection e with e; rw [← e]; simp

theorem giveUp_len {h h' : Heap} {o : Option Nat} (e : h.giveUp o = some h') : h'.cells.length = h.cells.length := by
  cases o with
  | none => unfold Heap.giveUp at e; injection e with e; rw [e]
  | some a => exact release_len e

theorem modify_len {h h' : Heap} {a : Nat} {f : Frag → Frag} (e : h.modify a f = some h') : h'.cells.length = h.cells.length := by
  unfold Heap.modify at e
  cases hg : h.get a with
  | none => rw [hg] at e; simp at e
  | some g => rw [hg, Option.bind_some] at e; exact set_len e

theorem releaseAll_len : ∀ (l : List (Option Nat)) (h h' : Heap), releaseAll l h = some h' → h'.cells.length = h.cells.length := by
  intro l
  induction l with
  | nil => intro h h' e; rw [releaseAll] at e; injection e with e; rw [e]
  | cons o l ih =>
    intro h h' e
    cases o with
    | none => rw [releaseAll] at e; exact ih h h' e
    | some a =>
      rw [releaseAll] at e
      cases hr : h.release a with
      | none => rw [hr] at e; simp at e
      | some h1 => rw [hr, Option.bind_some] at e; rw [ih h1 h' e, release_len hr]

/-- There are more only if none was free, and none is then. -/
theorem create_len {q : Nat} {h h' : Heap} {f : Frag} {a : Nat} (e : h.create q f = some (h', a)) : h'.cells.length = h.cells.length ∨ h'.free = [] := by
  unfold Heap.create at e
  split at e
  · rename_i hf
    injection e with e
    injection e with e
    rw [← e]
    exact Or.inr hf
  · split at e
    · simp at e
    · split at e
      · simp at e
      · injection e with e
        injection e with e
        rw [← e]
        simp

end Verif.Hls2.Mem
