/- Singly linked lists in a heap: `next i` is the link stored at address `i`. -/
namespace Verif

/-- `l` are the addresses met when following the links from `h` to the end. -/
def Linked (next : Nat → Option Nat) : Option Nat → List Nat → Prop
  | h, [] => h = none
  | h, a :: l => h = some a ∧ Linked next (next a) l

theorem Linked.congr {next next' : Nat → Option Nat} : ∀ {l : List Nat} {h : Option Nat},
    (∀ a ∈ l, next' a = next a) → Linked next h l → Linked next' h l
  | [], _, _, hl => hl
  | a :: l, _, hh, ⟨h1, h2⟩ => by
    refine ⟨h1, ?_⟩
    rw [hh a (by simp)]
    exact Linked.congr (fun b hb => hh b (by simp [hb])) h2

theorem Linked.unique {next : Nat → Option Nat} : ∀ {l l' : List Nat} {h : Option Nat},
    Linked next h l → Linked next h l' → l = l'
  | [], [], _, _, _ => rfl
  | [], _ :: _, _, h1, h2 => by have e : _ = none := h1; have e2 := h2.1; rw [e] at e2; cases e2
  | _ :: _, [], _, h1, h2 => by have e : _ = none := h2; have e2 := h1.1; rw [e] at e2; cases e2
  | a :: l, b :: l', _, h1, h2 => by
    have e : a = b := by have := h1.1.symm.trans h2.1; simpa using this
    subst e
    rw [Linked.unique h1.2 h2.2]

/-- Two duplicate-free lists with the same members have the same length. -/
theorem length_eq_of_mem_iff {α : Type} [DecidableEq α] {l l' : List α} (h1 : l.Nodup) (h2 : l'.Nodup)
    (h : ∀ a, a ∈ l ↔ a ∈ l') : l.length = l'.length :=
  ((List.perm_ext_iff_of_nodup h1 h2).2 h).length_eq

/-- Follow the links until a node satisfies `p`: its predecessor (`none`: the head) and the node, `none` at the end of the list. The loop
`for (; *pp; pp = &(*pp)->next) if (p(*pp)) break;` of C. The outer `none`: still running after `fuel` nodes. -/
def searchLink (next : Nat → Option Nat) (p : Nat → Bool) : Nat → Option Nat → Option Nat → Option (Option Nat × Option Nat)
  | 0, _, _ => none
  | _ + 1, pr, none => some (pr, none)
  | k + 1, pr, some i => if p i then some (pr, some i) else searchLink next p k (some i) (next i)

/-- Assignment through the pointer to pointer found by `searchLink`, for links inside nodes. -/
def setNext (next : Nat → Option Nat) (pr v : Option Nat) : Nat → Option Nat :=
  match pr with
  | none => next
  | some c => fun j => if j = c then v else next j

/-- The same, for the head. -/
def setHead (h pr v : Option Nat) : Option Nat :=
  match pr with
  | none => v
  | some _ => h

/-- The last element of `l`, or `d`. -/
def lastOr (d : Option Nat) : List Nat → Option Nat
  | [] => d
  | a :: l => lastOr (some a) l

theorem searchLink_spec {next : Nat → Option Nat} {p : Nat → Bool} : ∀ {l : List Nat} {h pr : Option Nat} {k : Nat},
    Linked next h l → l.length < k →
    (∃ l1 i l2, l = l1 ++ i :: l2 ∧ (∀ a ∈ l1, p a = false) ∧ p i = true ∧ searchLink next p k pr h = some (lastOr pr l1, some i)) ∨
    ((∀ a ∈ l, p a = false) ∧ searchLink next p k pr h = some (lastOr pr l, none))
  | _, _, _, 0, _, hk => by omega
  | [], _, pr, k + 1, hl, _ => by
    have e : _ = none := hl
    subst e
    exact .inr ⟨by simp, rfl⟩
  | a :: l, _, pr, k + 1, ⟨e, hl⟩, hk => by
    subst e
    unfold searchLink
    by_cases hp : p a = true
    · exact .inl ⟨[], a, l, rfl, by simp, hp, by simp [hp, lastOr]⟩
    · have hp : p a = false := by simpa using hp
      rw [hp]
      rcases searchLink_spec (p := p) (pr := some a) hl (k := k) (by simp at hk; omega) with ⟨l1, i, l2, h1, h2, h3, h4⟩ | ⟨h1, h2⟩
      · exact .inl ⟨a :: l1, i, l2, by simp [h1], by simp [hp]; exact h2, h3, by simpa [lastOr] using h4⟩
      · exact .inr ⟨by simp [hp]; exact h1, by simpa [lastOr] using h2⟩

theorem lastOr_mem : ∀ (l : List Nat) (d : Option Nat) (c : Nat), lastOr d l = some c → d = some c ∨ c ∈ l
  | [], _, _, h => .inl h
  | a :: l, _, c, h => by
    rcases lastOr_mem l (some a) c h with h | h
    · cases h; exact .inr (by simp)
    · exact .inr (by simp [h])

/-- Cutting the list behind `l1` and hanging on whatever `v` leads to. -/
theorem Linked.splice {next next' : Nat → Option Nat} {v : Option Nat} {m : List Nat} :
    ∀ {l1 l2 : List Nat} {h : Option Nat} {pr : Option Nat}, Linked next h (l1 ++ l2) → l1.Nodup →
    (∀ a ∈ l1, lastOr pr l1 ≠ some a → next' a = next a) → (∀ a, lastOr none l1 = some a → next' a = v) →
    Linked next' v m → Linked next' (setHead h (lastOr none l1) v) (l1 ++ m)
  | [], _, _, _, _, _, _, _, hm => hm
  | a :: l1, l2, h, pr, ⟨e, hl⟩, hn, h1, h2, hm => by
    subst e
    have hs : setHead (some a) (lastOr none (a :: l1)) v = some a := by
      have : ∀ (l : List Nat) (x : Nat), ∃ y, lastOr (some x) l = some y := by
        intro l
        induction l with
        | nil => exact fun x => ⟨x, rfl⟩
        | cons b l ih => exact fun x => ih b
      obtain ⟨y, hy⟩ := this l1 a
      show setHead (some a) (lastOr (some a) l1) v = some a
      rw [hy]; rfl
    rw [hs]
    refine ⟨rfl, ?_⟩
    cases l1 with
    | nil =>
      have := h2 a rfl
      rw [this]; exact hm
    | cons b l1 =>
      have ha : next' a = next a := by
        refine h1 a (by simp) (fun e => ?_)
        have := lastOr_mem (b :: l1) (some a) a
        rcases lastOr_mem l1 (some b) a e with h | h
        · cases h; simp at hn
        · simp at hn; exact hn.1.2 h
      have ih := Linked.splice (pr := pr) (next := next) (next' := next') (v := v) (m := m) (l1 := b :: l1) (l2 := l2) hl
        (List.nodup_cons.1 hn).2 (fun x hx hne => h1 x (by simp at hx ⊢; exact .inr hx) hne) (fun x hx => h2 x hx) hm
      rw [ha]
      have e2 : next a = some b := hl.1
      have e3 : setHead (next a) (lastOr none (b :: l1)) v = next a := by
        have : ∀ (l : List Nat) (x : Nat), ∃ y, lastOr (some x) l = some y := by
          intro l
          induction l with
          | nil => exact fun x => ⟨x, rfl⟩
          | cons b l ih => exact fun x => ih b
        obtain ⟨y, hy⟩ := this l1 b
        show setHead (next a) (lastOr (some b) l1) v = next a
        rw [hy]; rfl
      rw [e3] at ih
      exact ih

theorem setNext_ne (next : Nat → Option Nat) {pr : Option Nat} (v : Option Nat) {a : Nat} (h : pr ≠ some a) :
    setNext next pr v a = next a := by
  cases pr with
  | none => rfl
  | some c => exact if_neg (fun e => h (by rw [e]))

/-- Unlinking a node found by `searchLink`. -/
theorem Linked.remove {next next' : Nat → Option Nat} {h : Option Nat} {l1 l2 : List Nat} {i : Nat}
    (hl : Linked next h (l1 ++ i :: l2)) (hn : (l1 ++ i :: l2).Nodup)
    (hx : ∀ a ∈ l1 ++ l2, next' a = setNext next (lastOr none l1) (next i) a) :
    Linked next' (setHead h (lastOr none l1) (next i)) (l1 ++ l2) := by
  have hn2 : l1.Nodup := (List.nodup_append.1 hn).1
  have hdis : ∀ a ∈ l1, a ∉ l2 := fun a ha hb => by
    simp only [List.nodup_append, List.mem_cons] at hn
    exact hn.2.2 a ha a (.inr hb) rfl
  have htail : ∀ (l1 : List Nat) (h : Option Nat), Linked next h (l1 ++ i :: l2) → Linked next (next i) l2 := by
    intro l1
    induction l1 with
    | nil => exact fun _ h => h.2
    | cons a l ih => exact fun _ h => ih _ h.2
  refine Linked.splice (pr := none) hl hn2 (fun a ha hne => ?_) (fun a ha => ?_) ?_
  · rw [hx a (by simp [ha]), setNext_ne _ _ hne]
  · have hm : a ∈ l1 := (lastOr_mem l1 none a ha).resolve_left (by simp)
    rw [hx a (by simp [hm]), ha]
    simp [setNext]
  · refine (htail l1 h hl).congr (fun a ha => ?_)
    rw [hx a (by simp [ha]), setNext_ne]
    exact fun hc => hdis a ((lastOr_mem l1 none a hc).resolve_left (by simp)) ha

/-- Hanging a new node at the end found by `searchLink`. -/
theorem Linked.append {next next' : Nat → Option Nat} {h : Option Nat} {l : List Nat} {i : Nat}
    (hl : Linked next h l) (hn : l.Nodup) (hi : i ∉ l) (hnext : next' i = none)
    (hx : ∀ a ∈ l, next' a = setNext next (lastOr none l) (some i) a) :
    Linked next' (setHead h (lastOr none l) (some i)) (l ++ [i]) := by
  have hl' : Linked next h (l ++ []) := by rwa [List.append_nil]
  refine Linked.splice (pr := none) hl' hn (fun a ha hne => ?_) (fun a ha => ?_) ⟨rfl, hnext⟩
  · rw [hx a ha, setNext_ne _ _ hne]
  · have hm : a ∈ l := (lastOr_mem l none a ha).resolve_left (by simp)
    rw [hx a hm, ha]
    simp [setNext]

end Verif
