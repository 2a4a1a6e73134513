import Verif.Broadcast.Spec
/-
C90: the answers of all workers are joined to one list.
-/
namespace Verif.Broadcast

theorem answer_bad (c : Conf) {st : Nat} (h : st ≠ 200) (has : Bool) : ∀ bs, answer c st has bs = ([], has)
  | [] => rfl
  | b :: bs => by
    unfold answer buffer
    rw [if_pos h]
    dsimp only
    rw [answer_bad c h has bs]; rfl

theorem answer_done (c : Conf) : ∀ bs, answer c 200 true bs = (bs.flatten, true)
  | [] => rfl
  | b :: bs => by
    have : buffer c 200 true b = (b, true) := by
      unfold buffer
      rw [if_neg (by simp)]
      split
      · rename_i e; rw [e]
      · rw [if_neg (by simp)]
    unfold answer
    rw [this]
    dsimp only
    rw [answer_done c bs]; rfl

theorem answer_first {c : Conf} {a b : Nat} (h1 : bytes c.pre = [a]) (h2 : bytes c.newPre = [b]) : ∀ (bs : List (List Nat)),
    (bs.flatten = [] → answer c 200 false bs = ([], false)) ∧ ∀ r, bs.flatten = a :: r → answer c 200 false bs = (b :: r, true)
  | [] => ⟨fun _ => rfl, fun r h => by cases h⟩
  | [] :: bs => by
    have ih := answer_first h1 h2 bs
    have : answer c 200 false ([] :: bs) = answer c 200 false bs := by
      conv => lhs; unfold answer
      have : buffer c 200 false [] = ([], false) := by unfold buffer; rw [if_neg (by simp), if_pos rfl]
      rw [this]; rfl
    rw [this]
    exact ih
  | (x :: y) :: bs => by
    refine ⟨fun h => (by simp at h), fun r h => ?_⟩
    have h : x :: (y ++ bs.flatten) = a :: r := by simpa using h
    injection h with hx hr
    subst hx
    have : buffer c 200 false (x :: y) = (b :: y, true) := by
      unfold buffer
      rw [if_neg (by simp), if_neg (by simp), if_pos (by rw [h1]; refine ⟨rfl, by simp, by simp [List.isPrefixOf]⟩), h2]
      simp [overwrite]
    unfold answer
    rw [this]
    dsimp only
    rw [answer_done, ← hr]; rfl

theorem call_ask {c : Conf} {n : Nat} {ans : Nat → Answer} {s : State} (h1 : s.last = false) (h2 : s.workerid < n) :
    call c n ans s = ⟨s.workerid + 1, (answer c (ans s.workerid).status s.has (ans s.workerid).bufs).2, s.out ++ (answer c (ans s.workerid).status s.has (ans s.workerid).bufs).1, s.asked ++ [s.workerid], false⟩ := by
  unfold call; rw [if_neg (by simp [h1]), if_pos h2]

theorem asking (c : Conf) (n : Nat) (ans : Nat → Answer) : ∀ k, k ≤ n → (calls c n ans k).workerid = k ∧ (calls c n ans k).asked = List.range k ∧ (calls c n ans k).last = false
  | 0, _ => ⟨rfl, rfl, rfl⟩
  | k + 1, h => by
    obtain ⟨i1, i2, i3⟩ := asking c n ans k (Nat.le_of_succ_le h)
    have e : calls c n ans (k + 1) = _ := call_ask (c := c) (ans := ans) i3 (by rw [i1]; exact h)
    rw [e]
    exact ⟨by show (calls c n ans k).workerid + 1 = _; rw [i1], by show (calls c n ans k).asked ++ [(calls c n ans k).workerid] = _; rw [i1, i2, List.range_succ], rfl⟩

theorem ended (c : Conf) (n : Nat) (ans : Nat → Answer) : ∀ k, n < k → calls c n ans k = { calls c n ans n with out := (calls c n ans n).out ++ bytes c.suffix, last := true }
  | 0, h => by cases h
  | k + 1, h => by
    show call c n ans (calls c n ans k) = _
    by_cases e : k = n
    · subst e
      obtain ⟨i1, _, i3⟩ := asking c k ans k (Nat.le_refl _)
      unfold call
      rw [if_neg (by simp [i3]), if_neg (by omega)]
    · rw [ended c n ans k (by omega)]
      unfold call
      rw [if_pos rfl]

theorem collected {c : Conf} {a b : Nat} (h1 : bytes c.pre = [a]) (h2 : bytes c.newPre = [b]) (n : Nat) (ans : Nat → Answer) (items : Nat → List (List Nat))
    (hw : ∀ w < n, (ans w).status = 200 → Writes a (ans w) (items w)) : ∀ k, k ≤ n →
      (allItems k ans items = [] ∧ (calls c n ans k).out = [] ∧ (calls c n ans k).has = false) ∨
      ∃ r, ((allItems k ans items).map fun x => a :: x).flatten = a :: r ∧ (calls c n ans k).out = b :: r ∧ (calls c n ans k).has = true
  | 0, _ => Or.inl ⟨rfl, rfl, rfl⟩
  | k + 1, h => by
    obtain ⟨i1, _, i3⟩ := asking c n ans k (Nat.le_of_succ_le h)
    have e : calls c n ans (k + 1) = _ := call_ask (c := c) (ans := ans) i3 (by rw [i1]; exact h)
    rw [e, i1]
    have ha : allItems (k + 1) ans items = allItems k ans items ++ if (ans k).status = 200 then items k else [] := by
      unfold allItems; rw [List.range_succ, List.flatMap_append]; simp
    rw [ha]
    have ih := collected h1 h2 n ans items hw k (Nat.le_of_succ_le h)
    dsimp only
    by_cases hs : (ans k).status = 200
    · have hwk := hw k h hs
      unfold Writes at hwk
      rw [if_pos hs, hs]
      rcases ih with ⟨j1, j2, j3⟩ | ⟨r, j1, j2, j3⟩
      · rw [j1, j2, j3]
        cases hi : items k with
        | nil =>
          left
          rw [hi] at hwk
          rw [(answer_first h1 h2 (ans k).bufs).1 (by rw [hwk]; rfl)]
          exact ⟨rfl, rfl, rfl⟩
        | cons x l =>
          right
          rw [hi] at hwk
          refine ⟨x ++ (l.map fun x => a :: x).flatten, by simp, ?_⟩
          rw [(answer_first h1 h2 (ans k).bufs).2 (x ++ (l.map fun x => a :: x).flatten) (by rw [hwk]; simp)]
          exact ⟨rfl, rfl⟩
      · right
        rw [j2, j3, answer_done]
        exact ⟨r ++ (ans k).bufs.flatten, by rw [List.map_append, List.flatten_append, j1, hwk]; rfl, rfl, rfl⟩
    · rw [if_neg hs, answer_bad c hs]
      simpa using ih

theorem between_eq (a : Nat) : ∀ l : List (List Nat), l ≠ [] → (l.map fun x => a :: x).flatten = a :: between a l
  | [], h => absurd rfl h
  | [x], _ => by simp [between]
  | x :: y :: l, _ => by
    have ih := between_eq a (y :: l) (by simp)
    rw [List.map_cons, List.flatten_cons, ih]
    rfl

/-- C90 (partial: there is an item at all, see C90_empty_violation; the texts are single bytes, as in all configurations of the repository, see C90_length_violation): when each worker writes a separator before each of its items, in whatever buffers its answer arrives, the client gets one list with the items of all workers that answer with 200. -/
theorem C90_list_partial (c : Conf) (opening sep closing : Nat) (h1 : bytes c.pre = [sep]) (h2 : bytes c.newPre = [opening]) (h3 : bytes c.suffix = [closing])
    (n : Nat) (ans : Nat → Answer) (items : Nat → List (List Nat)) (hw : ∀ w < n, (ans w).status = 200 → Writes sep (ans w) (items w)) (hi : allItems n ans items ≠ []) (k : Nat) (hk : n < k) :
    (calls c n ans k).out = listText opening sep closing (allItems n ans items) := by
  rw [ended c n ans k hk]
  show (calls c n ans n).out ++ bytes c.suffix = _
  rcases collected h1 h2 n ans items hw n (Nat.le_refl _) with ⟨j, _⟩ | ⟨r, j1, j2, _⟩
  · exact absurd j hi
  · rw [between_eq _ _ hi] at j1
    injection j1 with _ j1
    rw [j2, h3, ← j1]; rfl

/-- C90: every worker is asked once, in order, and the last buffer is sent after all of them and only then. -/
theorem C90_all (c : Conf) (n : Nat) (ans : Nat → Answer) (k : Nat) : (calls c n ans k).asked = List.range (min k n) ∧ ((calls c n ans k).last = true ↔ n < k) := by
  by_cases h : n < k
  · rw [ended c n ans k h, Nat.min_eq_right (Nat.le_of_lt h)]
    exact ⟨(asking c n ans n (Nat.le_refl _)).2.1, fun _ => h, fun _ => rfl⟩
  · have h' := Nat.le_of_not_lt h
    obtain ⟨_, i2, i3⟩ := asking c n ans k h'
    rw [Nat.min_eq_left h', i3]
    exact ⟨i2, fun e => (by cases e), fun e => absurd e h⟩

theorem plain {c : Conf} (h1 : bytes c.pre = []) (has : Bool) : ∀ bs, answer c 200 has bs = (bs.flatten, has)
  | [] => rfl
  | b :: bs => by
    have : buffer c 200 has b = (b, has) := by
      unfold buffer
      rw [if_neg (by simp)]
      split
      · rename_i e; rw [e]
      · rw [if_neg (by simp [h1])]
    unfold answer
    rw [this]
    dsimp only
    rw [plain h1 has bs]; rfl

/-- C90: without a text to replace the client gets the answers as they are, one after the other, without those that are not 200. -/
theorem C90_plain (c : Conf) (h1 : bytes c.pre = []) (n : Nat) (ans : Nat → Answer) (k : Nat) (hk : n < k) :
    (calls c n ans k).out = ((List.range n).flatMap fun w => if (ans w).status = 200 then (ans w).bufs.flatten else []) ++ bytes c.suffix := by
  rw [ended c n ans k hk]
  show (calls c n ans n).out ++ bytes c.suffix = _
  have : ∀ k, k ≤ n → (calls c n ans k).out = (List.range k).flatMap fun w => if (ans w).status = 200 then (ans w).bufs.flatten else [] := by
    intro k
    induction k with
    | zero => intro _; rfl
    | succ k ih =>
      intro h
      obtain ⟨i1, _, i3⟩ := asking c n ans k (Nat.le_of_succ_le h)
      have e : calls c n ans (k + 1) = _ := call_ask (c := c) (ans := ans) i3 (by rw [i1]; exact h)
      rw [e, i1, List.range_succ, List.flatMap_append, ← ih (Nat.le_of_succ_le h)]
      dsimp only
      by_cases hs : (ans k).status = 200
      · rw [hs, plain h1]; simp [hs]
      · rw [answer_bad c hs]; simp [hs]
  rw [this n (Nat.le_refl _)]

/-- C90 (not so): when no worker has an item (no stream is active), the client gets `]` alone, which is not a list. -/
theorem C90_empty_violation : (calls ⟨some [44], some [91], some [93]⟩ 4 (fun _ => ⟨200, []⟩) 5).out = [93] ∧ listText 91 44 93 [] = [91, 93] := by decide

/-- C90 (not so): the new text is written over the buffer (265-266). One that is longer destroys what follows, one that is shorter leaves part of the old text. -/
theorem C90_length_violation : (calls ⟨some [44], some [123, 91], some [93]⟩ 1 (fun _ => ⟨200, [[44, 49, 50]]⟩) 2).out = [123, 91, 50, 93] ∧
    (calls ⟨some [44, 32], some [91], some [93]⟩ 1 (fun _ => ⟨200, [[44, 32, 49]]⟩) 2).out = [91, 32, 49, 93] := by decide

/-- C90 (not so): every buffer is compared until one is rewritten (259-267), not only the first. If the answers do not begin with the text, the same answer arrives unaltered or with a byte replaced in the middle, depending on where its buffers end. -/
theorem C90_middle_violation : (calls ⟨some [44], some [91], some []⟩ 1 (fun _ => ⟨200, [[49, 44, 50]]⟩) 2).out = [49, 44, 50] ∧
    (calls ⟨some [44], some [91], some []⟩ 1 (fun _ => ⟨200, [[49], [44, 50]]⟩) 2).out = [49, 91, 50] := by decide

/-- C90 (not so): a location inside another one inherits the text to be replaced, but not the new one (121). The separator stays at the beginning. -/
theorem C90_inherit_violation : merge ⟨some [44], some [91], some [93]⟩ ⟨none, none, none⟩ = ⟨some [44], none, some [93]⟩ ∧
    (calls (merge ⟨some [44], some [91], some [93]⟩ ⟨none, none, none⟩) 1 (fun _ => ⟨200, [[44, 49]]⟩) 2).out = [44, 49, 93] := by decide

/-- Three workers, the second fails; the first has no items, the third has two in three buffers (C90_list_partial). -/
def three : Nat → Answer
  | 0 => ⟨200, [[]]⟩
  | 1 => ⟨502, [[60]]⟩
  | _ => ⟨200, [[], [44, 49], [50, 44], [51]]⟩

example : (calls ⟨some [44], some [91], some [93]⟩ 3 three 4).out = [91, 49, 50, 44, 51, 93] := by decide
example : Writes 44 (three 2) [[49, 50], [51]] := by unfold Writes; decide
example : allItems 3 three (fun w => if w = 2 then [[49, 50], [51]] else []) = [[49, 50], [51]] := by decide

end Verif.Broadcast
