import Verif.Proxy.Model
/-
Lemmas: reading the line depends on what has arrived only, and takes exactly the lines described by `Accepted`.
-/
namespace Verif.Proxy

open Verif.Access (Sockaddr)

theorem eqAt_app (w : Bytes) : ∀ (pre l : Bytes), w.length ≤ l.length → eqAt (pre ++ l) pre.length w = some (w.isPrefixOf l) := by
  induction w with
  | nil => intro pre l _; simp [eqAt]
  | cons c w ih =>
    intro pre l h
    cases l with
    | nil => simp at h
    | cons x l =>
      have hg : (pre ++ x :: l)[pre.length]? = some x := by simp
      rw [eqAt, hg]
      simp only [List.length_cons] at h
      by_cases hx : x = c
      · have := ih (pre ++ [x]) l (by omega)
        rw [List.length_append, List.append_assoc] at this
        simp only [hx, ↓reduceIte]
        subst hx
        simpa [List.isPrefixOf] using this
      · have : ¬ c = x := fun h => hx h.symm
        simp [hx, this, List.isPrefixOf]

theorem findSpace_app (g : Bytes) : ∀ (l pre : Bytes),
    findSpace (pre ++ (l ++ g)) pre.length l.length = some (if 0x20 ∈ l then some (pre.length + (l.takeWhile (· != 0x20)).length) else none) := by
  intro l
  induction l with
  | nil => intro pre; simp [findSpace]
  | cons x l ih =>
    intro pre
    have hg : (pre ++ (x :: l ++ g))[pre.length]? = some x := by simp
    rw [List.length_cons, findSpace, hg]
    by_cases hx : x = 0x20
    · simp [hx]
    · have := ih (pre ++ [x])
      rw [List.length_append, List.append_assoc] at this
      have h2 : ¬ (0x20 : UInt8) = x := fun h => hx h.symm
      simp only [List.length_singleton, List.singleton_append] at this
      simp only [hx, ↓reduceIte, List.cons_append, this, List.mem_cons, h2, false_or]
      by_cases hm : (0x20 : UInt8) ∈ l
      · simp [hm, hx]; omega
      · simp [hm]

/-- The first end of a line -/
def cut : Bytes → Option (Bytes × Bytes)
  | [] => none
  | [_] => none
  | x :: y :: r => if x = 0x0d ∧ y = 0x0a then some ([], r) else (cut (y :: r)).map fun z => (x :: z.1, z.2)

theorem findEnd_app (g : Bytes) : ∀ (l pre : Bytes), findEnd (pre ++ (l ++ g)) pre.length l.length = some ((cut l).map fun z => pre.length + z.1.length) := by
  intro l
  induction l with
  | nil => intro pre; simp [findEnd, cut]
  | cons x l ih =>
    intro pre
    cases l with
    | nil => simp [findEnd, cut]
    | cons y r =>
      have hg : (pre ++ (x :: y :: r ++ g))[pre.length]? = some x := by simp
      have hg2 : (pre ++ (x :: y :: r ++ g))[pre.length + 1]? = some y := by
        rw [List.getElem?_append_right (by omega)]; simp
      simp only [List.length_cons, findEnd, hg, hg2, cut]
      by_cases hx : x = 0x0d ∧ y = 0x0a
      · simp [hx]
      · have := ih (pre ++ [x])
        rw [List.length_append, List.append_assoc] at this
        simp only [List.length_singleton, List.singleton_append] at this
        simp only [hx, ↓reduceIte, List.cons_append, List.length_cons] at this ⊢
        rw [this]
        cases cut (y :: r) with
        | none => rfl
        | some z => simp; omega

theorem noEnd_cons {x : UInt8} {l : Bytes} : NoEnd (x :: l) ↔ ¬ crlfW <+: x :: l ∧ NoEnd l := by
  unfold NoEnd
  rw [List.infix_cons_iff]
  constructor
  · intro h; exact ⟨fun h1 => h (.inl h1), fun h1 => h (.inr h1)⟩
  · rintro ⟨h1, h2⟩ (h | h)
    · exact h1 h
    · exact h2 h

theorem noEnd_nil : NoEnd [] := by simp [NoEnd, crlfW]

theorem cut_some : ∀ {l j r : Bytes}, cut l = some (j, r) → l = j ++ crlfW ++ r ∧ NoEnd j
  | [], _, _, h => by simp [cut] at h
  | [_], _, _, h => by simp [cut] at h
  | x :: y :: t, j, r, h => by
    rw [cut] at h
    split at h
    · rename_i hx
      injection h with h
      injection h with h1 h2
      subst h1 h2
      exact ⟨by simp [hx.1, hx.2, crlfW], noEnd_nil⟩
    · rename_i hx
      cases hc : cut (y :: t) with
      | none => simp [hc] at h
      | some z =>
        obtain ⟨j', r'⟩ := z
        simp only [hc, Option.map_some, Option.some.injEq, Prod.mk.injEq] at h
        obtain ⟨rfl, rfl⟩ := h
        obtain ⟨h1, h2⟩ := cut_some hc
        refine ⟨by rw [h1]; simp, noEnd_cons.mpr ⟨?_, h2⟩⟩
        intro hp
        cases j' with
        | nil => simp [crlfW] at hp
        | cons w j' =>
          simp only [List.cons_append, List.cons.injEq] at h1
          obtain ⟨h3, h4⟩ := h1
          simp only [crlfW, List.cons_prefix_cons, List.nil_prefix, and_true] at hp
          exact hx ⟨hp.1.symm, by rw [h3]; exact hp.2.symm⟩

theorem cut_app (r : Bytes) : ∀ (j : Bytes), NoEnd j → cut (j ++ crlfW ++ r) = some (j, r)
  | [], _ => by simp [crlfW, cut]
  | [x], _ => by
    simp only [crlfW, List.cons_append, List.nil_append, cut]
    simp
  | x :: y :: j, h => by
    have h' := noEnd_cons.mp h
    have := cut_app r (y :: j) h'.2
    simp only [List.cons_append] at this ⊢
    rw [cut, this]
    have hx : ¬ (x = 0x0d ∧ y = 0x0a) := by
      rintro ⟨rfl, rfl⟩
      exact h'.1 (by simp [crlfW])
    simp [hx]

theorem cut_none {l : Bytes} (h : NoEnd l) : cut l = none := by
  cases hc : cut l with
  | none => rfl
  | some z =>
    obtain ⟨j, r⟩ := z
    exact absurd ⟨j, r, (cut_some hc).1.symm⟩ h

/-- The lines that are taken: six bytes, and UNKNOWN or a family and a source. -/
inductive Accepted (conv : Bytes → Option Sockaddr) : Bytes → Option Sockaddr → Prop where
  | unknown (six more : Bytes) (h6 : six.length = 6) (hm : NoEnd more) : Accepted conv (six ++ unknownW ++ more ++ crlfW) none
  | tcp (six : Bytes) (f : Family) (src more : Bytes) (a : Sockaddr) (h6 : six.length = 6) (hs : 0x20 ∉ src) (ha : conv src = some a) (hm : NoEnd more) :
      Accepted conv (six ++ (f.text ++ (0x20 :: (src ++ (0x20 :: (more ++ crlfW)))))) (some a)

/-- Reading what has arrived -/
def pureParse (conv : Bytes → Option Sockaddr) (d : Bytes) : Option (Option Sockaddr × Nat) :=
  if unknownW.isPrefixOf (d.drop 6) then (cut (d.drop 13)).map fun z => (none, 13 + z.1.length + 2)
  else if (Family.text .tcp4 ++ [0x20]).isPrefixOf (d.drop 6) ∨ (Family.text .tcp6 ++ [0x20]).isPrefixOf (d.drop 6) then
    let l := d.drop 11
    if 0x20 ∈ l then
      let src := l.takeWhile (· != 0x20)
      (conv src).bind fun a => (cut (l.drop src.length)).map fun z => (some a, 11 + src.length + z.1.length + 2)
    else none
  else none

def Out.ofOption : Option (Option Sockaddr × Nat) → Out
  | none => .refused
  | some (a, n) => .taken a n

theorem skip_eq (pre l g : Bytes) (addr : Option Sockaddr) (n : Int) (hn : n = l.length) :
    skip (pre ++ (l ++ g)) pre.length n addr = Out.ofOption ((cut l).map fun z => (addr, pre.length + z.1.length + 2)) := by
  unfold skip
  rw [hn, Int.toNat_natCast, findEnd_app]
  cases cut l <;> rfl

theorem take_takeWhile (p : UInt8 → Bool) : ∀ l : Bytes, l.take (l.takeWhile p).length = l.takeWhile p
  | [] => rfl
  | x :: l => by
    rw [List.takeWhile_cons]
    split
    · simp [take_takeWhile p l]
    · rfl

theorem short_drop {d : Bytes} (h : d.length ≤ 8) (w : Bytes) (hw : 3 ≤ w.length) : w.isPrefixOf (d.drop 6) = false := by
  rw [Bool.eq_false_iff]
  intro hp
  have := (List.isPrefixOf_iff_prefix.mp hp).length_le
  rw [List.length_drop] at this
  omega

theorem parse_eq (core : Core) (d g : Bytes) (h : (d ++ g).length = 107) : parse core (d ++ g) d.length = Out.ofOption (pureParse core.conv d) := by
  have hlen : (d ++ g).length = d.length + g.length := List.length_append
  by_cases hs : d.length ≤ 8
  · have hp : pureParse core.conv d = none := by
      unfold pureParse
      rw [short_drop hs _ (by decide), short_drop hs _ (by decide), short_drop hs _ (by decide)]
      simp
    have he := eqAt_app proxyW [] (d ++ g) (by rw [h]; decide)
    simp only [List.nil_append, List.length_nil] at he
    have h8 : (d.length : Int) ≤ 8 := by omega
    have h7 : ¬ (7 : Int) ≤ (d.length : Int) - 6 := by omega
    have h5 : (d.length : Int) - 6 < 5 := by omega
    rw [hp]
    unfold parse
    simp only [h8, ↓reduceIte, he, h7, h5]
    cases proxyW.isPrefixOf (d ++ g) <;> rfl
  · obtain ⟨six, r, rfl, h6⟩ : ∃ six r, d = six ++ r ∧ six.length = 6 := ⟨d.take 6, d.drop 6, (List.take_append_drop 6 d).symm, by rw [List.length_take]; omega⟩
    have hdl : (six ++ r).length = 6 + r.length := by rw [List.length_append, h6]
    have hd6 : (six ++ r).drop 6 = r := List.drop_left' h6
    have h8 : ¬ ((six ++ r).length : Int) ≤ 8 := by omega
    have hn6 : ((six ++ r).length : Int) - 6 = r.length := by omega
    unfold parse pureParse
    simp only [h8, ↓reduceIte, hn6, hd6]
    have hunk : (if (7 : Int) ≤ r.length then eqAt (six ++ r ++ g) 6 unknownW else some false) = some (unknownW.isPrefixOf r) := by
      split
      · have he := eqAt_app unknownW six (r ++ g) (by rw [List.length_append]; have : unknownW.length = 7 := rfl; omega)
        rw [h6, ← List.append_assoc] at he
        rw [he]
        congr 1
        rw [Bool.eq_iff_iff, List.isPrefixOf_iff_prefix, List.isPrefixOf_iff_prefix]
        constructor
        · intro hh
          exact List.prefix_of_prefix_length_le hh (List.prefix_append r g) (by have : unknownW.length = 7 := rfl; omega)
        · intro hh
          exact hh.trans (List.prefix_append r g)
      · congr 1
        symm
        rw [Bool.eq_false_iff]
        intro hp
        have := (List.isPrefixOf_iff_prefix.mp hp).length_le
        have h7 : unknownW.length = 7 := rfl
        omega
    rw [hunk]
    by_cases hu : unknownW.isPrefixOf r = true
    · obtain ⟨m, rfl⟩ := List.isPrefixOf_iff_prefix.mp hu
      rw [hu]
      have hd13 : (six ++ (unknownW ++ m)).drop 13 = m := by
        rw [← List.append_assoc]; exact List.drop_left' (by rw [List.length_append, h6]; rfl)
      have hk := skip_eq (six ++ unknownW) m g none ((unknownW ++ m).length - 7) (by rw [List.length_append]; have : unknownW.length = 7 := rfl; omega)
      have h13 : (six ++ unknownW).length = 13 := by rw [List.length_append, h6]; rfl
      rw [h13] at hk
      simp only [List.append_assoc] at hk ⊢
      simp only [↓reduceIte, hk]
      rw [← List.append_assoc] at hd13
      rw [← List.append_assoc six unknownW m, hd13]
    · rw [Bool.not_eq_true] at hu
      rw [hu]
      simp only [Bool.false_eq_true, ↓reduceIte]
      by_cases h5 : (r.length : Int) < 5
      · have hp : ∀ w : Bytes, w.length = 5 → w.isPrefixOf r = false := by
          intro w hw
          rw [Bool.eq_false_iff]
          intro hp
          have := (List.isPrefixOf_iff_prefix.mp hp).length_le
          omega
        rw [hp _ (by rfl), hp _ (by rfl)]
        simp [h5, Out.ofOption]
      · match r, h5 with
        | c0 :: c1 :: c2 :: x :: y :: l, _ =>
          have hb : six ++ c0 :: c1 :: c2 :: x :: y :: l ++ g = (six ++ [c0, c1, c2, x, y]) ++ (l ++ g) := by simp
          have h11 : (six ++ [c0, c1, c2, x, y]).length = 11 := by simp [h6]
          have e3 := eqAt_app [0x54, 0x43, 0x50] six ([c0, c1, c2, x, y] ++ (l ++ g)) (by simp)
          rw [h6, ← List.append_assoc] at e3
          have g9 : ((six ++ [c0, c1, c2, x, y]) ++ (l ++ g))[9]? = some x := by
            rw [List.append_assoc, List.getElem?_append_right (by omega), h6]; rfl
          have g10 : ((six ++ [c0, c1, c2, x, y]) ++ (l ++ g))[10]? = some y := by
            rw [List.append_assoc, List.getElem?_append_right (by omega), h6]; rfl
          have hd11 : (six ++ c0 :: c1 :: c2 :: x :: y :: l).drop 11 = l := by
            have : six ++ c0 :: c1 :: c2 :: x :: y :: l = (six ++ [c0, c1, c2, x, y]) ++ l := by simp
            rw [this]; exact List.drop_left' h11
          have hn5 : ((c0 :: c1 :: c2 :: x :: y :: l).length : Int) - 5 = l.length := by simp only [List.length_cons]; omega
          have h5' : ¬ ((c0 :: c1 :: c2 :: x :: y :: l).length : Int) < 5 := by simp only [List.length_cons]; omega
          rw [hb, e3, g9, g10, hd11, hn5]
          simp only [h5', ↓reduceIte, Int.toNat_natCast]
          have hfs := findSpace_app g l (six ++ [c0, c1, c2, x, y])
          rw [h11] at hfs
          rw [hfs]
          have hw : ((Family.text .tcp4 ++ [0x20]).isPrefixOf (c0 :: c1 :: c2 :: x :: y :: l) = true ∨ (Family.text .tcp6 ++ [0x20]).isPrefixOf (c0 :: c1 :: c2 :: x :: y :: l) = true) ↔
              ¬ (¬ ([0x54, 0x43, 0x50] : Bytes).isPrefixOf ([c0, c1, c2, x, y] ++ (l ++ g)) = true ∨ (x ≠ 0x34 ∧ x ≠ 0x36) ∨ y ≠ 0x20) := by
            simp only [Family.text, List.cons_append, List.nil_append, List.isPrefixOf_cons₂, List.isPrefixOf_nil_left, Bool.and_true, Bool.and_eq_true, beq_iff_eq, ne_eq]
            constructor
            · rintro (⟨h0, h1, h2, h3, h4⟩ | ⟨h0, h1, h2, h3, h4⟩) <;> subst h0 h1 h2 h3 h4 <;> decide
            · intro hh
              have a0 : (84 = c0 ∧ 67 = c1 ∧ 80 = c2) := Classical.byContradiction fun hc => hh (.inl hc)
              have a1 : ¬ (¬ x = 52 ∧ ¬ x = 54) := fun hc => hh (.inr (.inl hc))
              have a2 : y = 32 := Classical.byContradiction fun hc => hh (.inr (.inr hc))
              by_cases hx : x = 52
              · exact .inl ⟨a0.1, a0.2.1, a0.2.2, hx.symm, a2.symm⟩
              · have : x = 54 := Classical.byContradiction fun hc => a1 ⟨hx, hc⟩
                exact .inr ⟨a0.1, a0.2.1, a0.2.2, this.symm, a2.symm⟩
          by_cases hc : ¬ ([0x54, 0x43, 0x50] : Bytes).isPrefixOf ([c0, c1, c2, x, y] ++ (l ++ g)) = true ∨ (x ≠ 0x34 ∧ x ≠ 0x36) ∨ y ≠ 0x20
          · have := fun h => hw.mp h hc
            rw [if_pos hc, if_neg this]; rfl
          · rw [if_neg hc, if_pos (hw.mpr hc)]
            by_cases hm : (0x20 : UInt8) ∈ l
            · simp only [hm, ↓reduceIte]
              have hsub : 11 + (l.takeWhile (· != 0x20)).length - 11 = (l.takeWhile (· != 0x20)).length := by omega
              have hdr : ((six ++ [c0, c1, c2, x, y]) ++ (l ++ g)).drop 11 = l ++ g := List.drop_left' h11
              have htk : (l ++ g).take (l.takeWhile (· != 0x20)).length = l.takeWhile (· != 0x20) := by
                rw [List.take_append_of_le_length (List.takeWhile_prefix _).length_le, take_takeWhile]
              rw [hsub, hdr, htk]
              cases hcv : core.conv (l.takeWhile (· != 0x20)) with
              | none => rfl
              | some a =>
                simp only [Option.bind_some]
                have hsplit : (six ++ [c0, c1, c2, x, y]) ++ (l ++ g) = (six ++ [c0, c1, c2, x, y] ++ l.takeWhile (· != 0x20)) ++ (l.drop (l.takeWhile (· != 0x20)).length ++ g) := by
                  have : l = l.takeWhile (· != 0x20) ++ l.drop (l.takeWhile (· != 0x20)).length := by
                    conv => lhs; rw [← List.take_append_drop (l.takeWhile (· != 0x20)).length l, take_takeWhile]
                  conv => lhs; rw [this]
                  simp only [List.append_assoc]
                have hpl : (six ++ [c0, c1, c2, x, y] ++ l.takeWhile (· != 0x20)).length = 11 + (l.takeWhile (· != 0x20)).length := by rw [List.length_append, h11]
                rw [hsplit, ← hpl, skip_eq _ _ _ _ _ (by
                  rw [List.length_drop]
                  have := (List.takeWhile_prefix (p := (· != 0x20)) (l := l)).length_le
                  omega), hpl]
            · simp only [hm, ↓reduceIte]; rfl
        | [], h5 => simp at h5
        | [_], h5 => simp at h5
        | [_, _], h5 => simp at h5
        | [_, _, _], h5 => simp at h5
        | [_, _, _, _], h5 => simp at h5

theorem split_space : ∀ {l : Bytes}, 0x20 ∈ l → 0x20 ∉ l.takeWhile (· != 0x20) ∧ ∃ t, l = l.takeWhile (· != 0x20) ++ 0x20 :: t
  | [], h => by simp at h
  | x :: l, h => by
    rw [List.takeWhile_cons]
    by_cases hx : x = 0x20
    · subst hx
      exact ⟨by simp, l, by simp⟩
    · have hx' : ¬ (0x20 : UInt8) = x := fun e => hx e.symm
      have hm : (0x20 : UInt8) ∈ l := by
        rcases List.mem_cons.mp h with h | h
        · exact absurd h hx'
        · exact h
      obtain ⟨h1, t, h2⟩ := split_space hm
      simp only [bne_iff_ne, ne_eq, hx, not_false_eq_true, ↓reduceIte]
      refine ⟨?_, t, ?_⟩
      · simp only [List.mem_cons, not_or]; exact ⟨hx', h1⟩
      · rw [List.cons_append, ← h2]

theorem pure_sound {conv : Bytes → Option Sockaddr} {d : Bytes} {addr : Option Sockaddr} {n : Nat} (h : pureParse conv d = some (addr, n)) :
    ∃ head rest, d = head ++ rest ∧ head.length = n ∧ Accepted conv head addr := by
  unfold pureParse at h
  split at h
  · rename_i hu
    obtain ⟨m, hm⟩ := List.isPrefixOf_iff_prefix.mp hu
    have h6 : 6 < d.length := by
      have := congrArg List.length hm
      rw [List.length_append, List.length_drop] at this
      have h7 : unknownW.length = 7 := rfl
      omega
    have hd : d = d.take 6 ++ (unknownW ++ m) := by rw [hm, List.take_append_drop]
    have hd13 : d.drop 13 = m := by
      have : d.drop 13 = (d.drop 6).drop 7 := by rw [List.drop_drop]
      rw [this, ← hm]; exact List.drop_left' rfl
    rw [hd13] at h
    cases hc : cut m with
    | none => simp [hc] at h
    | some z =>
      obtain ⟨j, r⟩ := z
      simp only [hc, Option.map_some, Option.some.injEq, Prod.mk.injEq] at h
      obtain ⟨rfl, rfl⟩ := h
      obtain ⟨e, hn⟩ := cut_some hc
      have h6' : (d.take 6).length = 6 := by rw [List.length_take]; omega
      refine ⟨d.take 6 ++ unknownW ++ j ++ crlfW, r, ?_, ?_, .unknown _ _ h6' hn⟩
      · conv => lhs; rw [hd, e]
        simp only [List.append_assoc]
      · simp only [List.length_append, h6', unknownW, crlfW, List.length_cons, List.length_nil]
  · split at h
    · rename_i hf
      obtain ⟨f, l, hl⟩ : ∃ f : Family, ∃ l, f.text ++ [0x20] ++ l = d.drop 6 := by
        rcases hf with hf | hf
        · obtain ⟨l, hl⟩ := List.isPrefixOf_iff_prefix.mp hf; exact ⟨.tcp4, l, hl⟩
        · obtain ⟨l, hl⟩ := List.isPrefixOf_iff_prefix.mp hf; exact ⟨.tcp6, l, hl⟩
      have hfl : (f.text ++ [0x20]).length = 5 := by cases f <;> rfl
      have h6 : 6 < d.length := by
        have := congrArg List.length hl
        rw [List.length_append, List.length_drop, hfl] at this
        omega
      have hd11 : d.drop 11 = l := by
        have : d.drop 11 = (d.drop 6).drop 5 := by rw [List.drop_drop]
        rw [this, ← hl]; exact List.drop_left' hfl
      rw [hd11] at h
      simp only at h
      split at h
      · rename_i hsp
        cases hcv : conv (l.takeWhile (· != 0x20)) with
        | none => simp [hcv] at h
        | some a =>
          simp only [hcv, Option.bind_some] at h
          obtain ⟨hnot, t, hsplit⟩ := split_space hsp
          generalize l.takeWhile (· != 0x20) = src at h hcv hsplit hnot
          have ht : l.drop src.length = 0x20 :: t := by rw [hsplit]; exact List.drop_left' rfl
          rw [ht] at h
          cases hc : cut (0x20 :: t) with
          | none => simp [hc] at h
          | some z =>
            obtain ⟨j, r⟩ := z
            simp only [hc, Option.map_some, Option.some.injEq, Prod.mk.injEq] at h
            obtain ⟨rfl, rfl⟩ := h
            obtain ⟨e, hn⟩ := cut_some hc
            have h6' : (d.take 6).length = 6 := by rw [List.length_take]; omega
            have hj : ∃ j', j = 0x20 :: j' := by
              cases j with
              | nil => simp [crlfW] at e
              | cons w j' =>
                simp only [List.cons_append, List.cons.injEq] at e
                exact ⟨j', by rw [← e.1]⟩
            obtain ⟨j', rfl⟩ := hj
            refine ⟨d.take 6 ++ (f.text ++ (0x20 :: (src ++ (0x20 :: (j' ++ crlfW))))), r, ?_, ?_, .tcp _ f src j' a h6' hnot hcv (noEnd_cons.mp hn).2⟩
            · conv => lhs; rw [← List.take_append_drop 6 d, ← hl, hsplit, e]
              simp only [List.append_assoc, List.cons_append, List.nil_append]
            · have : f.text.length = 4 := by cases f <;> rfl
              simp only [List.length_append, h6', crlfW, List.length_cons, List.length_nil, this]
              omega
      · simp at h
    · simp at h

theorem pure_complete {conv : Bytes → Option Sockaddr} {head : Bytes} {addr : Option Sockaddr} (h : Accepted conv head addr) (rest : Bytes) :
    pureParse conv (head ++ rest) = some (addr, head.length) := by
  cases h with
  | unknown six more h6 hm =>
    have hd6 : (six ++ unknownW ++ more ++ crlfW ++ rest).drop 6 = unknownW ++ (more ++ crlfW ++ rest) := by
      simp only [List.append_assoc]; exact List.drop_left' h6
    have hd13 : (six ++ unknownW ++ more ++ crlfW ++ rest).drop 13 = more ++ crlfW ++ rest := by
      rw [List.append_assoc, List.append_assoc (six ++ unknownW), List.append_assoc more]
      have : (six ++ unknownW).length = 13 := by rw [List.length_append, h6]; rfl
      exact List.drop_left' this
    unfold pureParse
    rw [hd6, hd13, cut_app _ _ hm]
    have : unknownW.isPrefixOf (unknownW ++ (more ++ crlfW ++ rest)) = true := List.isPrefixOf_iff_prefix.mpr (List.prefix_append _ _)
    rw [if_pos this]
    simp only [Option.map_some, List.length_append, h6, unknownW, crlfW, List.length_cons, List.length_nil]
  | tcp six f src more a h6 hs ha hm =>
    have hsrc : ∀ t : Bytes, (src ++ 0x20 :: t).takeWhile (· != 0x20) = src := by
      intro t
      rw [List.takeWhile_append_of_pos]
      · simp
      · intro x hx
        simp only [bne_iff_ne, ne_eq]
        intro hc
        exact hs (hc ▸ hx)
    have e : six ++ (f.text ++ (0x20 :: (src ++ (0x20 :: (more ++ crlfW))))) ++ rest = six ++ ((f.text ++ [0x20]) ++ (src ++ 0x20 :: (more ++ crlfW ++ rest))) := by
      simp only [List.append_assoc, List.cons_append, List.nil_append]
    have hfl : (f.text ++ [0x20]).length = 5 := by cases f <;> rfl
    have hd6 : (six ++ ((f.text ++ [0x20]) ++ (src ++ 0x20 :: (more ++ crlfW ++ rest)))).drop 6 = (f.text ++ [0x20]) ++ (src ++ 0x20 :: (more ++ crlfW ++ rest)) := List.drop_left' h6
    have hd11 : (six ++ ((f.text ++ [0x20]) ++ (src ++ 0x20 :: (more ++ crlfW ++ rest)))).drop 11 = src ++ 0x20 :: (more ++ crlfW ++ rest) := by
      rw [← List.append_assoc]; exact List.drop_left' (by rw [List.length_append, h6, hfl])
    have hnu : unknownW.isPrefixOf ((f.text ++ [0x20]) ++ (src ++ 0x20 :: (more ++ crlfW ++ rest))) = false := by cases f <;> rfl
    have hyes : (Family.text .tcp4 ++ [0x20]).isPrefixOf ((f.text ++ [0x20]) ++ (src ++ 0x20 :: (more ++ crlfW ++ rest))) = true ∨
        (Family.text .tcp6 ++ [0x20]).isPrefixOf ((f.text ++ [0x20]) ++ (src ++ 0x20 :: (more ++ crlfW ++ rest))) = true := by
      cases f
      · exact .inl (List.isPrefixOf_iff_prefix.mpr (List.prefix_append _ _))
      · exact .inr (List.isPrefixOf_iff_prefix.mpr (List.prefix_append _ _))
    rw [e]
    unfold pureParse
    rw [hd6, hd11, hnu]
    have hcut : cut (0x20 :: (more ++ crlfW ++ rest)) = some (0x20 :: more, rest) := by
      have := cut_app rest (0x20 :: more) (noEnd_cons.mpr ⟨by simp [crlfW], hm⟩)
      simpa using this
    have hdr : (src ++ 0x20 :: (more ++ crlfW ++ rest)).drop src.length = 0x20 :: (more ++ crlfW ++ rest) := List.drop_left' rfl
    simp only [Bool.false_eq_true, ↓reduceIte, hyes, hsrc, List.mem_append, List.mem_cons, true_or, or_true, ha, Option.bind_some, hdr, hcut, Option.map_some]
    have : f.text.length = 4 := by cases f <;> rfl
    simp only [List.length_append, h6, crlfW, List.length_cons, List.length_nil, this]
    congr 2
    omega

end Verif.Proxy
