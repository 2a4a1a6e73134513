import Verif.Client.BodySpec
/-! The parser of chunks, one byte at a time. -/
namespace Verif.Client

inductive Fin where
  | run (c : Ck)
  | done
  | err
  deriving DecidableEq

/-- The data in a string of bytes and where the parser is behind it. -/
def feed (c : Ck) : Bytes → Bytes × Fin
  | [] => ([], .run c)
  | ch :: t =>
    if c.st = .data ∧ c.size ≠ 0 then
      let r := feed ⟨.data, c.size - 1⟩ t
      (ch :: r.1, r.2)
    else
      match ckStep (if c.st = .data then ⟨.after, 0⟩ else c) ch with
      | .go c' => if c'.size > maxOff - 5 then ([], .err) else feed c' t
      | .data => ([], .err)
      | .done => ([], .done)
      | .err => ([], .err)

/-- Two strings one after the other. -/
def Fin.andThen (r : Bytes × Fin) (b : Bytes) : Bytes × Fin :=
  match r.2 with
  | .run c => (r.1 ++ (feed c b).1, (feed c b).2)
  | _ => r

theorem feed_append : ∀ (a : Bytes) (c : Ck) (b : Bytes), feed c (a ++ b) = Fin.andThen (feed c a) b
  | [], c, b => by simp [feed, Fin.andThen]
  | ch :: t, c, b => by
    rw [List.cons_append]
    unfold feed
    split
    · rw [feed_append t]
      simp only [Fin.andThen]
      split <;> simp_all
    · split
      · split
        · rfl
        · exact feed_append t _ b
      · rfl
      · rfl
      · rfl

/-- States between calls. -/
structure CInv (c : Ck) : Prop where
  hmax : c.size ≤ maxOff - 5
  hpos : c.st = .ext ∨ c.st = .extDone → c.size ≠ 0
  hzero : c.size ≠ 0 → c.st = .size ∨ c.st = .ext ∨ c.st = .extDone ∨ c.st = .data

/-- Greater sizes. -/
structure Big (c : Ck) : Prop where
  hmax : c.size > maxOff - 5
  hst : c.st = .size ∨ c.st = .ext ∨ c.st = .extDone ∨ c.st = .data

theorem big_err : ∀ (b : Bytes) {c : Ck}, Big c → ckLoop c b = .err
  | [], c, h => by unfold ckLoop; rw [if_pos h.hmax]
  | ch :: t, ⟨st, size⟩, h => by
    have hm := h.hmax
    dsimp only at hm
    unfold ckLoop
    rcases h.hst with e | e | e | e
    · dsimp only at e; subst e
      have : size > maxOff / 16 := by have : maxOff / 16 ≤ maxOff - 5 := by decide
                                      omega
      simp only [ckStep, if_pos this]
    · dsimp only at e; subst e
      simp only [ckStep]
      split
      · rename_i c' e
        have hb : Big c' := by
          split at e
          · cases e; exact ⟨hm, .inr (.inr (.inl rfl))⟩
          · split at e
            · cases e; exact ⟨hm, .inr (.inr (.inr rfl))⟩
            · cases e; exact ⟨hm, .inr (.inl rfl)⟩
        exact big_err t hb
      · rw [if_pos hm]
      · rename_i e
        split at e
        · cases e
        · split at e <;> cases e
      · rfl
    · dsimp only at e; subst e
      simp only [ckStep]
      split
      · rename_i c' e
        split at e
        · cases e; exact big_err t ⟨hm, .inr (.inr (.inr rfl))⟩
        · cases e
      · rw [if_pos hm]
      · rename_i e
        split at e <;> cases e
      · rfl
    · dsimp only at e; subst e
      simp only [ckStep]
      rw [if_pos hm]

/-- A byte that does not end the framing. -/
theorem step_go {c c' : Ck} {ch : UInt8} (hp : c.st = .ext ∨ c.st = .extDone → c.size ≠ 0) (hz : c.size ≠ 0 → c.st = .size ∨ c.st = .ext ∨ c.st = .extDone ∨ c.st = .data)
    (h : ckStep c ch = .go c') : (c'.st = .ext ∨ c'.st = .extDone ∨ c'.st = .data → c'.size ≠ 0) ∧ (c'.size ≠ 0 → c'.st = .size ∨ c'.st = .ext ∨ c'.st = .extDone ∨ c'.st = .data) := by
  obtain ⟨st, size⟩ := c
  unfold ckStep at h
  dsimp only at h hp hz
  cases st <;> dsimp only at h
  case start =>
    split at h
    · cases h; exact ⟨fun h => by simp at h, fun _ => .inl rfl⟩
    · cases h
  case size =>
    split at h
    · cases h
    · split at h
      · cases h; exact ⟨fun h => by simp at h, fun _ => .inl rfl⟩
      · split at h
        · rename_i h0
          subst h0
          split at h
          · cases h; exact ⟨fun h => by simp at h, fun h => absurd rfl h⟩
          · split at h
            · cases h; exact ⟨fun h => by simp at h, fun h => absurd rfl h⟩
            · split at h
              · cases h; exact ⟨fun h => by simp at h, fun h => absurd rfl h⟩
              · cases h
        · rename_i h0
          split at h
          · cases h; exact ⟨fun _ => h0, fun _ => .inr (.inr (.inl rfl))⟩
          · split at h
            · cases h; exact ⟨fun _ => h0, fun _ => .inr (.inr (.inr rfl))⟩
            · split at h
              · cases h; exact ⟨fun _ => h0, fun _ => .inr (.inl rfl)⟩
              · cases h
  case ext =>
    have h0 := hp (.inl rfl)
    split at h
    · cases h; exact ⟨fun _ => h0, fun _ => .inr (.inr (.inl rfl))⟩
    · split at h
      · cases h; exact ⟨fun _ => h0, fun _ => .inr (.inr (.inr rfl))⟩
      · cases h; exact ⟨fun _ => h0, fun _ => .inr (.inl rfl)⟩
  case extDone =>
    have h0 := hp (.inr rfl)
    split at h
    · cases h; exact ⟨fun _ => h0, fun _ => .inr (.inr (.inr rfl))⟩
    · cases h
  case data => cases h
  all_goals
    have h0 : size = 0 := by
      by_cases e : size = 0
      · exact e
      · have := hz e; simp at this
    subst h0
    split at h
    · cases h <;> exact ⟨fun h => by simp at h, fun h => absurd rfl h⟩
    · first
      | (cases h; done)
      | (split at h
         · cases h <;> exact ⟨fun h => by simp at h, fun h => absurd rfl h⟩
         · cases h <;> exact ⟨fun h => by simp at h, fun h => absurd rfl h⟩)

theorem step_data {c : Ck} {ch : UInt8} (h : ckStep c ch = .data) : c.st = .data := by
  obtain ⟨st, size⟩ := c
  unfold ckStep at h
  dsimp only at h
  cases st <;> dsimp only at h ⊢
  case start => split at h <;> cases h
  case size =>
    split at h
    · cases h
    · split at h
      · cases h
      · split at h <;> (split at h; · cases h
                        · split at h
                          · cases h
                          · split at h <;> cases h)
  all_goals
    first
    | rfl
    | (split at h
       · cases h
       · first
         | (cases h; done)
         | (split at h <;> cases h))

/-- The result of the loop, when it does not begin inside a chunk. -/
theorem loop_spec : ∀ (b : Bytes) {c : Ck}, CInv c → (c.st = .data → c.size ≠ 0) →
    match ckLoop c b with
    | .again c' => feed c b = ([], .run c') ∧ CInv c'
    | .ok rest c' => c'.st = .data ∧ c'.size ≠ 0 ∧ CInv c' ∧ rest ≠ [] ∧ ∃ pre, b = pre ++ rest ∧ feed c pre = ([], .run c')
    | .done rest => ∃ pre, b = pre ++ rest ∧ pre ≠ [] ∧ feed c pre = ([], .done)
    | .err => feed c b = ([], .err)
  | [], c, h, _ => by
    unfold ckLoop
    rw [if_neg (by have := h.hmax; omega)]
    exact ⟨rfl, h⟩
  | ch :: t, c, h, hd => by
    unfold ckLoop
    by_cases hc : c.st = .data
    · have e : ckStep c ch = .data := by unfold ckStep; rw [hc]
      rw [e]
      dsimp only
      rw [if_neg (by have := h.hmax; omega)]
      exact ⟨hc, hd hc, h, by simp, [], rfl, rfl⟩
    · have hf : ∀ l, feed c (ch :: l) = (match ckStep c ch with
          | .go c' => if c'.size > maxOff - 5 then ([], .err) else feed c' l
          | .data => ([], .err)
          | .done => ([], .done)
          | .err => ([], .err)) := fun l => by
        conv => lhs; unfold feed
        rw [if_neg (fun e => hc e.1), if_neg hc]
      cases e : ckStep c ch with
      | go c' =>
        dsimp only
        obtain ⟨g1, g2⟩ := step_go h.hpos h.hzero e
        by_cases hb : c'.size > maxOff - 5
        · have hbig : ckLoop c' t = .err := by
            refine big_err t ⟨hb, g2 (by omega)⟩
          rw [hbig]
          dsimp only
          rw [hf, e]
          dsimp only
          rw [if_pos hb]
        · have ih := loop_spec t (c := c') ⟨by omega, fun hx => g1 (hx.elim .inl (fun y => .inr (.inl y))), g2⟩ (fun hx => g1 (.inr (.inr hx)))
          have hf' : ∀ l, feed c (ch :: l) = feed c' l := fun l => by
            rw [hf, e]
            dsimp only
            rw [if_neg hb]
          split
          · rename_i e1
            rw [e1] at ih
            rw [hf']; exact ih
          · rename_i e1
            rw [e1] at ih
            obtain ⟨i1, i2, i3, i4, pre, i5, i6⟩ := ih
            exact ⟨i1, i2, i3, i4, ch :: pre, by rw [i5]; rfl, by rw [hf']; exact i6⟩
          · rename_i e1
            rw [e1] at ih
            obtain ⟨pre, i5, i6, i7⟩ := ih
            exact ⟨ch :: pre, by rw [i5]; rfl, by simp, by rw [hf']; exact i7⟩
          · rename_i e1
            rw [e1] at ih
            rw [hf']; exact ih
      | data => exact absurd (step_data e) hc
      | done =>
        dsimp only
        exact ⟨[ch], rfl, by simp, by rw [hf, e]⟩
      | err =>
        dsimp only
        rw [hf, e]

theorem parse_spec (b : Bytes) {c : Ck} (h : CInv c) :
    match ckParse c b with
    | .again c' => ∃ c'', feed c b = ([], .run c'') ∧ (c' = c'' ∨ (b = [] ∧ c.st = .data ∧ c.size = 0 ∧ c' = ⟨.after, 0⟩)) ∧ CInv c'
    | .ok rest c' => c'.st = .data ∧ c'.size ≠ 0 ∧ CInv c' ∧ rest ≠ [] ∧ ∃ pre, b = pre ++ rest ∧ feed c pre = ([], .run c')
    | .done rest => ∃ pre, b = pre ++ rest ∧ pre ≠ [] ∧ feed c pre = ([], .done)
    | .err => feed c b = ([], .err) := by
  by_cases hc : c.st = .data ∧ c.size = 0
  · have hi : CInv ⟨.after, 0⟩ := ⟨by decide, fun h => by simp at h, fun h => absurd rfl h⟩
    have hl := loop_spec b hi (fun h => by cases h)
    have hf : ∀ l, l ≠ [] → feed c l = feed ⟨.after, 0⟩ l := fun l hl => by
      cases l with
      | nil => exact absurd rfl hl
      | cons ch t =>
        unfold feed
        rw [if_neg (fun e => e.2 hc.2), if_pos hc.1, if_neg (fun e => e.2 rfl), if_neg (by simp)]
    unfold ckParse
    rw [if_pos hc]
    cases b with
    | nil =>
      have : ckLoop ⟨.after, 0⟩ [] = .again ⟨.after, 0⟩ := by decide
      rw [this]
      exact ⟨c, rfl, .inr ⟨rfl, hc.1, hc.2, rfl⟩, hi⟩
    | cons ch t =>
      split
      · rename_i e
        rw [e] at hl
        exact ⟨_, by rw [hf _ (by simp)]; exact hl.1, .inl rfl, hl.2⟩
      · rename_i e
        rw [e] at hl
        obtain ⟨i1, i2, i3, i4, pre, i5, i6⟩ := hl
        refine ⟨i1, i2, i3, i4, pre, i5, ?_⟩
        rw [hf pre ?_]; exact i6
        intro e0; subst e0
        simp only [feed] at i6
        injection i6 with _ i7
        injection i7 with i8
        rw [← i8] at i1; cases i1
      · rename_i e
        rw [e] at hl
        obtain ⟨pre, i5, i6, i7⟩ := hl
        exact ⟨pre, i5, i6, by rw [hf pre i6]; exact i7⟩
      · rename_i e
        rw [e] at hl
        rw [hf _ (by simp)]; exact hl
  · have hl := loop_spec b h (fun e e2 => hc ⟨e, e2⟩)
    unfold ckParse
    rw [if_neg hc]
    split
    · rename_i e; rw [e] at hl; exact ⟨_, hl.1, .inl rfl, hl.2⟩
    · rename_i e; rw [e] at hl; exact hl
    · rename_i e; rw [e] at hl; exact hl
    · rename_i e; rw [e] at hl; exact hl

end Verif.Client
