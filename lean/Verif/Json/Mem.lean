import Verif.Json.Text
/-
Printing into the buffer comes to the text. Helper lemmas.
-/
namespace Verif.Json

/-- Not undefined; NULL only when the buffer would grow beyond all bounds -/
def Post (x : Res Buf) (bound : Nat) (Q : Buf → Prop) : Prop :=
  match x with
  | .bad => False
  | .null => intMax < bound
  | .ok q => Q q

theorem Post.bind {x : Res Buf} {f : Buf → Res Buf} {b b' : Nat} {Q Q' : Buf → Prop} (h : Post x b Q) (hb : b ≤ b') (hf : ∀ q, Q q → Post (f q) b' Q') : Post (x.bind f) b' Q' := by
  cases x with
  | bad => exact h
  | null => exact Nat.lt_of_lt_of_le h hb
  | ok q => exact hf q h

theorem Post.mono {x : Res Buf} {b b' : Nat} {Q Q' : Buf → Prop} (h : Post x b Q) (hb : b ≤ b') (hf : ∀ q, Q q → Q' q) : Post x b' Q' := by
  cases x with
  | bad => exact h
  | null => exact Nat.lt_of_lt_of_le h hb
  | ok q => exact hf q h

/-- The buffer begins with these bytes. -/
def Pre (p : Buf) (t : Bytes) : Prop := ∀ k b, t[k]? = some b → p.mem k = b

/-- The next byte goes behind the text. -/
structure At (fmt : Bool) (d : Nat) (t : Bytes) (p : Buf) : Prop where
  off : p.offset = t.length
  pre : Pre p t
  room : t.length < p.length
  fmt : p.format = fmt
  depth : p.depth = d
  clean : ∀ b ∈ t, b ≠ 0

/-- The same, with room for so many bytes -/
structure Room (fmt : Bool) (d : Nat) (t : Bytes) (n : Nat) (p : Buf) : Prop where
  at' : At fmt d t p
  fits : t.length + n < p.length

/-- The text is there, with a zero behind it. -/
structure Done (fmt : Bool) (d : Nat) (t : Bytes) (p : Buf) : Prop where
  off : p.offset ≤ t.length
  pre : Pre p t
  zero : p.mem t.length = 0
  room : t.length < p.length
  fmt : p.format = fmt
  depth : p.depth = d
  clean : ∀ b ∈ t, b ≠ 0

theorem ensure_post {fmt : Bool} {d : Nat} {t : Bytes} {p : Buf} (h : At fmt d t p) (n : Nat) : Post (ensure p n) (t.length + n + 1) (Room fmt d t n) := by
  unfold ensure
  have h1 := h.off
  have h2 := h.room
  rw [if_neg (by omega)]
  split
  · show intMax < _; omega
  · simp only
    split
    · exact ⟨h, by omega⟩
    · split
      · split
        · exact ⟨⟨h1, h.pre, by show _ < intMax; omega, h.fmt, h.depth, h.clean⟩, by show _ < intMax; omega⟩
        · show intMax < _; omega
      · exact ⟨⟨h1, h.pre, by show _ < (_ : Nat) * 2; omega, h.fmt, h.depth, h.clean⟩, by show _ < (_ : Nat) * 2; omega⟩

theorem patch_pre {p : Buf} {t l : Bytes} (h : Pre p t) : Pre { p with mem := patch p.mem t.length l } (t ++ l) := by
  intro k b hk
  show patch p.mem t.length l k = b
  unfold patch
  by_cases hlt : k < t.length
  · rw [List.getElem?_append_left hlt] at hk
    rw [if_neg (by omega), h k b hk]
  · rw [List.getElem?_append_right (by omega)] at hk
    rw [if_pos (by omega), hk]
    rfl

/-- Writing without a zero -/
theorem write_at {fmt : Bool} {d d' : Nat} {t l : Bytes} {n k : Nat} {p : Buf} (h : Room fmt d t n p) (hl : l.length ≤ n) (hk : k = l.length) (hz : ∀ b ∈ l, b ≠ 0) (b : Nat)
    {f : Buf → Res Buf} {Q : Buf → Prop} (hf : ∀ q : Buf, At fmt d' (t ++ l) q → Post (f q) b Q) :
    Post ((write p p.offset l).bind fun q => f { q with offset := q.offset + k, depth := d' }) b Q := by
  have h1 := h.at'.off
  have h2 := h.fits
  unfold write
  rw [if_pos (by omega)]
  refine hf _ ⟨by simp [h1, hk], ?_, by simp only [List.length_append]; omega, h.at'.fmt, rfl, ?_⟩
  · rw [h1]; exact patch_pre h.at'.pre
  · intro c hc
    rcases List.mem_append.1 hc with hc | hc
    · exact h.at'.clean c hc
    · exact hz c hc

/-- Writing with a zero -/
theorem write_done2 {fmt : Bool} {d : Nat} {t l : Bytes} {n : Nat} {p : Buf} (h : Room fmt d t n p) (hl : l.length ≤ n) (hz : ∀ b ∈ l, b ≠ 0) (b : Nat) :
    Post (write p p.offset (l ++ [0])) b fun q => Done fmt d (t ++ l) q ∧ q.offset = t.length := by
  have h1 := h.at'.off
  have h2 := h.fits
  unfold write
  rw [if_pos (by simp only [List.length_append, List.length_cons, List.length_nil]; omega)]
  have hp := patch_pre (l := l ++ [0]) h.at'.pre
  refine ⟨⟨by simp only [List.length_append]; omega, ?_, ?_, by simp only [List.length_append]; omega, h.at'.fmt, h.at'.depth, ?_⟩, h1⟩
  · rw [h1]
    intro k c hk
    refine hp k c ?_
    have hlt : k < (t ++ l).length := by
      rcases List.getElem?_eq_some_iff.1 hk with ⟨hh, -⟩; exact hh
    rw [← List.append_assoc, List.getElem?_append_left hlt, hk]
  · rw [h1]
    refine hp _ 0 ?_
    rw [← List.append_assoc, List.getElem?_append_right (Nat.le_refl _), Nat.sub_self]
    rfl
  · intro c hc
    rcases List.mem_append.1 hc with hc | hc
    · exact h.at'.clean c hc
    · exact hz c hc

theorem write_done {fmt : Bool} {d : Nat} {t l : Bytes} {n : Nat} {p : Buf} (h : Room fmt d t n p) (hl : l.length ≤ n) (hz : ∀ b ∈ l, b ≠ 0) (b : Nat) :
    Post (write p p.offset (l ++ [0])) b (Done fmt d (t ++ l)) := (write_done2 h hl hz b).mono (Nat.le_refl _) fun _ h => h.1

/-- The zero is there, and the next byte goes where it is. -/
theorem Done.move {fmt : Bool} {d d' : Nat} {t l : Bytes} {q : Buf} (h : Done fmt d (t ++ l) q ∧ q.offset = t.length) :
    At fmt d' (t ++ l) { q with offset := q.offset + l.length, depth := d' } :=
  ⟨by simp [h.2], h.1.pre, h.1.room, h.1.fmt, rfl, h.1.clean⟩

theorem find_first {P : Nat → Bool} {n m : Nat} (hm : m < n) (hP : P m = true) (hlt : ∀ k < m, P k = false) : (List.range n).find? P = some m := by
  rw [List.find?_eq_some_iff_append]
  refine ⟨hP, List.range m, (List.range n).drop (m + 1), ?_, ?_⟩
  · rw [show m :: List.drop (m + 1) (List.range n) = List.drop m (List.range n) from by
      rw [List.drop_eq_getElem_cons (i := m) (by simpa using hm)]; simp]
    conv => lhs; rw [← List.take_append_drop m (List.range n)]
    rw [List.take_range, Nat.min_eq_left (by omega)]
  · intro k hk
    rw [hlt k (List.mem_range.1 hk)]
    rfl

theorem update_done {fmt : Bool} {d : Nat} {t : Bytes} {p : Buf} (h : Done fmt d t p) (b : Nat) : Post (updateOffset p) b (At fmt d t) := by
  have h1 := h.off
  have h2 := h.room
  have hf := find_first (P := fun k => p.mem (p.offset + k) == 0) (n := p.length - p.offset) (m := t.length - p.offset) (by omega)
    (by simp only [show p.offset + (t.length - p.offset) = t.length from by omega, h.zero]; rfl)
    (fun k hk => by
      have hlt : p.offset + k < t.length := by omega
      have := h.pre (p.offset + k) t[p.offset + k] (List.getElem?_eq_getElem hlt)
      rw [this]
      simpa using h.clean _ (List.getElem_mem hlt))
  unfold updateOffset
  rw [hf]
  exact ⟨by show p.offset + _ = _; omega, h.pre, h2, h.fmt, h.depth, h.clean⟩

/-! Strings -/

theorem extra_esc (b : UInt8) : (escOf b).length = 1 + extra b := by
  have := byteAll (P := fun b => decide ((escOf b).length = 1 + extra b)) (by decide +kernel) b
  exact of_decide_eq_true this

theorem esc_plain (b : UInt8) (h : extra b = 0) : escOf b = [b] := by
  have := byteAll (P := fun b => decide (extra b = 0 → escOf b = [b])) (by decide +kernel) b
  exact of_decide_eq_true this h

theorem esc_clean (b : UInt8) (h : b ≠ 0) : ∀ c ∈ escOf b, c ≠ 0 := by
  have := byteAll (P := fun b => decide (b ≠ 0 → ∀ c ∈ escOf b, c ≠ 0)) (by decide +kernel) b
  exact of_decide_eq_true this h

theorem flat_length : ∀ (s : Bytes), (s.flatMap escOf).length = s.length + (s.map extra).sum
  | [] => rfl
  | b :: s => by
    rw [List.flatMap_cons, List.length_append, flat_length s, extra_esc]
    simp only [List.length_cons, List.map_cons, List.sum_cons]
    omega

theorem flat_plain : ∀ (s : Bytes), (s.map extra).sum = 0 → s.flatMap escOf = s
  | [], _ => rfl
  | b :: s, h => by
    simp only [List.map_cons, List.sum_cons, Nat.add_eq_zero_iff] at h
    rw [List.flatMap_cons, esc_plain b h.1, flat_plain s h.2]
    rfl

theorem flat_clean {s : Bytes} (h : ∀ b ∈ s, b ≠ 0) : ∀ c ∈ s.flatMap escOf, c ≠ 0 := by
  intro c hc
  obtain ⟨b, hb, hc⟩ := List.mem_flatMap.1 hc
  exact esc_clean b (h b hb) c hc

theorem write_pre {p : Buf} {t l m : Bytes} {at' : Nat} (h : Pre p t) (hi : at' = t.length) (hl : t.length + (l ++ m).length ≤ p.length) :
    ∃ q, write p at' (l ++ m) = .ok q ∧ Pre q (t ++ l) ∧ q.offset = p.offset ∧ q.length = p.length ∧ q.depth = p.depth ∧ q.format = p.format := by
  unfold write
  rw [if_pos (by omega)]
  refine ⟨_, rfl, ?_, rfl, rfl, rfl, rfl⟩
  rw [hi]
  have hp := patch_pre (l := l ++ m) h
  intro k c hk
  refine hp k c ?_
  have hlt : k < (t ++ l).length := by
    rcases List.getElem?_eq_some_iff.1 hk with ⟨hh, -⟩; exact hh
  rw [← List.append_assoc, List.getElem?_append_left hlt, hk]

theorem copyLoop_ok : ∀ (s : Bytes) (p : Buf) (t : Bytes), Pre p t → t.length + (s.flatMap escOf).length < p.length →
    ∃ q, copyLoop p t.length s = .ok q ∧ Pre q (t ++ s.flatMap escOf) ∧ q.offset = p.offset ∧ q.length = p.length ∧ q.depth = p.depth ∧ q.format = p.format
  | [], p, t, h, _ => ⟨p, rfl, by simpa using h, rfl, rfl, rfl, rfl⟩
  | b :: s, p, t, h, hl => by
    rw [List.flatMap_cons, List.length_append] at hl
    have step : ∀ (m : Bytes) (n : Nat), n = (escOf b).length → m.length ≤ 1 → ∃ q, ((write p t.length (escOf b ++ m)).bind fun p => copyLoop p (t.length + n) s) = .ok q ∧
        Pre q (t ++ (b :: s).flatMap escOf) ∧ q.offset = p.offset ∧ q.length = p.length ∧ q.depth = p.depth ∧ q.format = p.format := by
      intro m n hn hm
      obtain ⟨q, e, h1, h2, h3, h4, h5⟩ := write_pre (m := m) (l := escOf b) h rfl (by simp only [List.length_append]; omega)
      obtain ⟨q', e', h1', h2', h3', h4', h5'⟩ := copyLoop_ok s q (t ++ escOf b) h1 (by simp only [List.length_append]; omega)
      refine ⟨q', ?_, by rw [List.flatMap_cons, ← List.append_assoc]; exact h1', by rw [h2', h2], by rw [h3', h3], by rw [h4', h4], by rw [h5', h5]⟩
      rw [e]
      show copyLoop q (t.length + n) s = _
      rw [hn, ← List.length_append, e']
    unfold copyLoop
    by_cases hc : 31 < b ∧ b ≠ 0x22 ∧ b ≠ 0x5c
    · rw [if_pos hc]
      have e : escOf b = [b] := by unfold escOf; rw [if_pos hc]
      have := step [] 1 (by rw [e]; rfl) (by simp)
      rw [e] at this
      exact this
    · rw [if_neg hc]
      cases hs : short b with
      | some c =>
        have e : escOf b = [0x5c, c] := by unfold escOf; rw [if_neg hc, hs]
        have := step [] 2 (by rw [e]; rfl) (by simp)
        rw [e] at this
        exact this
      | none =>
        have e : escOf b = 0x5c :: uText b := by unfold escOf; rw [if_neg hc, hs]
        have := step [0] 6 (by rw [e]; rfl) (by simp)
        rw [e] at this
        exact this

theorem strText_clean (s : Bytes) : ∀ b ∈ strText s, b ≠ 0 := by
  intro b hb
  simp only [strText, List.mem_append, List.mem_cons, List.not_mem_nil, or_false] at hb
  rcases hb with (rfl | hb) | rfl
  · decide
  · exact flat_clean (cstr_nonzero s) b hb
  · decide

theorem strText_length (s : Bytes) : (strText s).length = (cstr s).length + ((cstr s).map extra).sum + 2 := by
  simp only [strText, List.length_append, List.length_cons, List.length_nil, flat_length]

theorem printStr_post {fmt : Bool} {d : Nat} {t : Bytes} {p : Buf} (h : At fmt d t p) (s : Bytes) : Post (printStr p s) ((t ++ strText s).length + 2) (Done fmt d (t ++ strText s)) := by
  unfold printStr
  have hlen := strText_length s
  refine (ensure_post h _).bind (by simp only [List.length_append]; omega) fun q hq => ?_
  by_cases he : ((cstr s).map extra).sum = 0
  · simp only [he]
    have e : strText s = 0x22 :: cstr s ++ [0x22] := by rw [strText, flat_plain _ he]
    rw [if_pos trivial, show 0x22 :: cstr s ++ [0x22, 0] = strText s ++ [0] from by rw [e]; simp]
    exact write_done hq (by omega) (strText_clean s) _
  · rw [if_neg he]
    have h1 := hq.at'.off
    have h2 := hq.fits
    obtain ⟨q1, e1, p1, o1, l1, d1, f1⟩ := write_pre (at' := q.offset) (l := [0x22]) (m := []) hq.at'.pre h1 (by simp only [List.length_append, List.length_cons, List.length_nil]; omega)
    rw [List.append_nil] at e1
    rw [e1]
    show Post ((copyLoop q1 (q1.offset + 1) (cstr s)).bind _) _ _
    have hfl := flat_length (cstr s)
    obtain ⟨q2, e2, p2, o2, l2, d2, f2⟩ := copyLoop_ok (cstr s) q1 (t ++ [0x22]) p1 (by simp only [List.length_append, List.length_cons, List.length_nil]; omega)
    rw [show q1.offset + 1 = (t ++ [0x22]).length from by simp only [List.length_append, List.length_cons, List.length_nil]; omega, e2]
    show Post (write q2 _ [0x22, 0]) _ _
    rw [show q2.offset + ((cstr s).length + ((cstr s).map extra).sum) + 1 = (t ++ [0x22] ++ (cstr s).flatMap escOf).length from by
      simp only [List.length_append, List.length_cons, List.length_nil]; omega]
    have e : t ++ strText s = t ++ [0x22] ++ (cstr s).flatMap escOf ++ [0x22] := by simp [strText]
    have hp := patch_pre (l := [0x22, 0]) p2
    unfold write
    have hl : (t ++ [0x22] ++ (cstr s).flatMap escOf).length = t.length + 1 + ((cstr s).length + ((cstr s).map extra).sum) := by
      simp only [List.length_append, List.length_cons, List.length_nil]; omega
    rw [if_pos (by rw [hl]; simp only [List.length_cons, List.length_nil]; omega)]
    refine ⟨?_, ?_, ?_, ?_, by show q2.format = _; rw [f2, f1, hq.at'.fmt], by show q2.depth = _; rw [d2, d1, hq.at'.depth], ?_⟩
    · show q2.offset ≤ _
      simp only [List.length_append]; omega
    · intro k c hk
      refine hp k c ?_
      have hlt : k < (t ++ strText s).length := by
        rcases List.getElem?_eq_some_iff.1 hk with ⟨hh, -⟩; exact hh
      rw [e] at hk hlt
      rw [show t ++ [0x22] ++ (cstr s).flatMap escOf ++ [0x22, 0] = (t ++ [0x22] ++ (cstr s).flatMap escOf ++ [0x22]) ++ [0] from by simp, List.getElem?_append_left hlt, hk]
    · refine hp _ 0 ?_
      rw [e, show t ++ [0x22] ++ (cstr s).flatMap escOf ++ [0x22, 0] = (t ++ [0x22] ++ (cstr s).flatMap escOf ++ [0x22]) ++ [0] from by simp,
        List.getElem?_append_right (Nat.le_refl _), Nat.sub_self]
      rfl
    · show _ < q2.length
      simp only [List.length_append]
      omega
    · intro c hc
      rcases List.mem_append.1 hc with hc | hc
      · exact hq.at'.clean c hc
      · exact strText_clean s c hc

/-! Numbers -/

theorem decGo_length : ∀ (k f n : Nat), n < 10 ^ (k + 1) → (decGo f n).length ≤ k + 1
  | _, 0, _, _ => by simp [decGo]
  | 0, f + 1, n, h => by
    rw [decGo, if_pos (by simpa using h)]; simp
  | k + 1, f + 1, n, h => by
    rw [decGo]
    split
    · simp
    · have := decGo_length k f (n / 10) (by rw [Nat.pow_succ] at h; omega)
      simp only [List.length_append, List.length_cons, List.length_nil]
      omega

theorem decGo_clean : ∀ (f n : Nat), ∀ b ∈ decGo f n, b ≠ 0
  | 0, _, b, hb => by simp [decGo] at hb
  | f + 1, n, b, hb => by
    have key : ∀ m, m < 10 → UInt8.ofNat (48 + m) ≠ 0 := by decide
    rw [decGo] at hb
    split at hb
    · rename_i h
      rw [List.mem_singleton] at hb
      rw [hb]; exact key n h
    · rcases List.mem_append.1 hb with hb | hb
      · exact decGo_clean f _ b hb
      · rw [List.mem_singleton] at hb
        rw [hb]; exact key _ (by omega)

/-- Texts of large numbers fit into the buffer of `print_number`. -/
def BigOk (big : Int → Bytes) : Prop := ∀ n, (big n).length ≤ 25 ∧ ∀ b ∈ big n, b ≠ 0

theorem numText_ok {big : Int → Bytes} (hb : BigOk big) (n : Int) : (numText big n).length ≤ 25 ∧ ∀ b ∈ numText big n, b ≠ 0 := by
  unfold numText
  split
  · rename_i h
    have hl := decGo_length 14 (n.natAbs + 1) n.natAbs h
    have hc := decGo_clean (n.natAbs + 1) n.natAbs
    unfold dec
    split
    · refine ⟨by simp only [List.length_cons]; omega, fun b hb => ?_⟩
      rcases List.mem_cons.1 hb with rfl | hb
      · decide
      · exact hc b hb
    · exact ⟨by omega, hc⟩
  · exact hb n

theorem printNum_post {big : Int → Bytes} (hb : BigOk big) {fmt : Bool} {d : Nat} {t : Bytes} {p : Buf} (h : At fmt d t p) (n : Int) :
    Post (printNum big p n) ((t ++ numText big n).length + 2) (Done fmt d (t ++ numText big n)) := by
  obtain ⟨h1, h2⟩ := numText_ok hb n
  unfold printNum
  simp only
  rw [if_neg (by omega)]
  refine (ensure_post h _).bind (by simp only [List.length_append]; omega) fun q hq => ?_
  refine (write_done2 hq (by omega) h2 _).bind (Nat.le_refl _) fun r hr => ?_
  exact ⟨by simp [hr.2], hr.1.pre, hr.1.zero, hr.1.room, hr.1.fmt, hr.1.depth, hr.1.clean⟩

theorem printWord_post {fmt : Bool} {d : Nat} {t w : Bytes} {p : Buf} (h : At fmt d t p) (hw : ∀ b ∈ w, b ≠ 0) : Post (printWord p w) ((t ++ w).length + 2) (Done fmt d (t ++ w)) := by
  unfold printWord
  refine (ensure_post h _).bind (by simp only [List.length_append]; omega) fun q hq => ?_
  exact write_done hq (by omega) hw _

theorem tabs_clean (n : Nat) : ∀ b ∈ tabs n, b ≠ 0 := by
  intro b hb
  rw [List.eq_of_mem_replicate hb]; decide

theorem tabs_length (n : Nat) : (tabs n).length = n := by simp [tabs]

mutual
theorem printVal_post {big : Int → Bytes} (hb : BigOk big) (fmt : Bool) : ∀ (v : Val) (d : Nat) (t : Bytes) (p : Buf), At fmt d t p →
    Post (printVal big v p) ((t ++ text big fmt d v).length + 2) (Done fmt d (t ++ text big fmt d v))
  | .null, d, t, p, h => by
    rw [printVal, text]; exact printWord_post h (by decide)
  | .bool true, d, t, p, h => by
    rw [printVal, text]; exact printWord_post h (by decide)
  | .bool false, d, t, p, h => by
    rw [printVal, text]; exact printWord_post h (by decide)
  | .num n, d, t, p, h => by
    rw [printVal, text]; exact printNum_post hb h n
  | .str s, d, t, p, h => by
    rw [printVal, text]; exact printStr_post h s
  | .arr l, d, t, p, h => by
    rw [printVal, text]
    refine (ensure_post h _).bind (by simp only [List.length_append, List.length_cons]; omega) fun q hq => ?_
    have e1 : t ++ (0x5b :: textItems big fmt (d + 1) l ++ [0x5d]) = t ++ [0x5b] ++ textItems big fmt (d + 1) l ++ [0x5d] := by simp
    rw [e1]
    have := write_at (d' := d + 1) (k := 1) hq (l := [0x5b]) (by simp) rfl (by decide) ((t ++ [0x5b] ++ textItems big fmt (d + 1) l ++ [0x5d]).length + 2)
      (Q := Done fmt d (t ++ [0x5b] ++ textItems big fmt (d + 1) l ++ [0x5d]))
      (f := fun p => (printItems big l p).bind fun p => (ensure p 2).bind fun p => (write p p.offset [0x5d, 0]).bind fun p => .ok { p with depth := p.depth - 1 }) ?_
    · have hd := hq.at'.depth
      revert this
      unfold write
      split
      · simp only [Res.bind, hd]; exact id
      · exact id
    · intro q hq
      refine (printItems_post hb fmt l (d + 1) _ q hq).bind (by simp only [List.length_append]; omega) fun q hq => ?_
      refine (ensure_post hq _).bind (by simp only [List.length_append, List.length_cons, List.length_nil]; omega) fun q hq => ?_
      refine (write_done hq (l := [0x5d]) (by simp) (by decide) _).bind (Nat.le_refl _) fun q hq => ?_
      exact ⟨hq.off, hq.pre, hq.zero, hq.room, hq.fmt, by show q.depth - 1 = d; rw [hq.depth]; omega, hq.clean⟩
  | .obj l, d, t, p, h => by
    rw [printVal, text]
    have hf := h.fmt
    simp only [hf]
    have ho : (open' fmt).length = if fmt then 2 else 1 := by cases fmt <;> rfl
    have hoc : ∀ b ∈ open' fmt, b ≠ 0 := by cases fmt <;> decide
    have hic : ∀ b ∈ ind fmt d, b ≠ 0 := by
      unfold ind
      split
      · exact tabs_clean d
      · simp
    have hil : (ind fmt d).length ≤ if fmt then d else 0 := by cases fmt <;> simp [ind, tabs]
    refine (ensure_post h _).bind (by simp only [List.length_append, List.length_cons, ho]; omega) fun q hq => ?_
    have e1 : t ++ (open' fmt ++ textMembers big fmt (d + 1) l ++ ind fmt d ++ [0x7d]) = t ++ open' fmt ++ textMembers big fmt (d + 1) l ++ (ind fmt d ++ [0x7d]) := by simp
    rw [e1]
    have := write_at (d' := d + 1) (k := if fmt then 2 else 1) hq (l := open' fmt) (by omega) ho.symm hoc ((t ++ open' fmt ++ textMembers big fmt (d + 1) l ++ (ind fmt d ++ [0x7d])).length + 2)
      (Q := Done fmt d (t ++ open' fmt ++ textMembers big fmt (d + 1) l ++ (ind fmt d ++ [0x7d])))
      (f := fun p => (printMembers big l p).bind fun p => (ensure p (if p.format then p.depth + 1 else 2)).bind fun p =>
        (write p p.offset ((if p.format then tabs (p.depth - 1) else []) ++ [0x7d, 0])).bind fun p => .ok { p with depth := p.depth - 1 }) ?_
    · have hd := hq.at'.depth
      have hff := hq.at'.fmt
      simp only [hff] at this ⊢
      revert this
      rw [show (if fmt = true then ([0x7b, 0x0a] : Bytes) else [0x7b]) = open' fmt from rfl]
      unfold write
      split
      · simp only [Res.bind, hd]; exact id
      · exact id
    · intro q hq
      refine (printMembers_post hb fmt l (d + 1) _ q hq).bind (by simp only [List.length_append]; omega) fun q hq => ?_
      simp only [hq.fmt, hq.depth]
      refine (ensure_post hq _).bind (by
        cases fmt <;> simp only [List.length_append, List.length_cons, List.length_nil, ind, tabs_length, if_true] <;> simp <;> omega) fun q hq => ?_
      simp only [hq.at'.fmt, hq.at'.depth]
      rw [show (if fmt = true then tabs (d + 1 - 1) else []) ++ [0x7d, 0] = (ind fmt d ++ [0x7d]) ++ [0] from by
        rw [List.append_assoc]; rfl]
      refine (write_done hq (l := ind fmt d ++ [0x7d]) (by
        cases fmt <;> simp [ind, tabs]) ?_ _).bind (Nat.le_refl _) fun q hq => ?_
      · intro b hb
        rcases List.mem_append.1 hb with hb | hb
        · exact hic b hb
        · rw [List.mem_singleton.1 hb]; decide
      · exact ⟨hq.off, hq.pre, hq.zero, hq.room, hq.fmt, by show q.depth - 1 = d; rw [hq.depth]; omega, hq.clean⟩

theorem printItems_post {big : Int → Bytes} (hb : BigOk big) (fmt : Bool) : ∀ (l : List Val) (d : Nat) (t : Bytes) (p : Buf), At fmt d t p →
    Post (printItems big l p) ((t ++ textItems big fmt d l).length + 2) (At fmt d (t ++ textItems big fmt d l))
  | [], d, t, p, h => by
    rw [printItems, textItems, List.append_nil]; exact h
  | v :: l, d, t, p, h => by
    rw [printItems, textItems]
    have e1 : t ++ (text big fmt d v ++ sep fmt l.isEmpty ++ textItems big fmt d l) = t ++ text big fmt d v ++ sep fmt l.isEmpty ++ textItems big fmt d l := by simp
    rw [e1]
    refine (printVal_post hb fmt v d t p h).bind (by simp only [List.length_append]; omega) fun q hq => ?_
    refine (update_done hq 0).bind (by omega) fun q hq => ?_
    by_cases he : l.isEmpty = true
    · rw [if_pos he]
      rw [show sep fmt l.isEmpty = [] from by rw [he]; rfl, List.append_nil]
      exact printItems_post hb fmt l d _ q hq
    · rw [if_neg he]
      have hs : sep fmt l.isEmpty = if fmt then [0x2c, 0x20] else [0x2c] := by
        unfold sep; rw [if_neg he]
      have hsl : (sep fmt l.isEmpty).length = if fmt then 2 else 1 := by rw [hs]; cases fmt <;> rfl
      have hsc : ∀ b ∈ sep fmt l.isEmpty, b ≠ 0 := by rw [hs]; cases fmt <;> decide
      simp only [hq.fmt]
      refine (ensure_post hq _).bind (by simp only [List.length_append, hsl]; omega) fun q hq => ?_
      simp only [hq.at'.fmt]
      rw [← hs]
      refine (write_done2 hq (l := sep fmt l.isEmpty) (by omega) hsc ((t ++ text big fmt d v ++ sep fmt l.isEmpty ++ textItems big fmt d l).length + 2)).bind (Nat.le_refl _) fun q hq => ?_
      refine printItems_post hb fmt l d _ _ ?_
      have := Done.move (d' := d) hq
      rw [hsl] at this
      rw [show q = { q with depth := d } from by rw [← hq.1.depth]]
      exact this

theorem printMembers_post {big : Int → Bytes} (hb : BigOk big) (fmt : Bool) : ∀ (l : List (Bytes × Val)) (d : Nat) (t : Bytes) (p : Buf), At fmt d t p →
    Post (printMembers big l p) ((t ++ textMembers big fmt d l).length + 2) (At fmt d (t ++ textMembers big fmt d l))
  | [], d, t, p, h => by
    rw [printMembers, textMembers, List.append_nil]; exact h
  | (k, v) :: l, d, t, p, h => by
    rw [printMembers, textMembers]
    have e1 : t ++ (ind fmt d ++ strText k ++ colon fmt ++ text big fmt d v ++ endl fmt l.isEmpty ++ textMembers big fmt d l) =
        t ++ ind fmt d ++ strText k ++ colon fmt ++ text big fmt d v ++ endl fmt l.isEmpty ++ textMembers big fmt d l := by simp
    rw [e1]
    have hk := strText_length k
    generalize hB : (t ++ ind fmt d ++ strText k ++ colon fmt ++ text big fmt d v ++ endl fmt l.isEmpty ++ textMembers big fmt d l).length + 2 = B
    have hB' : t.length + (ind fmt d).length + (strText k).length + (colon fmt).length + (text big fmt d v).length + (endl fmt l.isEmpty).length + (textMembers big fmt d l).length + 2 = B := by
      rw [← hB]; simp only [List.length_append]
    refine Post.bind (b := B) (Q := At fmt d (t ++ ind fmt d)) ?_ (Nat.le_refl _) fun q hq => ?_
    · rw [h.fmt]
      cases fmt with
      | false => rw [if_neg (by decide)]; show At false d (t ++ []) p; rw [List.append_nil]; exact h
      | true =>
        rw [if_pos rfl]
        have hil : (ind true d).length = d := by simp [ind, tabs]
        rw [h.depth]
        refine (ensure_post h _).bind (by omega) fun q hq => ?_
        have := write_at (d' := d) (k := d) hq (l := tabs d) (by rw [tabs_length]; omega) (tabs_length d).symm (tabs_clean d) B (f := fun p => .ok p) (Q := At true d (t ++ ind true d))
          (fun q hq => hq)
        have hd := hq.at'.depth
        revert this
        rw [hd]
        unfold write
        split
        · simp only [Res.bind, hd]; exact id
        · exact id
    refine (printStr_post hq k).bind (by simp only [List.length_append]; omega) fun q hq => ?_
    refine (update_done hq 0).bind (by omega) fun q hq => ?_
    have hcl : (colon fmt).length = if fmt then 2 else 1 := by cases fmt <;> rfl
    have hcc : ∀ b ∈ colon fmt, b ≠ 0 := by cases fmt <;> decide
    simp only [hq.fmt]
    refine (ensure_post hq _).bind (by simp only [List.length_append]; omega) fun q hq => ?_
    simp only [hq.at'.fmt]
    rw [show (if fmt = true then ([0x3a, 0x09] : Bytes) else [0x3a]) = colon fmt from rfl]
    have := write_at (d' := d) (k := if fmt then 2 else 1) hq (l := colon fmt) (by omega) hcl.symm hcc B
      (Q := At fmt d (t ++ ind fmt d ++ strText k ++ colon fmt ++ text big fmt d v ++ endl fmt l.isEmpty ++ textMembers big fmt d l))
      (f := fun p => (printVal big v p).bind fun p => (updateOffset p).bind fun p =>
            let n := (if p.format then 1 else 0) + (if l.isEmpty then 0 else 1)
            (ensure p (n + 1)).bind fun p => (write p p.offset ((if l.isEmpty then [] else [0x2c]) ++ (if p.format then [0x0a] else []) ++ [0])).bind fun p =>
              printMembers big l { p with offset := p.offset + n }) ?_
    · have hd := hq.at'.depth
      have hff := hq.at'.fmt
      revert this
      unfold write
      split
      · simp only [Res.bind, hd, hff]; exact id
      · exact id
    · intro q hq
      refine (printVal_post hb fmt v d _ q hq).bind (by simp only [List.length_append]; omega) fun q hq => ?_
      refine (update_done hq 0).bind (by omega) fun q hq => ?_
      have hel : (endl fmt l.isEmpty).length = (if fmt then 1 else 0) + (if l.isEmpty then 0 else 1) := by
        unfold endl
        cases fmt <;> cases l.isEmpty <;> rfl
      have hec : ∀ b ∈ endl fmt l.isEmpty, b ≠ 0 := by
        unfold endl
        cases fmt <;> cases l.isEmpty <;> decide
      simp only [hq.fmt]
      refine (ensure_post hq _).bind (by simp only [List.length_append]; omega) fun q hq => ?_
      simp only [hq.at'.fmt]
      rw [show (if l.isEmpty = true then [] else [0x2c]) ++ (if fmt = true then [0x0a] else []) = endl fmt l.isEmpty from rfl]
      refine (write_done2 hq (l := endl fmt l.isEmpty) (by omega) hec B).bind (Nat.le_refl _) fun q hq => ?_
      rw [← hB]
      refine printMembers_post hb fmt l d _ _ ?_
      have := Done.move (d' := d) hq
      rw [hel] at this
      rw [show q = { q with depth := d } from by rw [← hq.1.depth]]
      exact this
end

end Verif.Json
