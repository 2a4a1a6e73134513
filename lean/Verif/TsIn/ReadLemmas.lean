import Verif.TsIn.ReadView
/-
Lemmas about chains, heads and PES packets for C69 (`ReadProps`).
-/
namespace Verif.TsIn
open Verif

/-! ### Chains -/

theorem rd_none {n : Nat} {c : List Bytes} : rd n c = none ↔ c.flatten.length < n := by
  induction c generalizing n with
  | nil => simp only [rd, List.flatten_nil, List.length_nil]; split <;> simp <;> omega
  | cons b r ih =>
    simp only [rd, List.flatten_cons, List.length_append]
    split
    · simp; omega
    split
    · simp; omega
    · simp only [Option.map_eq_none_iff, ih]; omega

theorem rd_some {n : Nat} {c c' : List Bytes} {x : Bytes} (h : rd n c = some (x, c')) :
    n ≤ c.flatten.length ∧ x = c.flatten.take n ∧ c'.flatten = c.flatten.drop n := by
  induction c generalizing n x with
  | nil =>
    simp only [rd] at h
    split at h
    · rename_i e; simp at h; simp [e, ← h.1, ← h.2]
    · cases h
  | cons b r ih =>
    simp only [rd] at h
    split at h
    · rename_i e; simp at h; simp [e, ← h.1, ← h.2]
    split at h
    · rename_i e1 e2
      simp at h
      obtain ⟨h1, h2⟩ := h
      subst h1 h2
      simp only [List.flatten_cons, List.length_append]
      refine ⟨by omega, ?_, ?_⟩
      · rw [List.take_append_of_le_length (by omega)]
      · rw [List.drop_append_of_le_length (by omega)]
    · rename_i e1 e2
      cases e : rd (n - b.length) r with
      | none => rw [e] at h; simp at h
      | some y =>
        rw [e] at h
        simp at h
        obtain ⟨h1, h2⟩ := h
        subst h2
        obtain ⟨a, b', c⟩ := ih e
        simp only [List.flatten_cons, List.length_append]
        refine ⟨by omega, ?_, ?_⟩
        · rw [List.take_append, List.take_of_length_le (by omega), ← h1, ← b']
        · rw [List.drop_append, List.drop_of_length_le (by omega), List.nil_append, c]

/-- Reading `n` bytes of a chain that has them. -/
theorem rd_ok {n : Nat} {c : List Bytes} (h : n ≤ c.flatten.length) : ∃ c', rd n c = some (c.flatten.take n, c') ∧ c'.flatten = c.flatten.drop n := by
  cases e : rd n c with
  | none => have := rd_none.1 e; omega
  | some y =>
    obtain ⟨x, c'⟩ := y
    obtain ⟨-, h1, h2⟩ := rd_some e
    exact ⟨c', by rw [h1], h2⟩

theorem rd8_ok {a : UInt8} {r : Bytes} {c : List Bytes} (h : c.flatten = a :: r) : ∃ c', rd8 c = some (a.toNat, c') ∧ c'.flatten = r := by
  obtain ⟨c', h1, h2⟩ := rd_ok (n := 1) (c := c) (by rw [h]; simp)
  refine ⟨c', ?_, by rw [h2, h]; rfl⟩
  unfold rd8
  rw [h1, h]
  simp [beDec]

theorem rd16_ok {a b : UInt8} {r : Bytes} {c : List Bytes} (h : c.flatten = a :: b :: r) :
    ∃ c', rd16 c = some (a.toNat * 256 + b.toNat, c') ∧ c'.flatten = r := by
  obtain ⟨c', h1, h2⟩ := rd_ok (n := 2) (c := c) (by rw [h]; simp)
  refine ⟨c', ?_, by rw [h2, h]; rfl⟩
  unfold rd16
  rw [h1, h]
  simp [beDec]

theorem rd8_none {c : List Bytes} : rd8 c = none ↔ c.flatten.length < 1 := by unfold rd8; rw [Option.map_eq_none_iff, rd_none]
theorem rd16_none {c : List Bytes} : rd16 c = none ↔ c.flatten.length < 2 := by unfold rd16; rw [Option.map_eq_none_iff, rd_none]

theorem limit_flatten {n : Nat} {c : List Bytes} (h : c.flatten.length = n) : (limit n c).flatten = c.flatten := by
  induction c generalizing n with
  | nil => rfl
  | cons b r ih =>
    simp only [List.flatten_cons, List.length_append] at h
    unfold limit
    split
    · rename_i e
      have h1 : b = [] := List.length_eq_zero_iff.1 (by omega)
      have h2 : r.flatten = [] := List.length_eq_zero_iff.1 (by omega)
      simp [h1]
    split
    · omega
    · simp only [List.flatten_cons]
      rw [ih (by omega)]

/-- The last buffer is the one in which `n` bytes end. -/
def EndsIn (n : Nat) (c : List Bytes) : Prop := ∃ c0 b, c = c0 ++ [b] ∧ c0.flatten.length < n

/-- The chain has the bytes `d`, whose number is `len` unless that is 0, and then, in the buffer in which they end, the bytes `ex`. -/
def Fit (len : Nat) (c : List Bytes) (d ex : Bytes) : Prop :=
  c.flatten = d ++ ex ∧ (ex = [] ∧ (len = 0 ∨ len = d.length) ∨ len = d.length ∧ EndsIn len c)

theorem limit_ends {n : Nat} (c0 : List Bytes) (b : Bytes) (h : c0.flatten.length < n) (hn : n ≤ c0.flatten.length + b.length) :
    (limit n (c0 ++ [b])).flatten = (c0 ++ [b]).flatten.take n := by
  induction c0 generalizing n with
  | nil =>
    simp only [List.flatten_nil, List.length_nil, Nat.zero_add] at h hn
    simp only [List.nil_append, limit]
    rw [if_neg (by omega)]
    split
    · simp
    · simp only [List.flatten_cons, List.flatten_nil, List.append_nil]
      rw [List.take_of_length_le (by omega)]
  | cons a r ih =>
    simp only [List.flatten_cons, List.length_append] at h hn
    simp only [List.cons_append, limit]
    rw [if_neg (by omega), if_neg (by omega)]
    simp only [List.flatten_cons]
    rw [ih (by omega) (by omega), List.take_append, List.take_of_length_le (l := a) (by omega)]

theorem rd_ends {k n : Nat} (c0 : List Bytes) (b : Bytes) (h : c0.flatten.length < n) (hn : n ≤ c0.flatten.length + b.length) (hk : k < n) :
    ∃ x c', rd k (c0 ++ [b]) = some (x, c') ∧ EndsIn (n - k) c' := by
  induction c0 generalizing n k with
  | nil =>
    simp only [List.flatten_nil, List.length_nil, Nat.zero_add] at h hn
    simp only [List.nil_append, rd]
    split
    · exact ⟨_, _, rfl, [], b, rfl, by simp; omega⟩
    · rw [if_pos (by omega)]
      exact ⟨_, _, rfl, [], b.drop k, rfl, by simp; omega⟩
  | cons a r ih =>
    simp only [List.flatten_cons, List.length_append] at h hn
    simp only [List.cons_append, rd]
    split
    · exact ⟨_, _, rfl, a :: r, b, rfl, by simp only [List.flatten_cons, List.length_append]; omega⟩
    split
    · exact ⟨_, _, rfl, a.drop k :: r, b, rfl, by simp only [List.flatten_cons, List.length_append, List.length_drop]; omega⟩
    · rename_i h1 h2
      obtain ⟨x, c', g1, g2⟩ := ih (k := k - a.length) (n := n - a.length) (by omega) (by omega) (by omega)
      rw [g1]
      rw [show n - a.length - (k - a.length) = n - k by omega] at g2
      exact ⟨_, _, rfl, g2⟩

theorem fit_rd {len k : Nat} {c : List Bytes} {d ex : Bytes} (h : Fit len c d ex) (hk : k ≤ d.length) (hd : k < d.length ∨ ex = []) :
    ∃ c', rd k c = some (d.take k, c') ∧ Fit (len - k) c' (d.drop k) ex := by
  obtain ⟨h1, h2⟩ := h
  obtain ⟨c', e1, e2⟩ := rd_ok (n := k) (c := c) (by rw [h1, List.length_append]; omega)
  rw [h1, List.take_append_of_le_length hk] at e1
  rw [h1, List.drop_append_of_le_length hk] at e2
  refine ⟨c', e1, e2, ?_⟩
  rcases h2 with ⟨h2, h3⟩ | ⟨h2, c0, b, h3, h4⟩
  · refine .inl ⟨h2, ?_⟩
    rw [List.length_drop]
    omega
  · rcases hd with hd | hd
    · refine .inr ⟨by rw [List.length_drop]; omega, ?_⟩
      subst h3
      have hl := congrArg List.length h1
      simp only [List.flatten_append, List.flatten_cons, List.flatten_nil, List.append_nil, List.length_append] at hl
      obtain ⟨x, c'', g1, g2⟩ := rd_ends (k := k) (n := len) c0 b h4 (by omega) (by omega)
      rw [e1] at g1
      simp only [Option.some.injEq, Prod.mk.injEq] at g1
      rw [g1.2]
      exact g2
    · exact .inl ⟨hd, by rw [List.length_drop]; omega⟩

theorem fit_rd8 {len : Nat} {a : UInt8} {c : List Bytes} {r ex : Bytes} (h : Fit len c (a :: r) ex) (hd : r ≠ [] ∨ ex = []) :
    ∃ c', rd8 c = some (a.toNat, c') ∧ Fit (len - 1) c' r ex := by
  obtain ⟨c', e1, e2⟩ := fit_rd (k := 1) h (by simp) (hd.imp (fun x => by have := List.length_pos_iff.2 x; simp; omega) id)
  refine ⟨c', ?_, by simpa using e2⟩
  unfold rd8
  rw [e1]
  simp [beDec]

theorem fit_rd16 {len : Nat} {a b : UInt8} {c : List Bytes} {r ex : Bytes} (h : Fit len c (a :: b :: r) ex) (hd : r ≠ [] ∨ ex = []) :
    ∃ c', rd16 c = some (a.toNat * 256 + b.toNat, c') ∧ Fit (len - 2) c' r ex := by
  obtain ⟨c', e1, e2⟩ := fit_rd (k := 2) h (by simp) (hd.imp (fun x => by have := List.length_pos_iff.2 x; simp; omega) id)
  refine ⟨c', ?_, by simpa using e2⟩
  unfold rd16
  rw [e1]
  simp [beDec]

/-! ### PES packets -/

theorem rdStamp_ok {fb t : Nat} {hdr r : Bytes} {c : List Bytes} (h : c.flatten = hdr ++ r) (ht : Ts.Spec.readTs fb hdr = some t) :
    ∃ c', rdStamp c = some (t, c') ∧ c'.flatten = r := by
  match hdr, ht with
  | [a, b, c1, d, e], ht =>
    simp only [Ts.Spec.readTs] at ht
    split at ht
    · simp only [Option.some.injEq] at ht
      obtain ⟨c2, h1, h2⟩ := rd8_ok (c := c) (a := a) (r := b :: c1 :: d :: e :: r) (by rw [h]; rfl)
      obtain ⟨c3, h3, h4⟩ := rd16_ok h2
      obtain ⟨c4, h5, h6⟩ := rd16_ok h4
      refine ⟨c4, ?_, h6⟩
      unfold rdStamp
      rw [h1]; dsimp only
      rw [h3]; dsimp only
      rw [h5, ← ht]
    · cases ht

theorem readTs_length {fb t : Nat} {hdr : Bytes} (ht : Ts.Spec.readTs fb hdr = some t) : hdr.length = 5 := by
  unfold Ts.Spec.readTs at ht
  split at ht
  · rfl
  · cases ht

theorem payload_fit {sid len : Nat} {st : Option (Nat × Nat)} {c : List Bytes} {d ex : Bytes} (h : Fit len c d ex) :
    ∃ bufs, payload sid st len c = .full sid st bufs ∧ bufs.flatten = d := by
  obtain ⟨h1, h2⟩ := h
  unfold payload
  split
  · rename_i e
    rcases h2 with ⟨h2, -⟩ | ⟨h2, c0, b, -, h3⟩
    · exact ⟨c, rfl, by rw [h1, h2, List.append_nil]⟩
    · omega
  · rename_i e
    have hl : len = d.length := by
      rcases h2 with ⟨-, h2⟩ | ⟨h2, -⟩
      · exact h2.resolve_left e
      · exact h2
    obtain ⟨c', g1, -⟩ := rd_ok (n := len) (c := c) (by rw [h1, List.length_append]; omega)
    rw [g1]
    refine ⟨_, rfl, ?_⟩
    rcases h2 with ⟨h2, -⟩ | ⟨-, c0, b, h3, h4⟩
    · rw [h2, List.append_nil] at h1
      rw [limit_flatten (by rw [h1, hl]), h1]
    · subst h3
      have hn := congrArg List.length h1
      simp only [List.flatten_append, List.flatten_cons, List.flatten_nil, List.append_nil, List.length_append] at hn
      rw [limit_ends c0 b h4 (by omega), h1, List.take_append_of_le_length (by omega), List.take_of_length_le (by omega)]

theorem optHeader_fit {sid len : Nat} {fx fl hl : UInt8} {r ex : Bytes} {t : Option (Nat × Nat)} {c : List Bytes} (h : Fit len c (fx :: fl :: hl :: r) ex)
    (hh : hl.toNat ≤ r.length) (hd : hl.toNat < r.length ∨ ex = []) (ht : Spec.readStamps fl (r.take hl.toNat) = some t) :
    ∃ bufs, optHeader sid len c = .full sid t bufs ∧ bufs.flatten = r.drop hl.toNat := by
  have hr : r ≠ [] ∨ ex = [] := hd.imp (fun x y => by rw [y] at x; simp at x) id
  obtain ⟨c1, e1, f1⟩ := fit_rd16 h (.inl (by simp))
  obtain ⟨c2, e2, f2⟩ := fit_rd8 f1 hr
  obtain ⟨c3, e3, f3⟩ := fit_rd (k := hl.toNat) f2 hh hd
  have hfl : (fx.toNat * 256 + fl.toNat) % 256 / 64 = fl.toNat / 64 := by have := fl.toNat_lt; omega
  have hlen : len = 0 ∨ len = r.length + 3 := by
    rcases h.2 with ⟨-, x⟩ | ⟨x, -⟩
    · simpa using x
    · right; simpa using x
  have hbad : ¬ (len ≠ 0 ∧ len < 3 + hl.toNat) := by omega
  have hl' : Fit (if len = 0 then 0 else len - (3 + hl.toNat)) c3 (r.drop hl.toNat) ex := by
    have : (if len = 0 then 0 else len - (3 + hl.toNat)) = len - 2 - 1 - hl.toNat := by split <;> omega
    rw [this]
    exact f3
  unfold optHeader
  rw [e1]; dsimp only
  rw [e2]; dsimp only
  rw [if_neg hbad, e3]; dsimp only
  rw [hfl]
  generalize (if len = 0 then 0 else len - (3 + hl.toNat)) = len' at hl'
  unfold Spec.readStamps at ht
  have f2' := f2.1
  have h5 : ∀ n, r ++ ex = (r.take n) ++ (r.drop n ++ ex) := fun n => by rw [← List.append_assoc, List.take_append_drop]
  by_cases z0 : fl.toNat / 64 = 0
  · rw [if_pos z0] at ht
    simp at ht
    subst ht
    rw [if_neg (by omega), if_neg (by omega)]
    exact payload_fit hl'
  rw [if_neg z0] at ht
  by_cases z2 : fl.toNat / 64 = 2
  · rw [if_pos z2] at ht ⊢
    cases e : Ts.Spec.readTs 2 ((r.take hl.toNat).take 5) with
    | none => rw [e] at ht; cases ht
    | some p =>
      rw [e] at ht
      simp at ht
      subst ht
      have hn := readTs_length e
      simp at hn
      rw [List.take_take, show min 5 hl.toNat = 5 by omega] at e
      obtain ⟨c4, g1, -⟩ := rdStamp_ok (c := c2) (hdr := r.take 5) (r := r.drop 5 ++ ex) (by rw [f2', ← h5]) e
      rw [g1]
      exact payload_fit hl'
  rw [if_neg z2] at ht ⊢
  by_cases z3 : fl.toNat / 64 = 3
  · rw [if_pos z3] at ht ⊢
    cases e : Ts.Spec.readTs 3 ((r.take hl.toNat).take 5) with
    | none => rw [e] at ht; cases ht
    | some p =>
      rw [e] at ht
      cases e' : Ts.Spec.readTs 1 (((r.take hl.toNat).drop 5).take 5) with
      | none => simp [e'] at ht
      | some d =>
        simp [e'] at ht
        subst ht
        have hn := readTs_length e'
        simp at hn
        rw [List.take_take, show min 5 hl.toNat = 5 by omega] at e
        rw [List.drop_take, List.take_take, show min 5 (hl.toNat - 5) = 5 by omega] at e'
        obtain ⟨c4, g1, g2⟩ := rdStamp_ok (c := c2) (hdr := r.take 5) (r := r.drop 5 ++ ex) (by rw [f2', ← h5]) e
        obtain ⟨c5, g3, -⟩ := rdStamp_ok (c := c4) (hdr := (r.drop 5).take 5) (r := (r.drop 5).drop 5 ++ ex)
          (by rw [g2, ← List.append_assoc, List.take_append_drop]) e'
        rw [g1]; dsimp only
        rw [g3]
        exact payload_fit hl'
  · rw [if_neg z3] at ht
    cases ht

theorem bare_iff (sid : Nat) : sid ∈ Spec.bare ↔ sid = 0xbe ∨ plainSid sid = true := by
  simp [Spec.bare, plainSid]
  omega

/-- A whole PES packet is found; bytes after one whose length is given are left out. -/
theorem parse_fit {e : Spec.Pes} {c : List Bytes} {d ex : Bytes} (h : Spec.readPes d = some e) (hc : c.flatten = d ++ ex)
    (hex : ex = [] ∨ e.data ≠ [] ∧ e.bounded = true ∧ EndsIn d.length c) (flush : Bool) (hf : e.bounded = true ∨ flush = true) :
    (e.sid = 0xbe ∧ parsePes flush c = .padding e.sid) ∨
      (e.sid ≠ 0xbe ∧ ∃ bufs, parsePes flush c = .full e.sid e.stamps bufs ∧ bufs.flatten = e.data) := by
  have hfit : Fit d.length c d ex := ⟨hc, hex.imp (fun x => ⟨x, .inr rfl⟩) (fun x => ⟨rfl, x.2.2⟩)⟩
  unfold Spec.readPes at h
  split at h
  case h_2 => cases h
  rename_i z0 z1 z2 sid l1 l0 rest
  dsimp only at h
  split at h
  case isFalse => cases h
  rename_i hz
  obtain ⟨rfl, rfl, rfl, hlen⟩ := hz
  have hrest : rest ≠ [] ∨ ex = [] := by
    rcases hex with x | ⟨x, -, -⟩
    · exact .inr x
    · left
      rintro rfl
      split at h
      · simp at h; rw [← h] at x; exact x rfl
      · cases h
  obtain ⟨c1, e1, f1⟩ := fit_rd (k := 3) hfit (by simp) (.inl (by simp))
  replace e1 : rd 3 c = some ([0, 0, 1], c1) := e1
  replace f1 : Fit _ c1 (sid :: l1 :: l0 :: rest) ex := f1
  obtain ⟨c2, e2, f2⟩ := fit_rd8 f1 (.inl (by simp))
  obtain ⟨c3, e3, f3⟩ := fit_rd16 f2 hrest
  have ha : ¬ (l1.toNat * 256 + l0.toNat ≠ 0 ∧ (rd (l1.toNat * 256 + l0.toNat) c3).isNone = true) := by
    rintro ⟨a, b⟩
    rw [Option.isNone_iff_eq_none, rd_none, f3.1, List.length_append] at b
    have := hlen.resolve_left a
    omega
  have hbd : e.bounded = decide (l1.toNat * 256 + l0.toNat ≠ 0) := by
    split at h
    · simp at h; rw [← h]; simp
    · split at h
      · split at h
        · cases hs : Spec.readStamps _ _ with
          | none => rw [hs] at h; cases h
          | some t => rw [hs] at h; simp at h; rw [← h]; simp
        · cases h
      · cases h
  have hb : ¬ (l1.toNat * 256 + l0.toNat = 0 ∧ (!flush) = true) := by
    rintro ⟨a, b⟩
    rcases hf with hf | hf
    · rw [hf, a] at hbd
      simp at hbd
    · rw [hf] at b; cases b
  have hgo : parsePes flush c = if sid.toNat = 0xbe then .padding sid.toNat
      else if plainSid sid.toNat then payload sid.toNat none (l1.toNat * 256 + l0.toNat) c3 else optHeader sid.toNat (l1.toNat * 256 + l0.toNat) c3 := by
    unfold parsePes
    rw [e1]; dsimp only
    rw [if_neg (by simp), e2]; dsimp only
    rw [e3]; dsimp only
    rw [if_neg ha, if_neg hb]
  rw [hgo]
  have hl3 : Fit (l1.toNat * 256 + l0.toNat) c3 rest ex := by
    obtain ⟨g1, g2⟩ := f3
    refine ⟨g1, ?_⟩
    rcases hex with x | ⟨-, x, -⟩
    · exact .inl ⟨x, hlen⟩
    · rw [x] at hbd
      have hn : l1.toNat * 256 + l0.toNat ≠ 0 := of_decide_eq_true hbd.symm
      have hl := hlen.resolve_left hn
      rcases g2 with ⟨g2, g3⟩ | ⟨g2, g3⟩
      · exact .inl ⟨g2, .inr hl⟩
      · exact .inr ⟨hl, by rw [hl, ← g2]; exact g3⟩
  split at h
  · rename_i hbare
    simp at h
    subst h
    dsimp only
    by_cases hp : sid.toNat = 0xbe
    · exact .inl ⟨hp, by rw [if_pos hp]⟩
    · have := ((bare_iff _).1 hbare).resolve_left hp
      rw [if_neg hp, if_pos this]
      exact .inr ⟨hp, payload_fit hl3⟩
  · rename_i hbare
    have hp : sid.toNat ≠ 0xbe := fun x => hbare ((bare_iff _).2 (.inl x))
    have hq : ¬ plainSid sid.toNat = true := fun x => hbare ((bare_iff _).2 (.inr x))
    split at h
    case h_2 => cases h
    split at h
    case isFalse => cases h
    rename_i hcond
    cases hs : Spec.readStamps _ _ with
    | none => rw [hs] at h; cases h
    | some t =>
      rw [hs] at h
      simp at h
      subst h
      dsimp only at hex ⊢
      rw [if_neg hp, if_neg hq]
      exact .inr ⟨hp, optHeader_fit hl3 hcond.2 (by
        rcases hex with x | ⟨x, -, -⟩
        · exact .inr x
        · left
          have := List.length_pos_iff.2 x
          rw [List.length_drop] at this
          omega) hs⟩

theorem parse_ok {e : Spec.Pes} {c : List Bytes} (h : Spec.readPes c.flatten = some e) (flush : Bool) (hf : e.bounded = true ∨ flush = true) :
    (e.sid = 0xbe ∧ parsePes flush c = .padding e.sid) ∨
      (e.sid ≠ 0xbe ∧ ∃ bufs, parsePes flush c = .full e.sid e.stamps bufs ∧ bufs.flatten = e.data) :=
  parse_fit h (ex := []) (by simp) (.inl rfl) flush hf

theorem plain_prefix {l a b : Bytes} (h : l ++ a = b) : l.length ≤ b.length := by rw [← h]; simp

/-- A part of a PES packet waits for more; all of one whose length is not given waits for the next. -/
theorem parse_wait {e : Spec.Pes} {c : List Bytes} {tail : Bytes} (h : Spec.readPes (c.flatten ++ tail) = some e) (ht : e.bounded = true → tail ≠ []) :
    ∃ sid, parsePes false c = .again sid := by
  unfold Spec.readPes at h
  split at h
  case h_2 => cases h
  rename_i z0 z1 z2 sid l1 l0 rest hc
  dsimp only at h
  split at h
  case isFalse => cases h
  rename_i hz
  obtain ⟨rfl, rfl, rfl, hlen⟩ := hz
  have hbd : e.bounded = decide (l1.toNat * 256 + l0.toNat ≠ 0) := by
    split at h
    · simp at h; rw [← h]; simp
    · split at h
      · split at h
        · cases hs : Spec.readStamps _ _ with
          | none => rw [hs] at h; cases h
          | some t => rw [hs] at h; simp at h; rw [← h]; simp
        · cases h
      · cases h
  unfold parsePes
  cases e1 : rd 3 c with
  | none => exact ⟨_, rfl⟩
  | some x =>
    obtain ⟨x, c1⟩ := x
    obtain ⟨n1, x1, f1⟩ := rd_some e1
    have hx : x = [0, 0, 1] := by
      have : (c.flatten ++ tail).take 3 = [0, 0, 1] := by rw [hc]; rfl
      rw [List.take_append_of_le_length n1] at this
      rw [x1, this]
    subst hx
    have f1' : c1.flatten ++ tail = sid :: l1 :: l0 :: rest := by
      have : (c.flatten ++ tail).drop 3 = sid :: l1 :: l0 :: rest := by rw [hc]; rfl
      rw [List.drop_append_of_le_length n1] at this
      rw [f1, this]
    dsimp only
    rw [if_neg (by simp)]
    cases e2 : rd8 c1 with
    | none => exact ⟨_, rfl⟩
    | some y =>
      have hne : c1.flatten ≠ [] := by
        intro z
        rw [rd8_none.2 (by rw [z]; simp)] at e2
        cases e2
      cases g : c1.flatten with
      | nil => exact absurd g hne
      | cons a r1 =>
        rw [g] at f1'
        simp at f1'
        obtain ⟨c2, e2', f2⟩ := rd8_ok g
        rw [e2'] at e2
        simp at e2
        subst e2
        dsimp only
        cases e3 : rd16 c2 with
        | none => exact ⟨_, rfl⟩
        | some z =>
          match r1, f2, f1' with
          | [], f2, _ => rw [rd16_none.2 (by rw [f2]; simp)] at e3; cases e3
          | [_], f2, _ => rw [rd16_none.2 (by rw [f2]; simp)] at e3; cases e3
          | a1 :: a2 :: r2, f2, f1' =>
            simp at f1'
            obtain ⟨-, rfl, rfl, hr⟩ := f1'
            obtain ⟨c3, e3', f3⟩ := rd16_ok f2
            rw [e3'] at e3
            simp at e3
            subst e3
            dsimp only
            by_cases h0 : a1.toNat * 256 + a2.toNat = 0
            · rw [if_neg (by simp [h0]), if_pos (by simp [h0])]
              exact ⟨_, rfl⟩
            · rw [if_pos]
              · exact ⟨_, rfl⟩
              · refine ⟨h0, ?_⟩
                rw [Option.isNone_iff_eq_none, rd_none, f3]
                have := hlen.resolve_left h0
                rw [← hr, List.length_append] at this
                have := List.length_pos_iff.2 (ht (by rw [hbd]; exact decide_eq_true h0))
                omega

end Verif.TsIn
