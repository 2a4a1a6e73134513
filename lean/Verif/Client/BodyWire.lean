import Verif.Client.BodyRun
/-! The parser on the chunked transfer coding. -/
namespace Verif.Client

/-- What the one-byte machine says after each prefix of marked bytes: it has put out the data among them and is at `c`. -/
def Tracks (c : Ck) (l : List (UInt8 × Bool)) (c' : Ck) : Prop :=
  feed c (bytesOf l) = (dataOf l, .run c') ∧ ∀ p, p <+: l → ∃ k, feed c (bytesOf p) = (dataOf p, .run k)

theorem bytesOf_append (a b : List (UInt8 × Bool)) : bytesOf (a ++ b) = bytesOf a ++ bytesOf b := List.map_append
theorem dataOf_append (a b : List (UInt8 × Bool)) : dataOf (a ++ b) = dataOf a ++ dataOf b := by simp [dataOf]

theorem prefix_append_cases {p a b : List α} (h : p <+: a ++ b) : p <+: a ∨ ∃ q, p = a ++ q ∧ q <+: b := by
  rcases List.prefix_or_prefix_of_prefix h (List.prefix_append a b) with h1 | h1
  · exact .inl h1
  · obtain ⟨q, e⟩ := h1
    subst e
    obtain ⟨r, e2⟩ := h
    refine .inr ⟨q, rfl, r, ?_⟩
    rw [List.append_assoc] at e2
    exact List.append_cancel_left e2

theorem Tracks.nil (c : Ck) : Tracks c [] c := ⟨rfl, fun p hp => by
  have : p = [] := List.prefix_nil.1 hp
  subst this; exact ⟨c, rfl⟩⟩

theorem Tracks.trans {c c1 c2 : Ck} {a b : List (UInt8 × Bool)} (h : Tracks c a c1) (g : Tracks c1 b c2) : Tracks c (a ++ b) c2 := by
  constructor
  · rw [bytesOf_append, andThen_data h.1, g.1, dataOf_append]
  · intro p hp
    rcases prefix_append_cases hp with h1 | ⟨q, e, hq⟩
    · exact h.2 p h1
    · obtain ⟨k, hk⟩ := g.2 q hq
      subst e
      exact ⟨k, by rw [bytesOf_append, andThen_data h.1, hk, dataOf_append]⟩

/-- One byte of framing. -/
theorem Tracks.byte {c c' : Ck} {ch : UInt8} (h : ckStep (if c.st = .data then ⟨.after, 0⟩ else c) ch = .go c') (hd : ¬(c.st = .data ∧ c.size ≠ 0)) (hs : c'.size ≤ maxOff - 5) :
    Tracks c (frm [ch]) c' := by
  have e : feed c [ch] = ([], .run c') := by
    unfold feed
    rw [if_neg hd, h]
    dsimp only
    rw [if_neg (by omega)]
    rfl
  refine ⟨e, fun p hp => ?_⟩
  cases p with
  | nil => exact ⟨c, rfl⟩
  | cons a p =>
    obtain ⟨q, hq⟩ := hp
    have h1 : a = (ch, false) ∧ p ++ q = [] := by
      have : (a :: p) ++ q = [(ch, false)] := hq
      simpa using this
    have h2 : p = [] := (List.append_eq_nil_iff.1 h1.2).1
    rw [h1.1, h2]
    exact ⟨c', e⟩

theorem frm_cons (ch : UInt8) (t : Bytes) : frm (ch :: t) = frm [ch] ++ frm t := rfl
theorem frm_append (a b : Bytes) : frm (a ++ b) = frm a ++ frm b := List.map_append

/-- The digits of the specification are those of the parser. -/
theorem digit_hexVal (ch : UInt8) : digit ch = hexVal ch := by
  have : ∀ n, n < 256 → digit (UInt8.ofNat n) = hexVal (UInt8.ofNat n) := by decide +kernel
  have h := this ch.toNat ch.toNat_lt
  rwa [UInt8.ofNat_toNat] at h

/-- Value of digits behind a number. -/
def hexGo (a : Option Nat) (l : Bytes) : Option Nat := l.foldl (fun a ch => do return (← a) * 16 + (← digit ch)) a

theorem hexGo_none (l : Bytes) : hexGo none l = none := by
  induction l with
  | nil => rfl
  | cons ch t ih => exact ih

theorem hexGo_cons (a : Nat) (ch : UInt8) (t : Bytes) {v : Nat} (h : hexGo (some a) (ch :: t) = some v) : ∃ d, digit ch = some d ∧ hexGo (some (a * 16 + d)) t = some v := by
  have e : hexGo (some a) (ch :: t) = hexGo (do return a * 16 + (← digit ch)) t := rfl
  rw [e] at h
  cases hd : digit ch with
  | none =>
    rw [hd] at h
    have : hexGo none t = some v := h
    rw [hexGo_none] at this
    cases this
  | some d =>
    rw [hd] at h
    exact ⟨d, rfl, h⟩

theorem hexGo_le : ∀ (l : Bytes) {a v : Nat}, hexGo (some a) l = some v → a ≤ v
  | [], a, v, h => by cases h; exact Nat.le_refl _
  | ch :: t, a, v, h => by
    obtain ⟨d, _, h2⟩ := hexGo_cons a ch t h
    have := hexGo_le t h2
    omega

theorem hex_tracks : ∀ (l : Bytes) {a v : Nat}, hexGo (some a) l = some v → v < 576460752303423488 → Tracks ⟨.size, a⟩ (frm l) ⟨.size, v⟩
  | [], a, v, h, _ => by cases h; exact Tracks.nil _
  | ch :: t, a, v, h, hv => by
    obtain ⟨d, h1, h2⟩ := hexGo_cons a ch t h
    have hle := hexGo_le t h2
    rw [frm_cons]
    refine Tracks.trans (c1 := ⟨.size, a * 16 + d⟩) (Tracks.byte ?_ (fun e => by cases e.1) ?_) (hex_tracks t h2 hv)
    · rw [if_neg (by simp)]
      unfold ckStep
      dsimp only
      rw [if_neg (by unfold maxOff; omega), ← digit_hexVal, h1]
    · unfold maxOff; dsimp only; omega

theorem start_tracks {l : Bytes} {v : Nat} (h : hexNum l = some v) (hv : v < 576460752303423488) : Tracks ⟨.start, 0⟩ (frm l) ⟨.size, v⟩ := by
  cases l with
  | nil => cases h
  | cons ch t =>
    have h' : hexGo (some 0) (ch :: t) = some v := h
    obtain ⟨d, h1, h2⟩ := hexGo_cons 0 ch t h'
    rw [Nat.zero_mul, Nat.zero_add] at h2
    have hle := hexGo_le t h2
    rw [frm_cons]
    refine Tracks.trans (c1 := ⟨.size, d⟩) (Tracks.byte ?_ (fun e => by cases e.1) ?_) (hex_tracks t h2 hv)
    · rw [if_neg (by simp)]
      unfold ckStep
      dsimp only
      rw [← digit_hexVal, h1]
    · unfold maxOff; dsimp only; omega

theorem hexVal_crlf : hexVal 13 = none ∧ hexVal 10 = none ∧ hexVal 59 = none ∧ hexVal 32 = none ∧ hexVal 9 = none := by decide

/-- Bytes of an extension or of a trailer line. -/
theorem line_tracks {st : CkSt} {n : Nat} (hst : st = .ext ∨ st = .lastExt ∨ st = .trHead) (hn : n ≤ maxOff - 5) : ∀ {l : Bytes}, oneLine l → Tracks ⟨st, n⟩ (frm l) ⟨st, n⟩
  | [], _ => Tracks.nil _
  | ch :: t, h => by
    have h1 : ch ≠ 13 := fun e => h.1 (by rw [e]; exact List.mem_cons_self)
    have h2 : ch ≠ 10 := fun e => h.2 (by rw [e]; exact List.mem_cons_self)
    rw [frm_cons]
    refine Tracks.trans (c1 := ⟨st, n⟩) (Tracks.byte ?_ ?_ hn) (line_tracks hst hn ⟨fun e => h.1 (List.mem_cons_of_mem _ e), fun e => h.2 (List.mem_cons_of_mem _ e)⟩)
    · rcases hst with e | e | e <;> subst e <;> (rw [if_neg (by simp)]; simp only [ckStep]; rw [if_neg h1, if_neg h2])
    · rcases hst with e | e | e <;> subst e <;> (intro h; cases h.1)

theorem size_sep {n : Nat} (hn : n < 576460752303423488) {ch : UInt8} (h : ch = 59 ∨ ch = 32 ∨ ch = 9) :
    ckStep ⟨.size, n⟩ ch = .go ⟨if n = 0 then .lastExt else .ext, n⟩ := by
  have h1 : hexVal ch = none := by rcases h with e | e | e <;> subst e <;> decide
  have h2 : ch ≠ 13 := by rcases h with e | e | e <;> subst e <;> decide
  have h3 : ch ≠ 10 := by rcases h with e | e | e <;> subst e <;> decide
  unfold ckStep
  dsimp only
  rw [if_neg (by unfold maxOff; omega), h1]
  dsimp only
  rw [if_neg h2, if_neg h3, if_pos h, if_neg h2, if_neg h3, if_pos h]
  split <;> rfl

theorem size_cr {n : Nat} (hn : n < 576460752303423488) : ckStep ⟨.size, n⟩ 13 = .go ⟨if n = 0 then .lastExtDone else .extDone, n⟩ := by
  unfold ckStep
  dsimp only
  rw [if_neg (by unfold maxOff; omega), hexVal_crlf.1]
  dsimp only
  rw [if_pos rfl, if_pos rfl]
  split <;> rfl

/-- Extension and line end behind a size. -/
theorem ext_tracks {n : Nat} (hn : n < 576460752303423488) {l : Bytes} (h : extOk l) : Tracks ⟨.size, n⟩ (frm l ++ frm [13, 10]) ⟨if n = 0 then .trailer else .data, n⟩ := by
  have hm : n ≤ maxOff - 5 := by unfold maxOff; omega
  have hend : ∀ s, s = (if n = 0 then CkSt.lastExtDone else .extDone) → Tracks ⟨s, n⟩ (frm [10]) ⟨if n = 0 then .trailer else .data, n⟩ := by
    intro s e
    subst e
    by_cases h0 : n = 0
    · rw [if_pos h0, if_pos h0]
      exact Tracks.byte (by rw [if_neg (by simp)]; simp [ckStep]) (fun e => by cases e.1) hm
    · rw [if_neg h0, if_neg h0]
      exact Tracks.byte (by rw [if_neg (by simp)]; simp [ckStep]) (fun e => by cases e.1) hm
  cases l with
  | nil =>
    show Tracks _ (frm [13] ++ frm [10]) _
    exact Tracks.trans (Tracks.byte (by rw [if_neg (by simp)]; exact size_cr hn) (fun e => by cases e.1) hm) (hend _ rfl)
  | cons ch t =>
    have h0 : ch = 59 ∨ ch = 32 ∨ ch = 9 := by
      rcases h.2 with e | e | e | e
      · cases e
      · simp at e; exact .inl e
      · simp at e; exact .inr (.inl e)
      · simp at e; exact .inr (.inr e)
    have ht : oneLine t := ⟨fun e => h.1.1 (List.mem_cons_of_mem _ e), fun e => h.1.2 (List.mem_cons_of_mem _ e)⟩
    rw [frm_cons, List.append_assoc]
    refine Tracks.trans (Tracks.byte (by rw [if_neg (by simp)]; exact size_sep hn h0) (fun e => by cases e.1) hm) ?_
    refine Tracks.trans (line_tracks (by by_cases e : n = 0 <;> simp [e]) hm ht) ?_
    show Tracks _ (frm [13] ++ frm [10]) _
    refine Tracks.trans (c1 := ⟨if n = 0 then .lastExtDone else .extDone, n⟩) (Tracks.byte ?_ ?_ hm) (hend _ rfl)
    · by_cases e : n = 0 <;> simp [e, ckStep]
    · by_cases e : n = 0 <;> simp [e]

theorem bytesOf_dat (d : Bytes) : bytesOf (dat d) = d := by simp [bytesOf, dat, Function.comp_def]
theorem dataOf_dat (d : Bytes) : dataOf (dat d) = d := by
  induction d with
  | nil => rfl
  | cons ch t ih =>
    show ch :: dataOf (dat t) = _
    rw [ih]

theorem dat_tracks (d : Bytes) : Tracks ⟨.data, d.length⟩ (dat d) ⟨.data, 0⟩ := by
  constructor
  · rw [bytesOf_dat, dataOf_dat, feed_data d (Nat.le_refl _), Nat.sub_self]
  · intro p hp
    obtain ⟨q, hq⟩ := hp
    have : ∃ d1, p = dat d1 ∧ d1.length ≤ d.length := by
      refine ⟨d.take p.length, ?_, by rw [List.length_take]; omega⟩
      have : p = (dat d).take p.length := by rw [← hq]; simp
      rw [this]
      simp only [dat, List.map_take]
      rw [List.length_take]
      congr 1
      rw [List.length_map]
      have hl := congrArg List.length hq
      simp only [dat, List.length_append, List.length_map] at hl
      omega
    obtain ⟨d1, e, hle⟩ := this
    subst e
    exact ⟨_, by rw [bytesOf_dat, dataOf_dat]; exact feed_data d1 hle⟩

theorem after_tracks : Tracks ⟨.data, 0⟩ (frm [13, 10]) ⟨.start, 0⟩ := by
  show Tracks _ (frm [13] ++ frm [10]) _
  exact Tracks.trans (c1 := ⟨.afterDone, 0⟩) (Tracks.byte (by simp [ckStep]) (fun e => e.2 rfl) (by decide)) (Tracks.byte (by simp [ckStep]) (fun e => e.2 rfl) (by decide))

theorem chunk_tracks {c : Chunk} (h : c.Ok) : Tracks ⟨.start, 0⟩ c.wire ⟨.start, 0⟩ := by
  obtain ⟨h1, h2, h3, h4⟩ := h
  unfold Chunk.wire
  have e := ext_tracks h3 h4
  rw [if_neg (by omega)] at e
  have := (((start_tracks h1 h3).trans e).trans (dat_tracks c.data)).trans after_tracks
  simpa [List.append_assoc] using this

theorem chunks_tracks : ∀ {cs : List Chunk}, (∀ c ∈ cs, c.Ok) → Tracks ⟨.start, 0⟩ (cs.map Chunk.wire).flatten ⟨.start, 0⟩
  | [], _ => Tracks.nil _
  | c :: cs, h => by
    rw [List.map_cons, List.flatten_cons]
    exact (chunk_tracks (h c List.mem_cons_self)).trans (chunks_tracks (fun x hx => h x (List.mem_cons_of_mem _ hx)))

theorem trailer_tracks {t : Bytes} (h : oneLine t) (hn : t ≠ []) : Tracks ⟨.trailer, 0⟩ (frm t ++ frm [13, 10]) ⟨.trailer, 0⟩ := by
  cases t with
  | nil => exact absurd rfl hn
  | cons ch t =>
    have h1 : ch ≠ 13 := fun e => h.1 (by rw [e]; exact List.mem_cons_self)
    have h2 : ch ≠ 10 := fun e => h.2 (by rw [e]; exact List.mem_cons_self)
    rw [frm_cons, List.append_assoc]
    refine Tracks.trans (c1 := ⟨.trHead, 0⟩) (Tracks.byte ?_ (fun e => e.2 rfl) (by decide)) ?_
    · simp [ckStep, h1, h2]
    refine Tracks.trans (line_tracks (.inr (.inr rfl)) (by decide) ⟨fun e => h.1 (List.mem_cons_of_mem _ e), fun e => h.2 (List.mem_cons_of_mem _ e)⟩) ?_
    show Tracks _ (frm [13] ++ frm [10]) _
    exact Tracks.trans (c1 := ⟨.trHeadDone, 0⟩) (Tracks.byte (by simp [ckStep]) (fun e => e.2 rfl) (by decide)) (Tracks.byte (by simp [ckStep]) (fun e => e.2 rfl) (by decide))

theorem trailers_tracks : ∀ {ts : List Bytes}, (∀ t ∈ ts, oneLine t ∧ t ≠ []) → Tracks ⟨.trailer, 0⟩ (ts.map (fun t => frm t ++ frm [13, 10])).flatten ⟨.trailer, 0⟩
  | [], _ => Tracks.nil _
  | t :: ts, h => by
    rw [List.map_cons, List.flatten_cons]
    obtain ⟨h1, h2⟩ := h t List.mem_cons_self
    exact (trailer_tracks h1 h2).trans (trailers_tracks (fun x hx => h x (List.mem_cons_of_mem _ hx)))

/-- Everything but the last byte. -/
theorem body_tracks {b : Body} (h : b.Ok) : ∃ pre, b.wire = pre ++ frm [10] ∧ Tracks ⟨.start, 0⟩ pre ⟨.trailerDone, 0⟩ := by
  obtain ⟨h1, h2, h3, h4⟩ := h
  have e := ext_tracks (n := 0) (by decide) h3
  rw [if_pos rfl] at e
  have := ((((chunks_tracks h1).trans (start_tracks h2 (by decide))).trans e).trans (trailers_tracks h4)).trans (Tracks.byte (c := ⟨.trailer, 0⟩) (c' := ⟨.trailerDone, 0⟩) (ch := 13) (by simp [ckStep]) (fun e => e.2 rfl) (by decide))
  refine ⟨_, ?_, this⟩
  unfold Body.wire
  have e2 : frm [13, 10] = frm [13] ++ frm [10] := rfl
  simp only [List.append_assoc]
  rfl

theorem body_done {b : Body} (h : b.Ok) : feed {} (bytesOf b.wire) = (dataOf b.wire, .done) := by
  obtain ⟨pre, e, t⟩ := body_tracks h
  rw [e, bytesOf_append, andThen_data t.1, dataOf_append]
  rfl

/-- Every prefix of a body, and bodies with bytes behind them. -/
theorem body_prefix {b : Body} (h : b.Ok) {p : List (UInt8 × Bool)} (hp : p <+: b.wire) (hne : p ≠ b.wire) : ∃ k, feed {} (bytesOf p) = (dataOf p, .run k) := by
  obtain ⟨pre, e, t⟩ := body_tracks h
  rw [e] at hp
  rcases prefix_append_cases hp with h1 | ⟨q, e2, hq⟩
  · exact t.2 p h1
  · cases q with
    | nil => rw [e2, List.append_nil]; exact ⟨_, t.1⟩
    | cons a q =>
      obtain ⟨r, hr⟩ := hq
      have h2 : a = (10, false) ∧ q ++ r = [] := by
        have : (a :: q) ++ r = [(10, false)] := hr
        simpa using this
      have h3 : q = [] := (List.append_eq_nil_iff.1 h2.2).1
      refine absurd ?_ hne
      rw [e2, e, h2.1, h3]; rfl

end Verif.Client
