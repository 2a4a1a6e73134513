import Verif.Rtmp.FlvRun
/- The byte machine on streams of tags, in both directions. -/
namespace Verif.Flv
open Verif

/-- The message of a tag. -/
def Tag.msg (c : Nat) (t : Tag) : Msg := ⟨t.type, t.ts, t.sid, t.data.length, cut c t.data⟩

def noFail : List Msg → Bool := fun _ => false

theorem type_byte {t : Nat} (h : t = 8 ∨ t = 9 ∨ t = 18) : okType (UInt8.ofNat (t / 256 ^ 0)) ∧ (UInt8.ofNat (t / 256 ^ 0)).toNat = t := by
  rcases h with rfl | rfl | rfl <;> exact ⟨by decide, rfl⟩

theorem ts_bytes {n : Nat} (h : n < 2 ^ 32) : (UInt8.ofNat (n / 2 ^ 24 / 256 ^ 0)).toNat * 2 ^ 24 + beDec (beEnc 3 (n % 2 ^ 24)) = n := by
  rw [beDec_beEnc_of_lt (by omega), UInt8.toNat_ofNat']
  omega

theorem enc1 (n : Nat) : ∃ a, beEnc 1 n = [a] := ⟨_, rfl⟩
theorem enc3 (n : Nat) : ∃ a b c, beEnc 3 n = [a, b, c] := ⟨_, _, _, rfl⟩
theorem enc4 (n : Nat) : ∃ a b c d, beEnc 4 n = [a, b, c, d] := ⟨_, _, _, _, rfl⟩

/-- The fields of a tag as bytes. -/
theorem tag_fields (t : Tag) (h : t.Ok) : ∃ y d2 d1 d0 s2 s1 s0 s3 i2 i1 i0 e3 e2 e1 e0,
    t.head = [y, d2, d1, d0, s2, s1, s0, s3, i2, i1, i0] ∧ t.back = [e3, e2, e1, e0] ∧ okType y ∧ y.toNat = t.type ∧
    t.data.length = beDec [d2, d1, d0] ∧ s3.toNat * 2 ^ 24 + beDec [s2, s1, s0] = t.ts ∧ beDec [i2, i1, i0] = t.sid ∧
    t.data.length + 11 = beDec [e3, e2, e1, e0] := by
  obtain ⟨o1, o2⟩ := type_byte h.hType
  obtain ⟨d2, d1, d0, ed⟩ := enc3 t.data.length
  obtain ⟨s2, s1, s0, es⟩ := enc3 (t.ts % 2 ^ 24)
  obtain ⟨i2, i1, i0, ei⟩ := enc3 t.sid
  obtain ⟨e3, e2, e1, e0, ee⟩ := enc4 (11 + t.data.length)
  refine ⟨UInt8.ofNat (t.type / 256 ^ 0), d2, d1, d0, s2, s1, s0, UInt8.ofNat (t.ts / 2 ^ 24 / 256 ^ 0), i2, i1, i0, e3, e2, e1, e0,
    ?_, ee, o1, o2, ?_, ?_, ?_, ?_⟩
  · rw [Tag.head, ed, es, ei]; rfl
  · rw [← ed, beDec_beEnc_of_lt (by have := h.hLen; omega)]
  · rw [← es]; exact ts_bytes h.hTs
  · rw [← ei, beDec_beEnc_of_lt (by have := h.hSid; omega)]
  · rw [← ee, beDec_beEnc_of_lt (by have := h.hLen; omega)]; omega

theorem run_tagBytes (c : Nat) (p : P Bytes) (log : List Msg) (hp : AtTag p) (t : Tag) (h : t.Ok) :
    ∃ p', AtTag p' ∧ bytes c noFail (.idle p log) t.bytes = .idle p' (log ++ [t.msg c]) := by
  obtain ⟨y, d2, d1, d0, s2, s1, s0, s3, i2, i1, i0, e3, e2, e1, e0, f1, f2, f3, f4, f5, f6, f7, f8⟩ := tag_fields t h
  obtain ⟨p', h1, h2⟩ := run_tag c noFail p log hp y d2 d1 d0 s2 s1 s0 s3 i2 i1 i0 f3 t.data f5 e3 e2 e1 e0 rfl
  refine ⟨p', h1, ?_⟩
  rw [if_pos f8, f4, f6, f7] at h2
  rw [Tag.bytes, f1, f2, List.append_assoc, h2]
  rfl

theorem run_tags (c : Nat) (ts : List Tag) (h : ∀ t ∈ ts, t.Ok) (p : P Bytes) (log : List Msg) (hp : AtTag p) :
    ∃ p', AtTag p' ∧ bytes c noFail (.idle p log) (ts.flatMap Tag.bytes) = .idle p' (log ++ ts.map (Tag.msg c)) := by
  induction ts generalizing p log with
  | nil => exact ⟨p, hp, by simp [bytes]⟩
  | cons t ts ih =>
    obtain ⟨p1, h1, h2⟩ := run_tagBytes c p log hp t (h t (by simp))
    obtain ⟨p2, h3, h4⟩ := ih (fun t ht => h t (by simp [ht])) p1 _ h1
    refine ⟨p2, h3, ?_⟩
    rw [List.flatMap_cons, bytes_append, h2, h4]
    simp

theorem run_fileHeader (c : Nat) (flags : UInt8) (off : Nat) :
    ∃ p', AtTag p' ∧ bytes c noFail (.idle { inp := [] } []) (fileHeader flags off) = .idle p' [] := by
  obtain ⟨o3, o2, o1, o0, eo⟩ := enc4 off
  obtain ⟨p', h1, h2⟩ := run_header c noFail flags o3 o2 o1 o0 0 0 0 0
  have e0 : beEnc 4 0 = [0, 0, 0, 0] := by decide
  rw [if_pos (by decide)] at h2
  refine ⟨p', h1, ?_⟩
  rw [fileHeader, eo, e0]
  exact h2

theorem run_stream (c : Nat) (flags : UInt8) (off : Nat) (ts : List Tag) (h : ∀ t ∈ ts, t.Ok) :
    ∃ p', AtTag p' ∧ bytes c noFail (.idle { inp := [] } []) (fileHeader flags off ++ ts.flatMap Tag.bytes) = .idle p' (ts.map (Tag.msg c)) := by
  obtain ⟨p1, h1, h2⟩ := run_fileHeader c flags off
  obtain ⟨p2, h3, h4⟩ := run_tags c ts h p1 [] h1
  exact ⟨p2, h3, by rw [bytes_append, h2, h4]; rfl⟩

/-- The payload of a tag without its back pointer. -/
theorem run_prompt (c : Nat) (p : P Bytes) (log : List Msg) (hp : AtTag p) (t : Tag) (h : t.Ok) (hne : t.data ≠ []) :
    ∃ p', bytes c noFail (.idle p log) (t.head ++ t.data) = .idle p' (log ++ [t.msg c]) := by
  obtain ⟨y, d2, d1, d0, s2, s1, s0, s3, i2, i1, i0, e3, e2, e1, e0, f1, f2, f3, f4, f5, f6, f7, f8⟩ := tag_fields t h
  have hh := run_head c noFail p log hp y d2 d1 d0 s2 s1 s0 s3 i2 i1 i0 f3
  rw [f4, ← f5, f6, f7] at hh
  rw [bytes_append, f1, hh]
  have := run_data c noFail { p with st := .data, type := t.type, mlen := t.data.length, len := t.data.length, ts := t.ts, msid := t.sid } log rfl t.data [] rfl hp.inp (Or.inl hne)
  rw [List.append_nil] at this
  rw [this]
  exact ⟨_, rfl⟩

/-! ### Log -/

theorem byte1_log (c : Nat) (fails : List Msg → Bool) {p p' : P Bytes} {log log' : List Msg} {b : UInt8}
    (h : byte1 c fails (.idle p log) b = .idle p' log') : log <+: log' := by
  have hhead : ∀ (q : P Bytes) (l : List Msg), head1 q l b = .idle p' log' → l <+: log' := by
    intro q l h
    unfold head1 at h
    split at h <;> cases h
    exact List.prefix_refl _
  have hdel : ∀ (q : P Bytes) (l : List Msg) (q' : P Bytes) (l' : List Msg), deliver c fails q l = .idle q' l' → l <+: l' := by
    intro q l q' l' h
    unfold deliver at h
    split at h <;> cases h
    exact ⟨_, rfl⟩
  simp only [byte1] at h
  split at h
  · unfold data1 at h
    split at h
    · cases e : deliver c fails p log with
      | idle q l => rw [e] at h; exact (hdel _ _ _ _ e).trans (hhead _ _ h)
      | _ => rw [e] at h; cases h
    · split at h
      · exact hdel _ _ _ _ h
      · cases h; exact List.prefix_refl _
  · exact hhead _ _ h

theorem bytes_log (c : Nat) (fails : List Msg → Bool) (bs : Bytes) : ∀ {p p' : P Bytes} {log log' : List Msg},
    bytes c fails (.idle p log) bs = .idle p' log' → log <+: log' := by
  induction bs with
  | nil => intro p p' log log' h; cases h; exact List.prefix_refl _
  | cons b bs ih =>
    intro p p' log log' h
    rw [bytes_cons] at h
    cases e : byte1 c fails (.idle p log) b with
    | idle q l => rw [e] at h; exact (byte1_log c fails e).trans (ih h)
    | bad l => rw [e, bytes_done c fails _ (by simp)] at h; cases h
    | failed l => rw [e, bytes_done c fails _ (by simp)] at h; cases h
    | stuck => rw [e, bytes_done c fails _ (by simp)] at h; cases h

/-- If a run ends idle, so did every prefix of it. -/
theorem bytes_idle_prefix (c : Nat) (fails : List Msg → Bool) (x y : Bytes) {p p' : P Bytes} {log log' : List Msg}
    (h : bytes c fails (.idle p log) (x ++ y) = .idle p' log') : ∃ q l, bytes c fails (.idle p log) x = .idle q l ∧ l <+: log' := by
  rw [bytes_append] at h
  cases e : bytes c fails (.idle p log) x with
  | idle q l => rw [e] at h; exact ⟨q, l, rfl, bytes_log c fails y h⟩
  | bad l => rw [e, bytes_done c fails _ (by simp)] at h; cases h
  | failed l => rw [e, bytes_done c fails _ (by simp)] at h; cases h
  | stuck => rw [e, bytes_done c fails _ (by simp)] at h; cases h

/-! ### What is accepted -/

/-- The tag with the given head bytes. -/
theorem head_of_bytes (t d2 d1 d0 s2 s1 s0 s3 i2 i1 i0 : UInt8) (ht : okType t) (d : Bytes) (hd : d.length = beDec [d2, d1, d0]) :
    ∃ g : Tag, g.Ok ∧ g.head = [t, d2, d1, d0, s2, s1, s0, s3, i2, i1, i0] ∧ g.data = d := by
  have a1 := beDec_lt [d2, d1, d0]
  have a2 := beDec_lt [i2, i1, i0]
  have a3 := beDec_lt [s2, s1, s0]
  have a4 := s3.toNat_lt
  have a5 := t.toNat_lt
  simp only [List.length_cons, List.length_nil] at a1 a2 a3
  refine ⟨⟨t.toNat, s3.toNat * 2 ^ 24 + beDec [s2, s1, s0], beDec [i2, i1, i0], d⟩, ⟨?_, ?_, ?_, ?_⟩, ?_, rfl⟩
  · show t.toNat = 8 ∨ t.toNat = 9 ∨ t.toNat = 18
    rcases ht with rfl | rfl | rfl <;> decide
  · show s3.toNat * 2 ^ 24 + beDec [s2, s1, s0] < 2 ^ 32; omega
  · show beDec [i2, i1, i0] < 2 ^ 24; omega
  · show d.length < 2 ^ 24; omega
  · have e1 := beEnc_beDec [d2, d1, d0]
    have e2 := beEnc_beDec [i2, i1, i0]
    have e3 := beEnc_beDec [s2, s1, s0]
    have e4 : (s3.toNat * 2 ^ 24 + beDec [s2, s1, s0]) % 2 ^ 24 = beDec [s2, s1, s0] := by omega
    have e5 : (s3.toNat * 2 ^ 24 + beDec [s2, s1, s0]) / 2 ^ 24 = s3.toNat := by omega
    have e6 : ∀ x : UInt8, beEnc 1 x.toNat = [x] := by intro x; simp [beEnc]
    simp only [Tag.head, e4, e5, e6, hd]
    have e1' : beEnc 3 (beDec [d2, d1, d0]) = [d2, d1, d0] := e1
    have e2' : beEnc 3 (beDec [i2, i1, i0]) = [i2, i1, i0] := e2
    have e3' : beEnc 3 (beDec [s2, s1, s0]) = [s2, s1, s0] := e3
    rw [e1', e2', e3']; rfl

/-- A prefix of tags, up to three more bytes of a back pointer. -/
def NearTags (z : Bytes) : Prop :=
  ∃ (ts : List Tag) (y r : Bytes), (∀ t ∈ ts, t.Ok) ∧ z = y ++ r ∧ r.length ≤ 3 ∧ y <+: ts.flatMap Tag.bytes

theorem explode11 (z : Bytes) (h : 11 ≤ z.length) : ∃ t d2 d1 d0 s2 s1 s0 s3 i2 i1 i0 rest, z = [t, d2, d1, d0, s2, s1, s0, s3, i2, i1, i0] ++ rest := by
  match z, h with
  | t :: d2 :: d1 :: d0 :: s2 :: s1 :: s0 :: s3 :: i2 :: i1 :: i0 :: rest, _ => exact ⟨t, d2, d1, d0, s2, s1, s0, s3, i2, i1, i0, rest, rfl⟩

theorem explode4 (z : Bytes) (h : 4 ≤ z.length) : ∃ a b c d rest, z = [a, b, c, d] ++ rest := by
  match z, h with
  | a :: b :: c :: d :: rest, _ => exact ⟨a, b, c, d, rest, rfl⟩

theorem near_of_idle (c : Nat) (fails : List Msg → Bool) : ∀ (n : Nat) (z : Bytes), z.length ≤ n → ∀ (p : P Bytes) (log : List Msg), AtTag p →
    (∃ p' log', bytes c fails (.idle p log) z = .idle p' log') → NearTags z := by
  intro n
  induction n with
  | zero =>
    intro z hz p log hp _
    have : z = [] := List.length_eq_zero_iff.1 (by omega)
    subst this
    exact ⟨[], [], [], by simp, rfl, by simp, List.nil_prefix⟩
  | succ n ih =>
    intro z hz p log hp hi
    cases z with
    | nil => exact ⟨[], [], [], by simp, rfl, by simp, List.nil_prefix⟩
    | cons t z' =>
      have ht : okType t := by
        by_cases h : okType t
        · exact h
        · obtain ⟨p', log', e⟩ := hi
          rw [run_badType c fails p log hp t h] at e
          cases e
      by_cases hl : (t :: z').length < 11
      · -- a head that is not complete: complete it with zeros
        obtain ⟨t', d2, d1, d0, s2, s1, s0, s3, i2, i1, i0, rest, e⟩ := explode11 (t :: z' ++ List.replicate (11 - (t :: z').length) 0) (by simp; omega)
        have htt : t' = t := by
          simp only [List.cons_append, List.cons.injEq] at e
          exact e.1.symm
        obtain ⟨g, g1, g2, g3⟩ := head_of_bytes t' d2 d1 d0 s2 s1 s0 s3 i2 i1 i0 (by rw [htt]; exact ht) (List.replicate (beDec [d2, d1, d0]) 0) (by simp)
        have hr : rest = [] := by
          have := congrArg List.length e
          simp only [List.length_append, List.length_cons, List.length_nil, List.length_replicate] at this
          simp only [List.length_cons] at hl
          exact List.length_eq_zero_iff.1 (by omega)
        refine ⟨[g], t :: z', [], by simpa using g1, by simp, by simp, ?_⟩
        refine ⟨List.replicate (11 - (t :: z').length) 0 ++ (g.data ++ g.back), ?_⟩
        rw [← List.append_assoc, e, hr, List.append_nil, ← g2]
        simp [Tag.bytes]
      · obtain ⟨t', d2, d1, d0, s2, s1, s0, s3, i2, i1, i0, rest, e⟩ := explode11 (t :: z') (by omega)
        have htt : t' = t := by
          simp only [List.cons_append, List.cons.injEq] at e
          exact e.1.symm
        subst htt
        rw [e] at hi hz ⊢
        by_cases hrest : rest.length < beDec [d2, d1, d0]
        · obtain ⟨g, g1, g2, g3⟩ := head_of_bytes t' d2 d1 d0 s2 s1 s0 s3 i2 i1 i0 ht (rest ++ List.replicate (beDec [d2, d1, d0] - rest.length) 0)
            (by simp; omega)
          refine ⟨[g], _, [], by simpa using g1, (List.append_nil _).symm, by simp, ?_⟩
          refine ⟨List.replicate (beDec [d2, d1, d0] - rest.length) 0 ++ g.back, ?_⟩
          simp only [List.flatMap_cons, List.flatMap_nil, List.append_nil, Tag.bytes, g2, g3, List.append_assoc]
        · obtain ⟨g, g1, g2, g3⟩ := head_of_bytes t' d2 d1 d0 s2 s1 s0 s3 i2 i1 i0 ht (rest.take (beDec [d2, d1, d0])) (by simp; omega)
          have hsp : rest = g.data ++ rest.drop (beDec [d2, d1, d0]) := by rw [g3, List.take_append_drop]
          have hlen : g.data.length = beDec [d2, d1, d0] := by rw [g3]; simp; omega
          by_cases hb : (rest.drop (beDec [d2, d1, d0])).length < 4
          · refine ⟨[g], g.head ++ g.data, rest.drop (beDec [d2, d1, d0]), by simpa using g1, ?_, by omega, ?_⟩
            · rw [g2, List.append_assoc, ← hsp]
            · exact ⟨g.back, by simp [Tag.bytes]⟩
          · obtain ⟨e3, e2, e1, e0, rest', e'⟩ := explode4 (rest.drop (beDec [d2, d1, d0])) (by omega)
            rw [e'] at hsp
            rw [hsp] at hi hz ⊢
            obtain ⟨q, l', hi⟩ := hi
            -- the message was taken
            have hne : ([t', d2, d1, d0, s2, s1, s0, s3, i2, i1, i0] ++ (g.data ++ ([e3, e2, e1, e0] ++ rest'))) =
              ([t', d2, d1, d0, s2, s1, s0, s3, i2, i1, i0] ++ (g.data ++ [e3, e2, e1, e0])) ++ rest' := by simp
            rw [hne] at hi hz ⊢
            by_cases hf : fails (log ++ [⟨t'.toNat, s3.toNat * 2 ^ 24 + beDec [s2, s1, s0], beDec [i2, i1, i0], g.data.length, cut c g.data⟩]) = true
            · exfalso
              rw [bytes_append, bytes_append, run_head c fails p log hp _ _ _ _ _ _ _ _ _ _ _ ht,
                run_data c fails _ log rfl g.data _ hlen (by exact hp.inp) (Or.inr (by simp))] at hi
              rw [hlen] at hf
              simp only [deliver, msgOf, hf, if_true] at hi
              rw [← bytes_append, bytes_done c fails _ (by simp)] at hi
              cases hi
            · obtain ⟨p', hp', hrun⟩ := run_tag c fails p log hp t' d2 d1 d0 s2 s1 s0 s3 i2 i1 i0 ht g.data hlen e3 e2 e1 e0 (by simpa using hf)
              rw [bytes_append, hrun] at hi
              by_cases hback : g.data.length + 11 = beDec [e3, e2, e1, e0]
              · rw [if_pos hback] at hi
                obtain ⟨ts, y, r, n1, n2, n3, n4⟩ := ih rest' (by simp at hz; omega) p' _ hp' ⟨q, l', hi⟩
                have hbk : g.back = [e3, e2, e1, e0] := by
                  have := beEnc_beDec [e3, e2, e1, e0]
                  rw [← hback] at this
                  rw [Tag.back, Nat.add_comm]; exact this
                refine ⟨g :: ts, g.bytes ++ y, r, ?_, ?_, n3, ?_⟩
                · intro t ht
                  rcases List.mem_cons.1 ht with rfl | ht
                  · exact g1
                  · exact n1 t ht
                · rw [n2, Tag.bytes, g2, hbk]; simp
                · rw [List.flatMap_cons]
                  exact (List.prefix_append_right_inj _).2 n4
              · rw [if_neg hback, bytes_done c fails _ (by simp)] at hi
                cases hi

/-- A prefix of a stream, up to three more bytes of a back pointer. -/
def NearStream (z : Bytes) : Prop :=
  ∃ (flags : UInt8) (off : Nat) (ts : List Tag) (y r : Bytes), (∀ t ∈ ts, t.Ok) ∧ z = y ++ r ∧ r.length ≤ 3 ∧
    y <+: fileHeader flags off ++ ts.flatMap Tag.bytes

theorem near_stream_of_idle (c : Nat) (fails : List Msg → Bool) (z : Bytes) (hi : ∃ p' log', bytes c fails (.idle { inp := [] } []) z = .idle p' log') :
    NearStream z := by
  obtain ⟨p', log', hi⟩ := hi
  -- the fixed bytes
  have fixed : ∀ (a : UInt8) (rest : Bytes), ∀ st st' (x : UInt8), st ≠ .data →
      (∀ b : UInt8, hdrStep ({ st := st, inp := [] } : P Bytes) b = if b = x then some { st := st', inp := [] } else none) →
      bytes c fails (.idle { st := st, inp := [] } []) (a :: rest) = .idle p' log' →
      a = x ∧ bytes c fails (.idle { st := st', inp := [] } []) rest = .idle p' log' := by
    intro a rest st st' x hst hh h
    rw [bytes_cons, step_head c fails _ _ _ hst, head1, hh a] at h
    by_cases hax : a = x
    · rw [if_pos hax] at h; exact ⟨hax, h⟩
    · rw [if_neg hax, bytes_done c fails _ (by simp)] at h; cases h
  have h0 : ∀ b : UInt8, hdrStep ({ st := .hF, inp := [] } : P Bytes) b = if b = 0x46 then some { st := .hFL, inp := [] } else none := fun _ => rfl
  have h1 : ∀ b : UInt8, hdrStep ({ st := .hFL, inp := [] } : P Bytes) b = if b = 0x4c then some { st := .hFLV, inp := [] } else none := fun _ => rfl
  have h2 : ∀ b : UInt8, hdrStep ({ st := .hFLV, inp := [] } : P Bytes) b = if b = 0x56 then some { st := .hVersion, inp := [] } else none := fun _ => rfl
  have h3 : ∀ b : UInt8, hdrStep ({ st := .hVersion, inp := [] } : P Bytes) b = if b = 1 then some { st := .hFlags, inp := [] } else none := by
    intro b
    by_cases hb : b = 1 <;> simp [hdrStep, hb]
  have pre : ∀ (y : Bytes), y <+: [0x46, 0x4c, 0x56, 1] → NearStream y := by
    intro y hy
    refine ⟨0, 0, [], y, [], by simp, by simp, by simp, ?_⟩
    obtain ⟨w, hw⟩ := hy
    exact ⟨w ++ [0, 0, 0, 0, 0, 0, 0, 0, 0], by rw [← List.append_assoc, hw]; rfl⟩
  match z, hi with
  | [], _ => exact pre [] List.nil_prefix
  | [a], hi =>
    obtain ⟨rfl, _⟩ := fixed a _ _ _ _ (by decide) h0 hi
    exact pre _ ⟨[0x4c, 0x56, 1], rfl⟩
  | [a, b], hi =>
    obtain ⟨rfl, hi⟩ := fixed a _ _ _ _ (by decide) h0 hi
    obtain ⟨rfl, hi⟩ := fixed b _ _ _ _ (by decide) h1 hi
    exact pre _ ⟨[0x56, 1], rfl⟩
  | [a, b, d], hi =>
    obtain ⟨rfl, hi⟩ := fixed a _ _ _ _ (by decide) h0 hi
    obtain ⟨rfl, hi⟩ := fixed b _ _ _ _ (by decide) h1 hi
    obtain ⟨rfl, hi⟩ := fixed d _ _ _ _ (by decide) h2 hi
    exact pre _ ⟨[1], rfl⟩
  | a :: b :: d :: e :: z', hi =>
    obtain ⟨rfl, hi1⟩ := fixed a _ _ _ _ (by decide) h0 hi
    obtain ⟨rfl, hi1⟩ := fixed b _ _ _ _ (by decide) h1 hi1
    obtain ⟨rfl, hi1⟩ := fixed d _ _ _ _ (by decide) h2 hi1
    obtain ⟨rfl, hi1⟩ := fixed e _ _ _ _ (by decide) h3 hi1
    by_cases hz : z'.length < 9
    · -- flags and offset, and at most three bytes of the back pointer
      by_cases h5 : z'.length ≤ 5
      · obtain ⟨fl, o3, o2, o1, o0, rest, ex⟩ : ∃ fl o3 o2 o1 o0 rest, z' ++ List.replicate (5 - z'.length) 0 = [fl, o3, o2, o1, o0] ++ rest := by
          generalize hw : z' ++ List.replicate (5 - z'.length) 0 = w
          have : w.length = 5 := by rw [← hw]; simp; omega
          match w, this with
          | [fl, o3, o2, o1, o0], _ => exact ⟨fl, o3, o2, o1, o0, [], rfl⟩
        have hr : rest = [] := by
          have := congrArg List.length ex
          simp only [List.length_append, List.length_cons, List.length_nil, List.length_replicate] at this
          exact List.length_eq_zero_iff.1 (by omega)
        refine ⟨fl, beDec [o3, o2, o1, o0], [], _, [], by simp, (List.append_nil _).symm, by simp, ?_⟩
        have eo : beEnc 4 (beDec [o3, o2, o1, o0]) = [o3, o2, o1, o0] := beEnc_beDec [o3, o2, o1, o0]
        refine ⟨List.replicate (5 - z'.length) 0 ++ beEnc 4 0, ?_⟩
        simp only [fileHeader, eo, List.cons_append, List.flatMap_nil, List.append_nil]
        rw [← List.append_assoc, ex, hr]
        rfl
      · obtain ⟨fl, o3, o2, o1, o0, rest, rfl⟩ : ∃ fl o3 o2 o1 o0 rest, z' = [fl, o3, o2, o1, o0] ++ rest := by
          match z', h5 with
          | fl :: o3 :: o2 :: o1 :: o0 :: rest, _ => exact ⟨fl, o3, o2, o1, o0, rest, rfl⟩
          | [_, _, _, _], h => simp at h
          | [_, _, _], h => simp at h
          | [_, _], h => simp at h
          | [_], h => simp at h
          | [], h => simp at h
        have eo : beEnc 4 (beDec [o3, o2, o1, o0]) = [o3, o2, o1, o0] := beEnc_beDec [o3, o2, o1, o0]
        refine ⟨fl, beDec [o3, o2, o1, o0], [], [0x46, 0x4c, 0x56, 1, fl, o3, o2, o1, o0], rest, by simp, rfl, by simp at hz; omega, ?_⟩
        exact ⟨beEnc 4 0, by simp only [fileHeader, eo]; rfl⟩
    · obtain ⟨fl, o3, o2, o1, o0, e3, e2, e1, e0, rest, rfl⟩ : ∃ fl o3 o2 o1 o0 e3 e2 e1 e0 rest, z' = [fl, o3, o2, o1, o0, e3, e2, e1, e0] ++ rest := by
        match z', hz with
        | fl :: o3 :: o2 :: o1 :: o0 :: e3 :: e2 :: e1 :: e0 :: rest, _ => exact ⟨fl, o3, o2, o1, o0, e3, e2, e1, e0, rest, rfl⟩
        | [_, _, _, _, _, _, _, _], h => simp at h
        | [_, _, _, _, _, _, _], h => simp at h
        | [_, _, _, _, _, _], h => simp at h
        | [_, _, _, _, _], h => simp at h
        | [_, _, _, _], h => simp at h
        | [_, _, _], h => simp at h
        | [_, _], h => simp at h
        | [_], h => simp at h
        | [], h => simp at h
      have eo : beEnc 4 (beDec [o3, o2, o1, o0]) = [o3, o2, o1, o0] := beEnc_beDec [o3, o2, o1, o0]
      obtain ⟨q, hq, hrun⟩ := run_header c fails fl o3 o2 o1 o0 e3 e2 e1 e0
      have hi' : bytes c fails (.idle { inp := [] } []) ([0x46, 0x4c, 0x56, 1, fl, o3, o2, o1, o0, e3, e2, e1, e0] ++ rest) = .idle p' log' := hi
      rw [bytes_append, hrun] at hi'
      by_cases hz0 : beDec [e3, e2, e1, e0] = 0
      · rw [if_pos hz0] at hi'
        obtain ⟨ts, y, r, n1, n2, n3, n4⟩ := near_of_idle c fails rest.length rest (Nat.le_refl _) q [] hq ⟨_, _, hi'⟩
        have eb : beEnc 4 0 = [e3, e2, e1, e0] := by
          have := beEnc_beDec [e3, e2, e1, e0]
          rw [hz0] at this; exact this
        refine ⟨fl, beDec [o3, o2, o1, o0], ts, fileHeader fl (beDec [o3, o2, o1, o0]) ++ y, r, n1, ?_, n3, (List.prefix_append_right_inj _).2 n4⟩
        simp only [fileHeader, eo, eb, n2]
        simp
      · rw [if_neg hz0, bytes_done c fails _ (by simp)] at hi'
        cases hi'

end Verif.Flv
