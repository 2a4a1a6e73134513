import Verif.Rtmp.FlvLemmas
/- The byte machine on headers and tags. -/
namespace Verif.Flv
open Verif

theorem be3 (a b c : UInt8) : setByte (setByte (setByte 0 2 a) 1 b) 0 c = beDec [a, b, c] := by
  have := a.toNat_lt
  have := b.toNat_lt
  have := c.toNat_lt
  simp only [setByte, beDec, List.foldl]
  omega

theorem be4 (a b c d : UInt8) : setByte (setByte (setByte (setByte 0 3 a) 2 b) 1 c) 0 d = beDec [a, b, c, d] := by
  have := a.toNat_lt
  have := b.toNat_lt
  have := c.toNat_lt
  have := d.toNat_lt
  simp only [setByte, beDec, List.foldl]
  omega

theorem ts4 (x : Nat) (a b c d : UInt8) : setByte (setByte (setByte (setByte x 2 a) 1 b) 0 c) 3 d = d.toNat * 2 ^ 24 + beDec [a, b, c] := by
  have := a.toNat_lt
  have := b.toNat_lt
  have := c.toNat_lt
  have := d.toNat_lt
  simp only [setByte, beDec, List.foldl]
  omega

/-- Between two tags, after the back pointer. -/
structure AtTag (p : P Bytes) : Prop where
  st : p.st = .tagtype
  inp : p.inp = []
  first : p.first = true

/-- The allowed tag types. -/
def okType (t : UInt8) : Prop := t = 18 ∨ t = 8 ∨ t = 9

instance (t : UInt8) : Decidable (okType t) := by unfold okType; infer_instance

variable (c : Nat) (fails : List Msg → Bool)

theorem bytes_cons (r : Res Bytes) (b : UInt8) (bs : Bytes) : bytes c fails r (b :: bs) = bytes c fails (byte1 c fails r b) bs := rfl

theorem bytes_nil (r : Res Bytes) : bytes c fails r [] = r := rfl

theorem step_head (p : P Bytes) (log : List Msg) (b : UInt8) (h : p.st ≠ .data) : byte1 c fails (.idle p log) b = head1 p log b := by
  simp only [byte1, if_neg h]

theorem run_head (p : P Bytes) (log : List Msg) (hp : AtTag p) (t d2 d1 d0 s2 s1 s0 s3 i2 i1 i0 : UInt8) (ht : okType t) :
    bytes c fails (.idle p log) [t, d2, d1, d0, s2, s1, s0, s3, i2, i1, i0] =
      .idle { p with st := .data, type := t.toNat, mlen := beDec [d2, d1, d0], len := beDec [d2, d1, d0],
                     ts := s3.toNat * 2 ^ 24 + beDec [s2, s1, s0], msid := beDec [i2, i1, i0] } log := by
  obtain ⟨st, tagsize, first, type, mlen, ts, msid, len, inp⟩ := p
  obtain ⟨h1, h2, h3⟩ := hp
  simp only at h1 h2 h3
  subst h1
  have ht' : ¬ (t ≠ 18 ∧ t ≠ 8 ∧ t ≠ 9) := by
    rcases ht with h | h | h <;> simp [h]
  simp only [bytes_cons, bytes_nil, byte1, head1, hdrStep, if_neg ht', reduceCtorEq, if_false, be3, ts4]

theorem run_badType (p : P Bytes) (log : List Msg) (hp : AtTag p) (t : UInt8) (ht : ¬ okType t) (bs : Bytes) :
    bytes c fails (.idle p log) (t :: bs) = .bad log := by
  have ht' : t ≠ 18 ∧ t ≠ 8 ∧ t ≠ 9 := by
    unfold okType at ht
    refine ⟨fun h => ht (Or.inl h), fun h => ht (Or.inr (Or.inl h)), fun h => ht (Or.inr (Or.inr h))⟩
  rw [bytes_cons, step_head c fails p log t (by simp [hp.st])]
  simp only [head1, hdrStep, hp.st, if_pos ht']
  exact bytes_done c fails _ (by simp) bs

/-- The back pointer. -/
theorem run_back (p : P Bytes) (log : List Msg) (h1 : p.st = .tagsize0) (h2 : p.first = true) (a b d e : UInt8) :
    bytes c fails (.idle p log) [a, b, d, e] =
      if p.mlen + 11 = beDec [a, b, d, e] then .idle { p with st := .tagtype, tagsize := beDec [a, b, d, e] } log else .bad log := by
  obtain ⟨st, tagsize, first, type, mlen, ts, msid, len, inp⟩ := p
  simp only at h1 h2
  subst h1 h2
  simp only [bytes_cons, bytes_nil, byte1, head1, hdrStep, reduceCtorEq, if_false, be4, and_false]
  by_cases h : mlen + 11 = beDec [a, b, d, e] <;> simp [h]

/-- The payload, up to the moment of delivery. The next byte is needed if the payload is empty. -/
theorem run_data (p : P Bytes) (log : List Msg) (h1 : p.st = .data) (d rest : Bytes) (hd : d.length = p.len) (h2 : p.inp = [])
    (hne : d ≠ [] ∨ rest ≠ []) :
    bytes c fails (.idle p log) (d ++ rest) = bytes c fails (deliver c fails { p with inp := d, len := 0 } log) rest := by
  by_cases h : d = []
  · subst h
    have hl : p.len = 0 := by simpa using hd.symm
    cases rest with
    | nil => simp at hne
    | cons b rest =>
      rw [List.nil_append, bytes_cons, bytes_cons]
      have hpe : ({ p with inp := [], len := 0 } : P Bytes) = p := by
        obtain ⟨st, tagsize, first, type, mlen, ts, msid, len, inp⟩ := p
        simp only at h2 hl
        subst h2 hl; rfl
      rw [hpe]
      congr 1
      simp only [byte1, h1, if_pos, data1, hl]
      by_cases hf : fails (log ++ [msgOf c p]) <;> simp [deliver, hf]
  · rw [bytes_append, bytes_data_all c fails p log h1 d hd h, h2, List.nil_append]

/-- A whole tag whose back pointer is `back`. -/
theorem run_tag (p : P Bytes) (log : List Msg) (hp : AtTag p) (t d2 d1 d0 s2 s1 s0 s3 i2 i1 i0 : UInt8) (ht : okType t) (d : Bytes)
    (hd : d.length = beDec [d2, d1, d0]) (e3 e2 e1 e0 : UInt8)
    (hf : fails (log ++ [⟨t.toNat, s3.toNat * 2 ^ 24 + beDec [s2, s1, s0], beDec [i2, i1, i0], d.length, cut c d⟩]) = false) :
    ∃ p', AtTag p' ∧ bytes c fails (.idle p log) ([t, d2, d1, d0, s2, s1, s0, s3, i2, i1, i0] ++ (d ++ [e3, e2, e1, e0])) =
      if d.length + 11 = beDec [e3, e2, e1, e0] then
        .idle p' (log ++ [⟨t.toNat, s3.toNat * 2 ^ 24 + beDec [s2, s1, s0], beDec [i2, i1, i0], d.length, cut c d⟩])
      else .bad (log ++ [⟨t.toNat, s3.toNat * 2 ^ 24 + beDec [s2, s1, s0], beDec [i2, i1, i0], d.length, cut c d⟩]) := by
  rw [hd] at hf ⊢
  rw [bytes_append, run_head c fails p log hp _ _ _ _ _ _ _ _ _ _ _ ht, run_data c fails _ log rfl d _ hd (by exact hp.inp) (Or.inr (by simp))]
  simp only [deliver, msgOf, hf, Bool.false_eq_true, if_false]
  rw [run_back c fails _ _ rfl (by exact hp.first)]
  exact ⟨{ p with st := .tagtype, tagsize := beDec [e3, e2, e1, e0], type := t.toNat, mlen := beDec [d2, d1, d0], len := 0, inp := [],
                  ts := s3.toNat * 2 ^ 24 + beDec [s2, s1, s0], msid := beDec [i2, i1, i0] }, ⟨rfl, rfl, hp.first⟩, rfl⟩

/-- The back pointer at the start. -/
theorem run_first (p : P Bytes) (h1 : p.st = .tagsize0) (h2 : p.first = false) (h3 : p.mlen = 0) (a b d e : UInt8) :
    bytes c fails (.idle p []) [a, b, d, e] =
      if beDec [a, b, d, e] = 0 then .idle { p with st := .tagtype, first := true, tagsize := beDec [a, b, d, e] } [] else .bad [] := by
  obtain ⟨st, tagsize, first, type, mlen, ts, msid, len, inp⟩ := p
  simp only at h1 h2 h3
  subst h1 h2
  simp only [bytes_cons, bytes_nil, byte1, head1, hdrStep, reduceCtorEq, if_false, be4, and_true, if_pos h3]
  by_cases h : beDec [a, b, d, e] = 0
  · rw [if_neg (fun g => g h), if_pos h]
  · rw [if_pos h, if_neg h]

/-- The file header. -/
theorem run_header (flags o3 o2 o1 o0 e3 e2 e1 e0 : UInt8) :
    ∃ p', AtTag p' ∧ bytes c fails (.idle { inp := [] } []) [0x46, 0x4c, 0x56, 1, flags, o3, o2, o1, o0, e3, e2, e1, e0] =
      if beDec [e3, e2, e1, e0] = 0 then .idle p' [] else .bad [] := by
  have h : bytes c fails (.idle { inp := [] } []) [0x46, 0x4c, 0x56, 1, flags, o3, o2, o1, o0] = .idle { st := .tagsize0, inp := [] } [] := rfl
  rw [show [0x46, 0x4c, 0x56, 1, flags, o3, o2, o1, o0, e3, e2, e1, e0] =
    [0x46, 0x4c, 0x56, 1, flags, o3, o2, o1, o0] ++ [e3, e2, e1, e0] from rfl, bytes_append, h, run_first c fails _ rfl rfl rfl]
  exact ⟨{ st := .tagtype, first := true, tagsize := beDec [e3, e2, e1, e0], inp := [] }, ⟨rfl, rfl, rfl⟩, rfl⟩

end Verif.Flv
