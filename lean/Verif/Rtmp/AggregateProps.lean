import Verif.Rtmp.AggregateModel
/-
C18: aggregate messages are unpacked exactly. C42: nesting.
-/
namespace Verif.Aggregate
open Verif
variable {σ : Type}

/-! ### Specification -/

/-- A message inside an aggregate. -/
structure Sub where
  type : Nat
  ts : Nat
  msid : Nat
  payload : Bytes
  back : Nat      -- the back pointer, not interpreted
deriving DecidableEq, Repr

structure Sub.Ok (s : Sub) : Prop where
  type : s.type < 2 ^ 8
  ts : s.ts < 2 ^ 32
  msid : s.msid < 2 ^ 24
  len : s.payload.length < 2 ^ 24
  back : s.back < 2 ^ 32

/-- Header of a sub-message that announces `mlen` bytes: type, length, timestamp (lower 24 bits, then upper 8 bits), stream. -/
def header (s : Sub) (mlen : Nat) : Bytes :=
  beEnc 1 s.type ++ (beEnc 3 mlen ++ (beEnc 3 (s.ts % 2 ^ 24) ++ (beEnc 1 (s.ts / 2 ^ 24) ++ beEnc 3 s.msid)))

def Sub.bytes (s : Sub) : Bytes := header s s.payload.length ++ (s.payload ++ beEnc 4 s.back)

/-- What follows the last complete sub-message. -/
inductive Tail where
  | nothing
  /-- a beginning of a header -/
  | shortHeader (bs : Bytes)
  /-- a header announcing `mlen` bytes, with at most `mlen` bytes after it -/
  | shortBody (s : Sub) (mlen : Nat)
  /-- a complete sub-message with a truncated back pointer -/
  | shortBack (s : Sub) (bs : Bytes)

def Tail.Ok : Tail → Prop
  | .nothing => True
  | .shortHeader bs => bs ≠ [] ∧ bs.length < 11
  | .shortBody s mlen => s.Ok ∧ mlen < 2 ^ 24 ∧ s.payload.length ≤ mlen
  | .shortBack s bs => s.Ok ∧ bs ≠ [] ∧ bs.length < 4

def Tail.bytes : Tail → Bytes
  | .nothing => []
  | .shortHeader bs => bs
  | .shortBody s mlen => header s mlen ++ s.payload
  | .shortBack s bs => header s s.payload.length ++ (s.payload ++ bs)

/-- Messages in a tail, and whether the tail is acceptable. -/
def Tail.msgs : Tail → List Sub
  | .shortBack s _ => [s]
  | _ => []

def Tail.good : Tail → Bool
  | .nothing | .shortBack _ _ => true
  | .shortHeader _ | .shortBody _ _ => false

/-- Header given to the handler: timestamps are shifted so that the first sub-message gets the aggregate's. -/
def subHdr (h : Hdr) (base : Nat) (s : Sub) : Hdr :=
  { h with type := s.type, mlen := s.payload.length, msid := s.msid, ts := (h.ts + (s.ts + 2 ^ 32 - base)) % 2 ^ 32 }

/-- Give the messages to the handler one after the other until it refuses one. -/
def deliver (recv : σ → Hdr → Bytes → σ × Bool) (h : Hdr) (base : Nat) : σ → List Sub → σ × Bool
  | x, [] => (x, true)
  | x, s :: ss =>
    match recv x (subHdr h base s) s.payload with
    | (x', true) => deliver recv h base x' ss
    | (x', false) => (x', false)

/-- Timestamp of the first message. -/
def baseOf (subs : List Sub) : Nat := (subs.head?.map Sub.ts).getD 0

/-! ### Lemmas -/

theorem fetch_spec (c : Chain) : match c.flatten with
    | [] => fetch c = none
    | b :: bs => ∃ c', fetch c = some (b, c') ∧ c'.flatten = bs := by
  induction c with
  | nil => rfl
  | cons b r ih =>
    cases b with
    | nil => simpa [fetch] using ih
    | cons a as => exact ⟨as :: r, rfl, rfl⟩

theorem beDec_acc (acc : Nat) (b : UInt8) (bs : Bytes) :
    acc * 256 ^ (b :: bs).length + beDec (b :: bs) = (acc * 256 + b.toNat) * 256 ^ bs.length + beDec bs := by
  rw [beDec_cons, List.length_cons, Nat.pow_succ, Nat.add_mul, Nat.mul_assoc, Nat.mul_comm 256]
  omega

theorem fetchN_some (n acc : Nat) (c : Chain) (pre post : Bytes) (hn : pre.length = n) (hc : c.flatten = pre ++ post) :
    ∃ c', fetchN n acc c = some (acc * 256 ^ n + beDec pre, c') ∧ c'.flatten = post := by
  induction n generalizing acc c pre with
  | zero =>
    rw [List.length_eq_zero_iff.1 hn] at hc ⊢
    exact ⟨c, by simp [fetchN, beDec], hc⟩
  | succ n ih =>
    cases pre with
    | nil => simp at hn
    | cons b bs =>
      have hf := fetch_spec c
      rw [hc, List.cons_append] at hf
      obtain ⟨c1, h1, h2⟩ := hf
      obtain ⟨c2, h3, h4⟩ := ih (acc * 256 + b.toNat) c1 bs (by simpa using hn) h2
      refine ⟨c2, ?_, h4⟩
      rw [fetchN, h1]
      simp only
      rw [h3, ← hn, beDec_acc]
      have hbs : bs.length = n := by simpa using hn
      rw [hbs]

theorem fetchN_none (n acc : Nat) (c : Chain) (hc : c.flatten.length < n) : fetchN n acc c = none := by
  induction n generalizing acc c with
  | zero => omega
  | succ n ih =>
    have hf := fetch_spec c
    cases hb : c.flatten with
    | nil => rw [hb] at hf; simp only at hf; rw [fetchN, hf]
    | cons b bs =>
      rw [hb] at hf hc
      obtain ⟨c1, h1, h2⟩ := hf
      rw [fetchN, h1]
      exact ih _ _ (by rw [h2]; simpa using hc)

theorem cut_some (mlen : Nat) (c : Chain) (len : Nat) (pre post : Bytes) (hlen : len ≤ mlen) (hp : len + pre.length = mlen)
    (hpost : post ≠ []) (hc : c.flatten = pre ++ post) :
    ∃ m c', cut mlen len c = some (m, c') ∧ m.flatten = pre ∧ c'.flatten = post := by
  induction c generalizing len pre with
  | nil => simp only [List.flatten_nil] at hc; exact absurd (List.append_eq_nil_iff.1 hc.symm).2 hpost
  | cons b r ih =>
    rw [List.flatten_cons] at hc
    unfold cut
    by_cases hb : len + b.length > mlen
    · simp only [hb, if_true]
      have hk : b.length - (len + b.length - mlen) = pre.length := by omega
      rw [hk]
      refine ⟨_, _, rfl, ?_, ?_⟩
      · have := congrArg (List.take pre.length) hc
        rw [List.take_append_of_le_length (by omega), List.take_left' rfl] at this
        simpa using this
      · have := congrArg (List.drop pre.length) hc
        rw [List.drop_append_of_le_length (by omega), List.drop_left' rfl] at this
        simpa using this
    · simp only [hb, if_false]
      have hble : b.length ≤ pre.length := by omega
      have h1 : pre = b ++ pre.drop b.length := by
        have := congrArg (List.take b.length) hc
        rw [List.take_left' rfl, List.take_append_of_le_length hble] at this
        conv => lhs; rw [← List.take_append_drop b.length pre]
        rw [← this]
      have h2 : r.flatten = pre.drop b.length ++ post := by
        have := congrArg (List.drop b.length) hc
        rw [List.drop_left' rfl, List.drop_append_of_le_length hble] at this
        exact this
      obtain ⟨m, c', e1, e2, e3⟩ := ih (len + b.length) (pre.drop b.length) (by omega) (by rw [List.length_drop]; omega) h2
      refine ⟨b :: m, c', by rw [e1]; rfl, ?_, e3⟩
      rw [List.flatten_cons, e2, ← h1]

theorem cut_none (mlen : Nat) (c : Chain) (len : Nat) (hc : len + c.flatten.length ≤ mlen) : cut mlen len c = none := by
  induction c generalizing len with
  | nil => rfl
  | cons b r ih =>
    rw [List.flatten_cons, List.length_append] at hc
    unfold cut
    rw [if_neg (by omega), ih _ (by omega)]
    rfl

theorem beDec_beEnc0 (k n : Nat) (h : n < 256 ^ k) : 0 * 256 ^ k + beDec (beEnc k n) = n := by
  rw [Nat.zero_mul, Nat.zero_add, beDec_beEnc_of_lt h]

/-- A round after a complete header. -/
theorem round_header (recv : σ → Hdr → Bytes → σ × Bool) (h : Hdr) (x : σ) (base : Option Nat) (c : Chain) (s : Sub) (mlen : Nat)
    (rest : Bytes) (h1 : s.type < 2 ^ 8) (h2 : s.ts < 2 ^ 32) (h3 : s.msid < 2 ^ 24) (h4 : mlen < 2 ^ 24)
    (hc : c.flatten = header s mlen ++ rest) :
    ∃ c', c'.flatten = rest ∧ round recv h x base c =
      match cut mlen 0 c' with
      | none => .ret x false
      | some (m, c) =>
        match recv x { h with type := s.type, mlen := mlen, msid := s.msid,
                              ts := (h.ts + s.ts + 2 ^ 32 - base.getD s.ts) % 2 ^ 32 } m.flatten with
        | (x, false) => .ret x false
        | (x, true) =>
          match fetchN 4 0 c with
          | none => .ret x true
          | some (_, c) => .again x (some (base.getD s.ts)) c := by
  unfold header at hc
  simp only [List.append_assoc] at hc
  obtain ⟨c1, e1, hc⟩ := fetchN_some 1 0 c _ _ (beEnc_length 1 _) hc
  obtain ⟨c2, e2, hc⟩ := fetchN_some 3 0 c1 _ _ (beEnc_length 3 _) hc
  obtain ⟨c3, e3, hc⟩ := fetchN_some 3 0 c2 _ _ (beEnc_length 3 _) hc
  obtain ⟨c4, e4, hc⟩ := fetchN_some 1 0 c3 _ _ (beEnc_length 1 _) hc
  obtain ⟨c5, e5, hc⟩ := fetchN_some 3 0 c4 _ _ (beEnc_length 3 _) hc
  rw [beDec_beEnc0 _ _ (by omega)] at e1 e2 e3 e4 e5
  refine ⟨c5, hc, ?_⟩
  have ht : s.ts / 2 ^ 24 * 2 ^ 24 + s.ts % 2 ^ 24 = s.ts := by omega
  unfold round
  simp only [e1, e2, e3, e4, e5, ht]
  rfl

theorem header_length (s : Sub) (mlen : Nat) : (header s mlen).length = 11 := by
  simp [header, beEnc_length]

theorem shift_ts (a b base : Nat) (hb : base < 2 ^ 32) : (a + b + 2 ^ 32 - base) % 2 ^ 32 = (a + (b + 2 ^ 32 - base)) % 2 ^ 32 := by
  congr 1; omega

/-- A round on a complete sub-message followed by something. -/
theorem round_sub (recv : σ → Hdr → Bytes → σ × Bool) (h : Hdr) (x : σ) (base : Option Nat) (hbase : base.getD 0 < 2 ^ 32)
    (c : Chain) (s : Sub) (rest : Bytes) (hs : s.Ok) (hr : rest ≠ [])
    (hc : c.flatten = header s s.payload.length ++ (s.payload ++ rest)) :
    ∃ c', c'.flatten = rest ∧ round recv h x base c =
      match recv x (subHdr h (base.getD s.ts) s) s.payload with
      | (x, false) => .ret x false
      | (x, true) =>
        match fetchN 4 0 c' with
        | none => .ret x true
        | some (_, c) => .again x (some (base.getD s.ts)) c := by
  obtain ⟨c1, e1, e2⟩ := round_header recv h x base c s s.payload.length _ hs.type hs.ts hs.msid hs.len hc
  obtain ⟨m, c', e3, e4, e5⟩ := cut_some s.payload.length c1 0 s.payload rest (Nat.zero_le _) (Nat.zero_add _) hr e1
  refine ⟨c', e5, ?_⟩
  rw [e2]
  simp only [e3, e4]
  unfold subHdr
  rw [shift_ts _ _ _ (by cases base with
    | none => exact hs.ts
    | some b => exact hbase)]

theorem header_split (bs : Bytes) (h : 11 ≤ bs.length) :
    ∃ s : Sub, ∃ mlen, s.type < 2 ^ 8 ∧ s.ts < 2 ^ 32 ∧ s.msid < 2 ^ 24 ∧ mlen < 2 ^ 24 ∧ s.payload = [] ∧ s.back = 0 ∧
      bs = header s mlen ++ bs.drop 11 := by
  match bs, h with
  | b0 :: b1 :: b2 :: b3 :: b4 :: b5 :: b6 :: b7 :: b8 :: b9 :: b10 :: r, _ =>
    have l1 : ∀ a : UInt8, beDec [a] < 2 ^ 8 := fun a => by have := beDec_lt [a]; simpa using this
    have l3 : ∀ a b c : UInt8, beDec [a, b, c] < 2 ^ 24 := fun a b c => by have := beDec_lt [a, b, c]; simpa using this
    have e1 : ∀ a : UInt8, beEnc 1 (beDec [a]) = [a] := fun a => beEnc_beDec [a]
    have e3 : ∀ a b c : UInt8, beEnc 3 (beDec [a, b, c]) = [a, b, c] := fun a b c => beEnc_beDec [a, b, c]
    refine ⟨⟨beDec [b0], beDec [b7] * 2 ^ 24 + beDec [b4, b5, b6], beDec [b8, b9, b10], [], 0⟩, beDec [b1, b2, b3],
      l1 _, ?_, l3 _ _ _, l3 _ _ _, rfl, rfl, ?_⟩
    · have := l1 b7; have := l3 b4 b5 b6; show _ + _ < _; omega
    · have h1 : (beDec [b7] * 2 ^ 24 + beDec [b4, b5, b6]) % 2 ^ 24 = beDec [b4, b5, b6] := by
        have := l3 b4 b5 b6; omega
      have h2 : (beDec [b7] * 2 ^ 24 + beDec [b4, b5, b6]) / 2 ^ 24 = beDec [b7] := by
        have := l3 b4 b5 b6; omega
      simp only [header, h1, h2, e1, e3]
      rfl

/-! ### Property theorems -/

theorem deliver_append (recv : σ → Hdr → Bytes → σ × Bool) (h : Hdr) (base : Nat) (x : σ) (a b : List Sub) :
    deliver recv h base x (a ++ b) = match deliver recv h base x a with
      | (x', true) => deliver recv h base x' b
      | (x', false) => (x', false) := by
  induction a generalizing x with
  | nil => rfl
  | cons s a ih =>
    simp only [List.cons_append, deliver]
    rcases recv x (subHdr h base s) s.payload with ⟨x', _ | _⟩
    · rfl
    · exact ih x'

theorem loop_spec (recv : σ → Hdr → Bytes → σ × Bool) (h : Hdr) (subs : List Sub) (hs : ∀ s ∈ subs, s.Ok) (t : Tail) (ht : t.Ok)
    (n : Nat) (x : σ) (base : Option Nat) (hbase : base.getD 0 < 2 ^ 32) (c : Chain)
    (hn : c.flatten.length < n) (hc : c.flatten = (subs.map Sub.bytes).flatten ++ t.bytes) :
    loop recv h n x base c = some (match deliver recv h (base.getD (baseOf (subs ++ t.msgs))) x (subs ++ t.msgs) with
      | (x', true) => (x', t.good)
      | (x', false) => (x', false)) := by
  induction subs generalizing n x base c with
  | nil =>
    simp only [List.map_nil, List.flatten_nil, List.nil_append] at hc ⊢
    obtain ⟨n, rfl⟩ : ∃ k, n = k + 1 := ⟨n - 1, by omega⟩
    cases t with
    | nothing =>
      have : round recv h x base c = .ret x true := by
        unfold round
        rw [fetchN_none 1 0 c (by rw [hc]; decide)]
      simp only [loop, this, Tail.msgs, deliver, Tail.good]
    | shortHeader bs =>
      obtain ⟨h1, h2⟩ := ht
      simp only [Tail.bytes] at hc
      have : round recv h x base c = .ret x false := by
        have split : ∀ k, k ≤ bs.length → bs = bs.take k ++ bs.drop k := fun k _ => (List.take_append_drop k bs).symm
        have hpos := List.length_pos_iff.2 h1
        unfold round
        obtain ⟨c1, e1, hc1⟩ := fetchN_some 1 0 c (bs.take 1) (bs.drop 1) (by rw [List.length_take]; omega)
          (by rw [hc]; exact (List.take_append_drop 1 bs).symm)
        simp only [e1]
        have l1 : c1.flatten.length = bs.length - 1 := by rw [hc1, List.length_drop]
        by_cases g1 : c1.flatten.length < 3
        · rw [fetchN_none 3 0 c1 g1]
        obtain ⟨c2, e2, hc2⟩ := fetchN_some 3 0 c1 (c1.flatten.take 3) (c1.flatten.drop 3) (by rw [List.length_take]; omega)
          (List.take_append_drop 3 _).symm
        simp only [e2]
        have l2 : c2.flatten.length = bs.length - 4 := by rw [hc2, List.length_drop, l1]; omega
        by_cases g2 : c2.flatten.length < 3
        · rw [fetchN_none 3 0 c2 g2]
        obtain ⟨c3, e3, hc3⟩ := fetchN_some 3 0 c2 (c2.flatten.take 3) (c2.flatten.drop 3) (by rw [List.length_take]; omega)
          (List.take_append_drop 3 _).symm
        simp only [e3]
        have l3 : c3.flatten.length = bs.length - 7 := by rw [hc3, List.length_drop, l2]; omega
        by_cases g3 : c3.flatten.length < 1
        · rw [fetchN_none 1 0 c3 g3]
        obtain ⟨c4, e4, hc4⟩ := fetchN_some 1 0 c3 (c3.flatten.take 1) (c3.flatten.drop 1) (by rw [List.length_take]; omega)
          (List.take_append_drop 1 _).symm
        simp only [e4]
        have l4 : c4.flatten.length = bs.length - 8 := by rw [hc4, List.length_drop, l3]; omega
        rw [fetchN_none 3 0 c4 (by omega)]
      simp only [loop, this, Tail.msgs, deliver, Tail.good]
    | shortBody s mlen =>
      obtain ⟨h1, h2, h3⟩ := ht
      obtain ⟨c', e1, e2⟩ := round_header recv h x base c s mlen s.payload h1.type h1.ts h1.msid h2 hc
      rw [cut_none mlen c' 0 (by rw [e1]; omega)] at e2
      simp only [loop, e2, Tail.msgs, deliver, Tail.good]
    | shortBack s bs =>
      obtain ⟨h1, h2, h3⟩ := ht
      obtain ⟨c', e1, e2⟩ := round_sub recv h x base hbase c s bs h1 h2 hc
      rw [fetchN_none 4 0 c' (by rw [e1]; exact h3)] at e2
      simp only [loop, e2, Tail.msgs, deliver, Tail.good, baseOf, List.head?_cons, Option.map_some, Option.getD_some]
      rcases recv x (subHdr h (base.getD s.ts) s) s.payload with ⟨x', _ | _⟩ <;> rfl
  | cons s subs ih =>
    obtain ⟨n, rfl⟩ : ∃ k, n = k + 1 := ⟨n - 1, by omega⟩
    simp only [List.map_cons, List.flatten_cons, Sub.bytes, List.append_assoc] at hc
    have hso := hs s (by simp)
    have hne : beEnc 4 s.back ++ ((subs.map Sub.bytes).flatten ++ t.bytes) ≠ [] := by
      intro hh
      have := congrArg List.length hh
      simp [beEnc_length] at this
    obtain ⟨c', e1, e2⟩ := round_sub recv h x base hbase c s _ hso hne hc
    obtain ⟨c2, e3, e4⟩ := fetchN_some 4 0 c' _ _ (beEnc_length 4 _) e1
    rw [e3] at e2
    have hb : baseOf (s :: subs ++ t.msgs) = s.ts := rfl
    rw [hb]
    simp only [loop, e2, List.cons_append, deliver]
    rcases recv x (subHdr h (base.getD s.ts) s) s.payload with ⟨x', _ | _⟩
    · rfl
    · simp only
      have hl : c2.flatten.length < n := by
        rw [e4]
        have := congrArg List.length hc
        simp only [List.length_append, header_length, beEnc_length] at this ⊢
        omega
      rw [ih (fun s hs' => hs s (by simp [hs'])) n x' (some (base.getD s.ts)) (by
        show base.getD s.ts < 2 ^ 32
        cases base with
        | none => exact hso.ts
        | some b => exact hbase) c2 hl e4]
      rfl

/-- C18: the payload of an aggregate, however spread over buffers, that consists of complete sub-messages followed by an
incomplete one or nothing is handled by delivering exactly the complete sub-messages in order, with their type, stream and
payload and with timestamps shifted so that the first one has the aggregate's, until the handler refuses one; a
truncated header or payload is an error (reached after the messages before it were delivered), an incomplete back pointer is
not. -/
theorem C18_unpack (recv : σ → Hdr → Bytes → σ × Bool) (h : Hdr) (x : σ) (subs : List Sub) (hs : ∀ s ∈ subs, s.Ok)
    (t : Tail) (ht : t.Ok) (c : Chain) (hc : c.flatten = (subs.map Sub.bytes).flatten ++ t.bytes) :
    aggregate recv h x c = some (match deliver recv h (baseOf (subs ++ t.msgs)) x (subs ++ t.msgs) with
      | (x', true) => (x', t.good)
      | (x', false) => (x', false)) := by
  have := loop_spec recv h subs hs t ht (c.flatten.length + 1) x none (by decide) c (Nat.lt_succ_self _) hc
  simpa [aggregate] using this

/-- C18: every byte string has that form, so the theorem above describes the handler on arbitrary input. -/
theorem C18_every_input (bs : Bytes) : ∃ subs : List Sub, ∃ t : Tail, (∀ s ∈ subs, s.Ok) ∧ t.Ok ∧
    bs = (subs.map Sub.bytes).flatten ++ t.bytes := by
  suffices ∀ n (bs : Bytes), bs.length ≤ n → ∃ subs : List Sub, ∃ t : Tail, (∀ s ∈ subs, s.Ok) ∧ t.Ok ∧
      bs = (subs.map Sub.bytes).flatten ++ t.bytes from this _ bs (Nat.le_refl _)
  intro n
  induction n with
  | zero => intro bs h; exact ⟨[], .nothing, by simp, trivial, by simpa [Tail.bytes] using h⟩
  | succ n ih =>
    intro bs h
    by_cases h0 : bs = []
    · exact ⟨[], .nothing, by simp, trivial, by simpa [Tail.bytes] using h0⟩
    by_cases h11 : bs.length < 11
    · exact ⟨[], .shortHeader bs, by simp, ⟨h0, h11⟩, rfl⟩
    obtain ⟨s, mlen, a1, a2, a3, a4, _, a6, a5⟩ := header_split bs (by omega)
    generalize hr : bs.drop 11 = r at a5
    have hbl : bs.length = 11 + r.length := by rw [a5, List.length_append, header_length]
    by_cases hm : r.length ≤ mlen
    · refine ⟨[], .shortBody { s with payload := r } mlen, by simp, ⟨⟨a1, a2, a3, ?_, by show s.back < _; omega⟩, a4, hm⟩, ?_⟩
      · show r.length < 2 ^ 24; omega
      · rw [a5]; rfl
    have e1 : r = r.take mlen ++ r.drop mlen := (List.take_append_drop mlen r).symm
    have l1 : (r.take mlen).length = mlen := by rw [List.length_take]; omega
    by_cases hb : (r.drop mlen).length < 4
    · refine ⟨[], .shortBack { s with payload := r.take mlen } (r.drop mlen), by simp, ⟨⟨a1, a2, a3, ?_, by show s.back < _; omega⟩, ?_, hb⟩, ?_⟩
      · show (r.take mlen).length < 2 ^ 24; omega
      · intro hh; have := congrArg List.length hh; rw [List.length_drop] at this; simp at this; omega
      · show bs = header s (r.take mlen).length ++ (r.take mlen ++ r.drop mlen)
        rw [l1, ← e1]; exact a5
    · have e2 : r.drop mlen = (r.drop mlen).take 4 ++ (r.drop mlen).drop 4 := (List.take_append_drop 4 _).symm
      have l4 : ((r.drop mlen).take 4).length = 4 := by rw [List.length_take]; omega
      obtain ⟨subs, t, b1, b2, b3⟩ := ih ((r.drop mlen).drop 4) (by rw [List.length_drop, List.length_drop]; omega)
      refine ⟨{ s with payload := r.take mlen, back := beDec ((r.drop mlen).take 4) } :: subs, t, ?_, b2, ?_⟩
      · intro q hq
        rcases List.mem_cons.1 hq with rfl | hq
        · refine ⟨a1, a2, a3, ?_, ?_⟩
          · show (r.take mlen).length < 2 ^ 24; omega
          · have := beDec_lt ((r.drop mlen).take 4); rw [l4] at this; exact this
        · exact b1 q hq
      · have e3 : beEnc 4 (beDec ((r.drop mlen).take 4)) = (r.drop mlen).take 4 := by
          have := beEnc_beDec ((r.drop mlen).take 4); rwa [l4] at this
        simp only [List.map_cons, List.flatten_cons, Sub.bytes, e3, l1]
        rw [List.append_assoc, ← b3, List.append_assoc, List.append_assoc, ← e2, ← e1]
        exact a5

/-- C18: hence the handler always ends and its result does not depend on how the bytes are spread over buffers. -/
theorem C18_chain_independent (recv : σ → Hdr → Bytes → σ × Bool) (h : Hdr) (x : σ) (c1 c2 : Chain)
    (hc : c1.flatten = c2.flatten) : aggregate recv h x c1 = aggregate recv h x c2 ∧ aggregate recv h x c1 ≠ none := by
  obtain ⟨subs, t, h1, h2, h3⟩ := C18_every_input c1.flatten
  rw [C18_unpack recv h x subs h1 t h2 c1 h3, C18_unpack recv h x subs h1 t h2 c2 (hc ▸ h3)]
  simp

/-- Witness: two sub-messages in an aggregate with timestamp 1000, spread over odd buffers. -/
example : aggregate (fun (l : List (Hdr × Bytes)) h p => (l ++ [(h, p)], true)) ⟨4, 1000, 38, 22, 1⟩ []
    [[8, 0], [0, 2, 0, 0, 50, 0, 0, 0, 1, 0xaa], [], [0xbb, 0, 0, 0, 13, 9, 0, 0, 1, 0, 0, 70, 0, 0, 0, 1, 0xcc], [0, 0, 0, 12]] =
    some ([(⟨4, 1000, 2, 8, 1⟩, [0xaa, 0xbb]), (⟨4, 1020, 1, 9, 1⟩, [0xcc])], true) := by decide

example : (⟨8, 50, 1, [0xaa, 0xbb], 13⟩ : Sub).Ok := ⟨by decide, by decide, by decide, by decide, by decide⟩

/-! ### C42: nested aggregates -/

/-- `ngx_rtmp_receive_message` as handler of sub-messages: aggregates are handled by the aggregate handler itself (handler table,
ngx_rtmp.c:453-455), others are counted. Each nesting level is one more activation of both functions on the C stack;
with `d` levels of stack available the outcome is `none` when they are used up. -/
def nested : Nat → Hdr → Bytes → Option Nat → Option Nat × Bool
  | _, _, _, none => (none, false)
  | 0, h, _, some n => if h.type = 22 then (none, false) else (some (n + 1), true)
  | d + 1, h, p, some n =>
    if h.type = 22 then
      match aggregate (fun x ch q => nested d ch q x) h (some n) [p] with
      | some r => r
      | none => (none, false)
    else (some (n + 1), true)

/-- `n` aggregates inside each other. -/
def matryoshka : Nat → Bytes
  | 0 => []
  | n + 1 => Sub.bytes ⟨22, 0, 0, matryoshka n, 0⟩

theorem matryoshka_length (n : Nat) : (matryoshka n).length = 15 * n := by
  induction n with
  | zero => rfl
  | succ n ih =>
    simp only [matryoshka, Sub.bytes, List.length_append, header_length, beEnc_length, ih]
    omega

/-- C42 (violation): for every stack depth `d` there is an aggregate of `15 (d + 1)` bytes whose processing needs more: the
nesting depth is chosen by the peer, limited only by the message size. -/
theorem C42_nesting_violation (d : Nat) (hd : 15 * (d + 1) < 2 ^ 24) (h : Hdr) (ht : h.type = 22) :
    nested d h (matryoshka (d + 1)) (some 0) = (none, false) := by
  induction d generalizing h with
  | zero => simp [nested, ht]
  | succ d ih =>
    simp only [nested, ht, if_true]
    have hok : (⟨22, 0, 0, matryoshka (d + 1), 0⟩ : Sub).Ok :=
      ⟨by simp, by simp, by simp, by rw [matryoshka_length]; omega, by simp⟩
    have hu := C18_unpack (fun x ch q => nested d ch q x) h (some 0) [⟨22, 0, 0, matryoshka (d + 1), 0⟩]
      (by intro s hs; rw [List.mem_singleton] at hs; rw [hs]; exact hok) .nothing trivial [matryoshka (d + 1 + 1)]
      (by simp [matryoshka, Tail.bytes])
    rw [hu]
    simp only [Tail.msgs, List.append_nil, deliver, Tail.good]
    rw [ih (by omega) _ rfl]

theorem deliver_inv (recv : σ → Hdr → Bytes → σ × Bool) (h : Hdr) (base : Nat) (P : σ → Prop) (subs : List Sub)
    (hp : ∀ s ∈ subs, ∀ x, P x → P (recv x (subHdr h base s) s.payload).1) (x : σ) (hx : P x) :
    P (deliver recv h base x subs).1 := by
  induction subs generalizing x with
  | nil => exact hx
  | cons s ss ih =>
    have h1 := hp s (by simp) x hx
    simp only [deliver]
    rcases hr : recv x (subHdr h base s) s.payload with ⟨x', _ | _⟩
    · rw [hr] at h1; exact h1
    · rw [hr] at h1; exact ih (fun s hs => hp s (by simp [hs])) x' h1

/-- C42 (partial): a message of less than `12 d` bytes is processed with `d` levels. Missing: a limit that does not depend
on the message. -/
theorem C42_nesting_bounded_partial (d : Nat) (h : Hdr) (p : Bytes) (n : Nat) (hd : p.length < 12 * d) :
    (nested d h p (some n)).1 ≠ none := by
  induction d generalizing h p n with
  | zero => omega
  | succ d ih =>
    simp only [nested]
    by_cases ht : h.type = 22
    · rw [if_pos ht]
      obtain ⟨subs, t, h1, h2, h3⟩ := C18_every_input p
      rw [C18_unpack _ h (some n) subs h1 t h2 [p] (by simpa using h3)]
      have hlen : ∀ s ∈ subs ++ t.msgs, s.payload.length + 12 ≤ p.length := by
        intro s hs
        rw [h3, List.length_append]
        rcases List.mem_append.1 hs with hs | hs
        · have hm : s.bytes ∈ subs.map Sub.bytes := List.mem_map_of_mem hs
          have := (List.sublist_flatten_of_mem hm).length_le
          have hb : s.bytes.length = 15 + s.payload.length := by
            simp only [Sub.bytes, List.length_append, header_length, beEnc_length]; omega
          omega
        · cases t with
          | shortBack s' bs =>
            rw [Tail.msgs, List.mem_singleton] at hs
            subst hs
            have := List.length_pos_iff.2 h2.2.1
            simp only [Tail.bytes, List.length_append, header_length]
            omega
          | nothing => cases hs
          | shortHeader _ => cases hs
          | shortBody _ _ => cases hs
      have hinv := deliver_inv (fun x ch q => nested d ch q x) h (baseOf (subs ++ t.msgs)) (fun x => x ≠ none) (subs ++ t.msgs)
        (fun s hs x hx => by
          obtain ⟨k, rfl⟩ := Option.ne_none_iff_exists'.1 hx
          have := hlen s hs
          exact ih _ _ k (by omega)) (some n) (by simp)
      revert hinv
      rcases deliver (fun x ch q => nested d ch q x) h (baseOf (subs ++ t.msgs)) (some n) (subs ++ t.msgs) with ⟨x', _ | _⟩
      · exact id
      · exact id
    · rw [if_neg ht]; simp

example : (matryoshka 3).length < 12 * 4 := by rw [matryoshka_length]; decide

end Verif.Aggregate
