import Verif.Hls.AnnexModel
import Verif.Hls.AnnexSpec
namespace Verif.Annex
open Verif

/-- The current buffer is not used up. -/
def Norm (c : Cur) : Prop := ∀ bs, c ≠ [] :: bs

theorem skipEmpty_spec (c : Cur) : (skipEmpty c).flatten = c.flatten ∧ Norm (skipEmpty c) := by
  induction c with
  | nil => exact ⟨rfl, fun bs h => by cases h⟩
  | cons b bs ih =>
    cases b with
    | nil => rw [skipEmpty]; exact ⟨by rw [ih.1]; rfl, ih.2⟩
    | cons x b =>
      have : skipEmpty ((x :: b) :: bs) = (x :: b) :: bs := rfl
      rw [this]; exact ⟨rfl, fun bs h => by cases h⟩

theorem Norm.nil {c : Cur} (h : Norm c) (hf : c.flatten = []) : c = [] := by
  cases c with
  | nil => rfl
  | cons b bs =>
    cases b with
    | nil => exact absurd rfl (h bs)
    | cons x b => cases hf

theorem copy_ok {n : Nat} {c : Cur} (hc : c ≠ []) (hn : n ≤ c.flatten.length) :
    ∃ c', copy n c = (c.flatten.take n, some c') ∧ c'.flatten = c.flatten.drop n ∧ Norm c' := by
  induction c generalizing n with
  | nil => exact absurd rfl hc
  | cons b bs ih =>
    rw [copy]
    by_cases h : n ≤ b.length
    · rw [if_pos h]
      have := skipEmpty_spec (b.drop n :: bs)
      refine ⟨_, ?_, ?_, this.2⟩
      · rw [List.flatten_cons, List.take_append_of_le_length h]
      · rw [this.1, List.flatten_cons, List.flatten_cons, List.drop_append_of_le_length h]
    · rw [if_neg h]
      rw [List.flatten_cons, List.length_append] at hn
      have hbs : bs ≠ [] := by intro e; subst e; simp at hn; omega
      obtain ⟨c', e1, e2, e3⟩ := ih (n := n - b.length) hbs (by omega)
      refine ⟨c', ?_, ?_, e3⟩
      · rw [e1, List.flatten_cons, List.take_append]
        rw [List.take_of_length_le (by omega : b.length ≤ n)]
      · rw [e2, List.flatten_cons, List.drop_append]
        rw [List.drop_of_length_le (by omega : b.length ≤ n), List.nil_append]

/-- Reading `a` off the front. -/
theorem copy_pre {c : Cur} {a r : Bytes} (hc : c ≠ []) (h : c.flatten = a ++ r) :
    ∃ c', copy a.length c = (a, some c') ∧ c'.flatten = r ∧ Norm c' := by
  obtain ⟨c', e1, e2, e3⟩ := copy_ok (n := a.length) hc (by rw [h]; simp)
  exact ⟨c', by rw [e1, h, List.take_left], by rw [e2, h, List.drop_left], e3⟩

theorem ne_of_flatten {c : Cur} {x : UInt8} {r : Bytes} (h : c.flatten = x :: r) : c ≠ [] := by
  intro e; subst e; cases h

theorem ne_of_length {c : Cur} (h : 0 < c.flatten.length) : c ≠ [] := by
  intro e; subst e; simp at h

/-- What is stored never exceeds what was asked for. -/
theorem copy_length (n : Nat) (c : Cur) : (copy n c).1.length ≤ n := by
  induction c generalizing n with
  | nil => simp [copy]
  | cons b bs ih =>
    rw [copy]
    split
    · simp only [List.length_take]; omega
    · have := ih (n - b.length)
      simp only [List.length_append]; omega

/-- A byte stream of the NAL units `D`, with start codes of 3 or 4 bytes. -/
inductive Stream : Bytes → List Bytes → Prop
  | nil : Stream [] []
  | long {o D} (n : Bytes) : Stream o D → Stream (o ++ [0, 0, 0, 1] ++ n) (D ++ [n])
  | short {o D} (n : Bytes) : Stream o D → Stream (o ++ [0, 0, 1] ++ n) (D ++ [n])

theorem Stream.longs {o : Bytes} {D : List Bytes} (h : Stream o D) (ns : List Bytes) :
    Stream (o ++ ns.flatMap (fun n => [0, 0, 0, 1] ++ n)) (D ++ ns) := by
  induction ns generalizing o D with
  | nil => simpa using h
  | cons n ns ih =>
    have := ih (.long n h)
    rw [List.flatMap_cons]
    simpa [List.append_assoc] using this

theorem unit_nal {n r : Bytes} (hs : noStart n = true) (hl : n.getLast? ≠ some 0) (hr : r = [] ∨ (∃ q, r = 0 :: 0 :: 0 :: q) ∨ ∃ q, r = 0 :: 0 :: 1 :: q) :
    unit (n ++ r) = (n, r) := by
  induction n with
  | nil =>
    rcases hr with h | ⟨q, h⟩ | ⟨q, h⟩ <;> subst h <;> rfl
  | cons x n ih =>
    have hstep : unit (x :: (n ++ r)) = (x :: (unit (n ++ r)).1, (unit (n ++ r)).2) := by
      rw [unit]
      · intro q hx hq
        subst hx
        match n, hq with
        | [], hq => simp at hl
        | [y], hq =>
          have : y = 0 := by simpa using congrArg List.head? hq
          subst this; simp at hl
        | y :: z :: n, hq =>
          have e1 : y = 0 := by simpa using congrArg List.head? hq
          have e2 : z = 0 := by simpa using congrArg (fun l => (l.drop 1).head?) hq
          subst e1; subst e2; simp [noStart] at hs
      · intro q hx hq
        subst hx
        match n, hq with
        | [], hq => simp at hl
        | [y], hq =>
          have : y = 0 := by simpa using congrArg List.head? hq
          subst this; simp at hl
        | y :: z :: n, hq =>
          have e1 : y = 0 := by simpa using congrArg List.head? hq
          have e2 : z = 1 := by simpa using congrArg (fun l => (l.drop 1).head?) hq
          subst e1; subst e2; simp [noStart] at hs
    rw [List.cons_append, hstep]
    cases n with
    | nil => 
      rw [show unit ([] ++ r) = ([], r) from by rcases hr with h | ⟨q, h⟩ | ⟨q, h⟩ <;> subst h <;> rfl]
    | cons y n =>
      have hs' : noStart (y :: n) = true := by
        rw [noStart] at hs
        · exact hs
        · intro q hx hq; subst hx; rw [hq] at hs; simp [noStart] at hs
        · intro q hx hq; subst hx; rw [hq] at hs; simp [noStart] at hs
      rw [ih hs' (by rw [List.getLast?_cons_cons] at hl; exact hl)]

/-- From the front: the stream is empty or starts with a start code and its first NAL unit. -/
theorem Stream.front {o : Bytes} {D : List Bytes} (h : Stream o D) :
    (o = [] ∧ D = []) ∨ ∃ p n o' D', (p = [0, 0, 1] ∨ p = [0, 0, 0, 1]) ∧ o = p ++ n ++ o' ∧ D = n :: D' ∧ Stream o' D' := by
  induction h with
  | nil => exact .inl ⟨rfl, rfl⟩
  | long n h ih =>
    rcases ih with ⟨e1, e2⟩ | ⟨p, m, o', D', hp, e1, e2, h'⟩
    · subst e1; subst e2
      exact .inr ⟨_, n, [], [], .inr rfl, by simp, rfl, .nil⟩
    · subst e1; subst e2
      exact .inr ⟨p, m, _, _, hp, by simp only [List.append_assoc], rfl, .long n h'⟩
  | short n h ih =>
    rcases ih with ⟨e1, e2⟩ | ⟨p, m, o', D', hp, e1, e2, h'⟩
    · subst e1; subst e2
      exact .inr ⟨_, n, [], [], .inl rfl, by simp, rfl, .nil⟩
    · subst e1; subst e2
      exact .inr ⟨p, m, _, _, hp, by simp only [List.append_assoc], rfl, .short n h'⟩

theorem Stream.decode {o : Bytes} {D : List Bytes} (h : Stream o D) (hD : ∀ n ∈ D, Nal n) {f : Nat} (hf : o.length < f) : decode f o = some D := by
  induction D generalizing o f with
  | nil =>
    rcases h.front with ⟨e, -⟩ | ⟨_, _, _, _, _, _, e, _⟩
    · subst e; cases f <;> rfl
    · cases e
  | cons m D ih =>
    rcases h.front with ⟨_, e⟩ | ⟨p, n, o', D', hp, e1, e2, h'⟩
    · cases e
    · cases e2
      have hn := hD m (by simp)
      have hend : o' = [] ∨ (∃ q, o' = 0 :: 0 :: 0 :: q) ∨ ∃ q, o' = 0 :: 0 :: 1 :: q := by
        rcases h'.front with ⟨e, -⟩ | ⟨p', n', o'', D'', hp', e', _, _⟩
        · exact .inl e
        · rcases hp' with hp' | hp' <;> subst hp' <;> subst e'
          · exact .inr (.inr ⟨_, rfl⟩)
          · exact .inr (.inl ⟨_, rfl⟩)
      have hu := unit_nal hn.2.1 hn.2.2 hend
      have hpre : prefixed o = some (m ++ o') := by
        rw [e1]
        rcases hp with hp | hp <;> subst hp
        · rfl
        · rfl
      have hlen : o'.length + 3 ≤ o.length := by
        rw [e1]; rcases hp with hp | hp <;> subst hp <;> simp only [List.length_append, List.length_cons, List.length_nil] <;> omega
      obtain ⟨x, o2, ho⟩ : ∃ x o2, o = x :: o2 := by
        cases o with
        | nil => simp at hlen
        | cons x o2 => exact ⟨x, o2, rfl⟩
      cases f with
      | zero => omega
      | succ f =>
        have : Annex.decode (f + 1) o = (Annex.decode f (unit (m ++ o')).2).map ((unit (m ++ o')).1 :: ·) := by
          rw [ho, Annex.decode, ← ho, hpre]
          intro h; cases h
        rw [this, hu, ih h' (fun n h => hD n (by simp [h])) (by omega)]
        rfl

theorem Stream.decoded {o : Bytes} {D : List Bytes} (h : Stream o D) (hD : ∀ n ∈ D, Nal n) : decoded o = some D :=
  h.decode hD (by omega)

theorem lenPrefixed_cons (k : Nat) (n : Bytes) (ns : List Bytes) : lenPrefixed k (n :: ns) = beEnc k n.length ++ (n ++ lenPrefixed k ns) := by
  simp [lenPrefixed]

theorem cost_cons (n : Bytes) (ns : List Bytes) : cost (n :: ns) = n.length + 4 + cost ns := by simp [cost]

theorem cost_append (a b : List Bytes) : cost (a ++ b) = cost a + cost b := by simp [cost]

theorem longs_length (ns : List Bytes) : (ns.flatMap (fun n => [0, 0, 0, 1] ++ n)).length = cost ns := by
  induction ns with
  | nil => rfl
  | cons n ns ih => rw [List.flatMap_cons, List.length_append, ih, cost_cons]; simp

theorem put_ok {cap : Nat} {out d : Bytes} (h : out.length + d.length ≤ cap) : put cap out d = some (out ++ d) := if_neg (by omega)

theorem appendNals_ok {cap : Nat} (ns : List Bytes) (hns : ∀ n ∈ ns, n ≠ [] ∧ n.length < 65536) {c : Cur} {r out : Bytes} (hN : Norm c)
    (hc : c.flatten = lenPrefixed 2 ns ++ r) (hcap : out.length + cost ns ≤ cap) :
    ∃ c', appendNals cap ns.length c out = some (out ++ ns.flatMap (fun n => [0, 0, 0, 1] ++ n), some c') ∧ c'.flatten = r ∧ Norm c' := by
  induction ns generalizing c out with
  | nil => exact ⟨c, by simp [appendNals], by simpa [lenPrefixed] using hc, hN⟩
  | cons n ns ih =>
    have hn := hns n (by simp)
    rw [lenPrefixed_cons] at hc
    rw [cost_cons] at hcap
    have hl2 : (beEnc 2 n.length).length = 2 := beEnc_length _ _
    obtain ⟨c1, e1, f1, N1⟩ := copy_pre (a := beEnc 2 n.length) (r := n ++ lenPrefixed 2 ns ++ r)
      (ne_of_length (by rw [hc]; simp only [List.length_append, hl2]; omega)) (by rw [hc, List.append_assoc])
    rw [hl2] at e1
    have hd : beDec (beEnc 2 n.length) = n.length := beDec_beEnc_of_lt hn.2
    have hpos : 0 < n.length := List.length_pos_iff.2 hn.1
    obtain ⟨c2, e2, f2, N2⟩ := copy_pre (a := n) (r := lenPrefixed 2 ns ++ r)
      (ne_of_length (by rw [f1]; simp only [List.length_append]; omega)) (by rw [f1, List.append_assoc])
    obtain ⟨c3, e3, f3, N3⟩ := ih (fun m h => hns m (by simp [h])) N2 f2 (out := out ++ [0, 0, 0, 1] ++ n)
      (by simp only [List.length_append, List.length_cons, List.length_nil]; omega)
    refine ⟨c3, ?_, f3, N3⟩
    rw [List.length_cons, appendNals, e1]
    dsimp only
    have h4 : (out ++ [0, 0, 0, 1]).length = out.length + 4 := by simp
    rw [hd, if_neg (by omega), put_ok (by simp only [List.length_cons, List.length_nil]; omega), Option.bind_some, if_neg (by omega), e2,
      put_ok (by dsimp only; omega), Option.bind_some]
    dsimp only
    rw [e3, List.flatMap_cons]
    simp only [List.append_assoc]

theorem appendParams_ok {cap : Nat} {p : Params} (hp : p.Ok) {hdr : Cur} {out : Bytes} (hh : hdr.flatten = p.bytes) (hcap : out.length + cost (p.sps ++ p.pps) ≤ cap) :
    appendParams cap hdr out = some (out ++ (p.sps ++ p.pps).flatMap (fun n => [0, 0, 0, 1] ++ n)) := by
  rw [cost_append] at hcap
  have hb : hdr.flatten = p.head ++ (beEnc 1 (p.flags * 32 + p.sps.length) ++ (lenPrefixed 2 p.sps ++ (beEnc 1 p.pps.length ++ (lenPrefixed 2 p.pps ++ p.ext)))) := by
    rw [hh, Params.bytes]; simp only [List.append_assoc]
  have hl1 : ∀ n, (beEnc 1 n).length = 1 := fun n => beEnc_length _ _
  obtain ⟨c1, e1, f1, N1⟩ := copy_pre (ne_of_length (by rw [hb]; simp only [List.length_append, hp.hHead]; omega)) hb
  rw [hp.hHead] at e1
  obtain ⟨c2, e2, f2, N2⟩ := copy_pre (ne_of_length (by rw [f1]; simp only [List.length_append, hl1]; omega)) f1
  rw [hl1] at e2
  have h1 := hp.hFlags
  have h2 := hp.hSps
  have hd1 : beDec (beEnc 1 (p.flags * 32 + p.sps.length)) % 32 = p.sps.length := by
    rw [beDec_beEnc_of_lt (by omega)]; omega
  obtain ⟨c3, e3, f3, N3⟩ := appendNals_ok (cap := cap) p.sps (fun n h => ⟨(hp.hNal n (by simp [h])).1.1, (hp.hNal n (by simp [h])).2⟩) (out := out) N2 f2 (by omega)
  obtain ⟨c4, e4, f4, N4⟩ := copy_pre (ne_of_length (by rw [f3]; simp only [List.length_append, hl1]; omega)) f3
  rw [hl1] at e4
  have hd2 : beDec (beEnc 1 p.pps.length) = p.pps.length := beDec_beEnc_of_lt (by have := hp.hPps; omega)
  obtain ⟨c5, e5, f5, N5⟩ := appendNals_ok (cap := cap) p.pps (fun n h => ⟨(hp.hNal n (by simp [h])).1.1, (hp.hNal n (by simp [h])).2⟩)
    (out := out ++ p.sps.flatMap (fun n => [0, 0, 0, 1] ++ n)) N4 f4 (by rw [List.length_append, longs_length]; omega)
  rw [appendParams, e1]; dsimp only
  rw [e2]; dsimp only
  rw [hd1, e3, Option.bind_some]; dsimp only
  rw [e4]; dsimp only
  rw [hd2, e5, Option.map_some]
  simp only [List.flatMap_append, List.append_assoc]

end Verif.Annex
