import Verif.Rtmp.AmfEncode
import Verif.Rtmp.AmfSafe
/-
AMF0 properties C12 (round trip), C13 (buffer boundaries), C14 (strings), C15 (hostile input), C17 (outgoing commands) and the AMF part of
C42 (stack). Specification: AmfSpec.lean.
-/
namespace Verif.Amf
open Verif

/-- The bytes from a chain position on. -/
def remaining (c : Ctx) : Bytes := c.link.flatten.drop c.offset

/-- Position inside its first buffer, as every position the decoder produces is. -/
def Inside (c : Ctx) : Prop := ∀ b r, c.link = b :: r → c.offset ≤ b.length

/-- A chain result with the position replaced by the bytes that follow it. -/
def view : Res Ctx → Res Bytes
  | .ok c l => .ok (remaining c) l
  | .err => .err
  | .ub u => .ub u
  | .stuck => .stuck

theorem view_of_rr {x : Res Ctx} {y : Res Bytes} (h : RR ChainAt x y) : view x = y := by
  cases h with
  | ok h => simp only [view, remaining, h.2]
  | err => rfl
  | ub => rfl
  | stuck => rfl

/-! ### C13 -/

/-- C13: decoding a chain gives what decoding the concatenation of its buffers gives: same outcome, same stores in the same order,
same remaining bytes. -/
theorem C13_decode_chain (chain : List Bytes) (es : List Elt) (n : Nat) :
    view (read chainReader n ⟨chain, 0⟩ es) = read flatReader n chain.flatten es :=
  view_of_rr (rr_run sim_chain n _ _ (.read ⟨fun _ _ _ => Nat.zero_le _, rfl⟩))

/-- C13: two chains with the same bytes decode alike. -/
theorem C13_boundaries_irrelevant (c1 c2 : List Bytes) (h : c1.flatten = c2.flatten) (es : List Elt) (n : Nat) :
    view (read chainReader n ⟨c1, 0⟩ es) = view (read chainReader n ⟨c2, 0⟩ es) := by
  rw [C13_decode_chain, C13_decode_chain, h]

/-- C13: the encoder's output is the same byte string for all buffer sizes, and no buffer is overfilled. -/
theorem C13_encode_sizes (cap : Nat) (hc : 0 < cap) (ps : List Bytes) :
    ∃ st, putAll cap ([], none) ps = some st ∧ contents (chainOf st) = ps.flatten := by
  obtain ⟨st, h1, h2, _⟩ := putAll_contents cap hc ps ([], none) (by simp)
  exact ⟨st, h1, by simpa [contents, chainOf] using h2⟩

example : read chainReader 9 ⟨[[2], [], [0, 3, 97], [98, 99, 5]], 0⟩ [.mk 2 false false [] (.mem 7 10) 10] =
    .ok ⟨[[98, 99, 5]], 2⟩ [(7, [97, 98, 99, 0])] := by decide +kernel

/-! ### C12 -/

theorem read_seq : ∀ (vs : Vals) (es : List Elt) (tl : List (Option Elt)) (rest : Bytes) (n : Nat), vs.Wf →
    (∀ e ∈ es, WfElt false e) → es.length = vs.length → vs.cost ≤ n →
    run flatReader (n + es.length) (.read (vs.enc ++ rest) (es.map some ++ tl)) =
      (Res.ok rest (deliverV es vs)).bind fun r => run flatReader n (.read r tl)
  | .nil, [], tl, rest, n, _, _, _, hn => by
    simp only [Vals.cost] at hn
    simp only [Vals.enc, List.nil_append, List.map_nil, List.length_nil, Nat.add_zero, deliverV, Res.bind, List.nil_append]
    split
    · rename_i h; rw [h]
    · rfl
  | .nil, _ :: _, _, _, _, _, _, hl, _ => by simp [Vals.length] at hl
  | .cons _ _, [], _, _, _, _, _, hl, _ => by simp [Vals.length] at hl
  | .cons v vs, e :: es, tl, rest, n, hw, he, hl, hn => by
    simp only [Vals.Wf] at hw
    simp only [Vals.cost] at hn
    have e1 : (Vals.cons v vs).enc ++ rest = v.enc ++ (vs.enc ++ rest) := by simp [Vals.enc, Val.enc]
    rw [e1, List.map_cons, List.cons_append, List.length_cons, ← Nat.add_assoc]
    rw [read_val (body_val v hw.1) (some e) (he e (List.mem_cons_self ..)) _ _ _ (by omega)]
    have ih := read_seq vs es tl rest n hw.2 (fun x hx => he x (List.mem_cons_of_mem _ hx))
      (by simpa [Vals.length] using hl) (by omega)
    simp only [Res.bind, ih, deliverV, List.head?_cons, List.tail_cons, deliverTo]
    cases hx : run flatReader n (.read rest tl) <;> simp

/-- C12: for every description, decoding the encoding of a list of values consumes exactly the values and delivers each one where the
description says, however the bytes are split into buffers and with any (large enough) step budget. -/
theorem C12_any_description (vs : Vals) (hw : vs.Wf) (es : List Elt) (he : ∀ e ∈ es, WfElt false e) (hl : es.length = vs.length)
    (rest : Bytes) (chain : List Bytes) (hch : chain.flatten = vs.enc ++ rest) (n : Nat) (hn : vs.cost + es.length + 1 ≤ n) :
    view (read chainReader n ⟨chain, 0⟩ es) = .ok rest (deliverV es vs) := by
  rw [C13_decode_chain, hch]
  obtain ⟨m, rfl⟩ : ∃ m, n = m + 1 + es.length := ⟨n - es.length - 1, by omega⟩
  have h := read_seq vs es [] rest (m + 1) hw he hl (by omega)
  rw [List.append_nil] at h
  unfold read
  rw [h, bind_ok _ _ _ rest [] rfl, List.append_nil]

/-- C12: every list of values (numbers, booleans, strings, nulls, objects, mixed arrays, arrays, nested to any depth) written with the
encoder into buffers of any size and read back with the matching description gives back exactly its leaves, in order, and nothing else. -/
theorem C12_round_trip (vs : Vals) (hw : vs.Wf) (hp : vs.Plain) (hd : vs.Distinct) (cap : Nat) (hc : 0 < cap) :
    ∃ ps st, writeArr vs.toW = .puts ps ∧ putAll cap ([], none) ps = some st ∧
      ∀ n, vs.cost + vs.length + 1 ≤ n →
        view (read chainReader n ⟨(chainOf st).map OBuf.data, 0⟩ (vs.desc 0)) = .ok [] (vs.leaves 0) := by
  obtain ⟨ps, e1, e2⟩ := write_vals vs hw hp
  obtain ⟨st, e3, e4⟩ := C13_encode_sizes cap hc ps
  have hlen : ∀ (vs : Vals) (k : Nat), (vs.desc k).length = vs.length := by
    intro vs
    induction hn : vs.length generalizing vs with
    | zero => intro k; cases vs with
              | nil => rfl
              | cons v vs => simp [Vals.length] at hn
    | succ m ih =>
      intro k
      cases vs with
      | nil => simp [Vals.length] at hn
      | cons v vs =>
        simp only [Vals.length] at hn
        simp only [Vals.desc, List.length_cons]
        rw [ih vs (by omega)]
  refine ⟨ps, st, e1, e3, fun n hn => ?_⟩
  rw [C12_any_description vs hw (vs.desc 0) (wf_descV vs 0) (hlen vs 0) [] _ (by rw [List.append_nil, ← e2, ← e4]; rfl) n
    (by rw [hlen]; omega), deliver_vals vs 0 hd]

/-- C12: the bytes written are the AMF0 encoding. -/
theorem C12_encoding (vs : Vals) (hw : vs.Wf) (hp : vs.Plain) : ∃ ps, writeArr vs.toW = .puts ps ∧ ps.flatten = vs.enc :=
  write_vals vs hw hp

/-- A command of the kind the server sends: a name, a number, null, an object with a nested array. -/
def sampleVals : Vals :=
  .cons (.str [97, 98]) (.cons (.num 0x3ff0000000000000) (.cons .null
    (.cons (.obj (.cons [120] (.bool 1) (.cons [121] (.arr (.cons (.num 5) (.cons (.str []) .nil))) .nil))) .nil)))

example : sampleVals.Wf ∧ sampleVals.Plain ∧ sampleVals.Distinct := by
  simp [sampleVals, Vals.Wf, Val.Wf, Fields.Wf, Vals.Plain, Val.Plain, Fields.Plain, Vals.Distinct, Val.Distinct, Fields.Distinct,
    Fields.names, Vals.length]

example : sampleVals.leaves 0 = [(0, [97, 98, 0]), (1, [0, 0, 0, 0, 0, 0, 0xf0, 0x3f]), (2, [1]),
    (3, [5, 0, 0, 0, 0, 0, 0, 0]), (4, [0])] := by decide +kernel

/-! ### C14 -/

/-- Specification of a string stored into `n` bytes: the longest prefix that leaves room for a NUL, and the NUL. -/
def StoredString (s : Bytes) (n : Nat) (w : Bytes) : Prop :=
  ∃ p, w = p ++ [0] ∧ p <+: s ∧ p.length = min s.length (n - 1)

/-- C14: a string read into a destination of `n ≥ 1` bytes is stored as its longest fitting prefix, NUL-terminated, in at most `n` bytes, and
the decoder is left behind the whole string, whatever the buffer boundaries. -/
theorem C14_string (c : Ctx) (hc : Inside c) (s rest : Bytes) (hs : s.length < 65536)
    (hr : remaining c = beEnc 2 s.length ++ s ++ rest) (loc cap n : Nat) (h1 : 1 ≤ n) (h2 : n ≤ cap) :
    ∃ c' w, readStr chainReader c (.mem loc cap) n = .ok c' [(loc, w)] ∧ remaining c' = rest ∧ StoredString s n w ∧ w.length ≤ n := by
  have hrr := rr_readStr sim_chain (show ChainAt c (remaining c) from ⟨hc, rfl⟩) (.mem loc cap) n
  rw [hr, readStr_spec s rest hs (.mem loc cap) n (.inr (.inr ⟨rfl, h1, h2⟩))] at hrr
  generalize readStr chainReader c (.mem loc cap) n = x at hrr
  cases hrr with
  | @ok c' _ _ h =>
    refine ⟨c', _, rfl, h.2.symm, ⟨_, rfl, List.take_prefix _ _, by simp [Nat.min_comm]⟩, ?_⟩
    simp; omega

/-- C14: on any input whatsoever a successful string read stores one NUL-terminated string of at most `n` bytes, and no input overflows. -/
theorem C14_any_input (bs : Bytes) (loc cap n : Nat) (h1 : 1 ≤ n) (h2 : n ≤ cap) :
    readStr flatReader bs (.mem loc cap) n = .err ∨
    ∃ s rest, s.length < 65536 ∧ bs = beEnc 2 s.length ++ s ++ rest ∧
      ∃ w, readStr flatReader bs (.mem loc cap) n = .ok rest [(loc, w)] ∧ StoredString s n w ∧ w.length ≤ n := by
  by_cases hb : 2 ≤ bs.length
  · have hlen : (bs.take 2).length = 2 := by simp; omega
    have hlt : beDec (bs.take 2) < 65536 := by have := beDec_lt (bs.take 2); rw [hlen] at this; simpa using this
    by_cases hb2 : beDec (bs.take 2) ≤ (bs.drop 2).length
    · right
      refine ⟨(bs.drop 2).take (beDec (bs.take 2)), (bs.drop 2).drop (beDec (bs.take 2)), ?_, ?_, ?_⟩
      · rw [List.length_take_of_le hb2]; exact hlt
      · rw [List.length_take_of_le hb2]
        have := beEnc_beDec (bs.take 2)
        rw [hlen] at this
        rw [this, List.append_assoc, List.take_append_drop, List.take_append_drop]
      · have hbs : bs = beEnc 2 ((bs.drop 2).take (beDec (bs.take 2))).length ++ (bs.drop 2).take (beDec (bs.take 2)) ++
            (bs.drop 2).drop (beDec (bs.take 2)) := by
          rw [List.length_take_of_le hb2]
          have := beEnc_beDec (bs.take 2)
          rw [hlen] at this
          rw [this, List.append_assoc, List.take_append_drop, List.take_append_drop]
        have := readStr_spec ((bs.drop 2).take (beDec (bs.take 2))) ((bs.drop 2).drop (beDec (bs.take 2)))
          (by rw [List.length_take_of_le hb2]; exact hlt) (.mem loc cap) n (.inr (.inr ⟨rfl, h1, h2⟩))
        rw [← hbs] at this
        exact ⟨_, this, ⟨_, rfl, List.take_prefix _ _, by simp [Nat.min_comm]⟩, by simp; omega⟩
    · left
      have hg : flatReader.get bs 2 = some (bs.take 2, bs.drop 2) := by simp only [flatReader, flatGet, if_pos hb]
      have hno : ∀ (r : Bytes) (k : Nat), r.length < k → flatReader.get r k = none := by
        intro r k h; simp only [flatReader, flatGet]; rw [if_neg (by omega)]
      simp only [readStr, hg]
      split
      · rename_i hn
        rw [if_neg (by omega), if_neg (by omega)]
        by_cases h3 : n - 1 ≤ (bs.drop 2).length
        · have hg2 : flatReader.get (bs.drop 2) (n - 1) = some ((bs.drop 2).take (n - 1), (bs.drop 2).drop (n - 1)) := by
            simp only [flatReader, flatGet, if_pos h3]
          rw [hg2]
          simp only
          rw [hno _ _ (by rw [List.length_drop]; omega)]
        · rw [hno _ _ (by omega)]
      · rw [if_neg (by omega), hno _ _ (by omega)]
  · left
    have hg : flatReader.get bs 2 = none := by simp only [flatReader, flatGet]; rw [if_neg hb]
    simp only [readStr, hg]

example : readStr chainReader ⟨[[9, 0], [5, 104, 101], [108, 108, 111, 7]], 1⟩ (.mem 3 8) 4 =
    .ok ⟨[[108, 108, 111, 7]], 3⟩ [(3, [104, 101, 108, 0])] := by decide +kernel

/-! ### C15 -/

/-- C15: the decoder ends on every input, for every description and every split into buffers, and its result does not depend on the budget. -/
theorem C15_terminates (chain : List Bytes) (es : List Elt) :
    ∃ N x, x ≠ .stuck ∧ ∀ n, N ≤ n → view (read chainReader n ⟨chain, 0⟩ es) = x := by
  obtain ⟨N, x, e, hx⟩ := ends_all chain.flatten.length (.read chain.flatten (es.map some)) (Nat.le_refl _)
  exact ⟨N, x, hx, fun n hn => by rw [C13_decode_chain]; exact run_mono flatReader e hx hn⟩

/-- C15: with destinations of the declared sizes no input makes the decoder store outside a destination or use a pointer as something else.
Partial: a NULL element description may still be dereferenced, see `C15_null_violation`. -/
theorem C15_no_overflow_partial (chain : List Bytes) (es : List Elt) (he : ∀ e ∈ es, WfElt true e) (n : Nat) :
    view (read chainReader n ⟨chain, 0⟩ es) ≠ .ub .overflow ∧ view (read chainReader n ⟨chain, 0⟩ es) ≠ .ub .confusion := by
  rw [C13_decode_chain]
  refine run_clean n _ (show WfCall true _ from fun e h => ?_)
  obtain ⟨x, hx, rfl⟩ := List.mem_map.1 h
  exact he x hx

/-- C15: when the input consists of complete values the decoder succeeds (in particular no NULL dereference). When they run out early the next
description decides: optional, the call succeeds with what was delivered; otherwise it reports an error. -/
theorem C15_complete_values_partial (vs : Vals) (hw : vs.Wf) (es es' : List Elt) (e : Elt) (he : ∀ e ∈ es, WfElt false e)
    (hl : es.length = vs.length) (ht : e.typeless = false) (chain : List Bytes) (hch : chain.flatten = vs.enc) (n : Nat)
    (hn : vs.cost + es.length + 1 ≤ n) :
    view (read chainReader n ⟨chain, 0⟩ (es ++ e :: es')) = if e.optional then .ok [] (deliverV es vs) else .err := by
  rw [C13_decode_chain, hch]
  obtain ⟨m, rfl⟩ : ∃ m, n = m + 1 + es.length := ⟨n - es.length - 1, by omega⟩
  have h := read_seq vs es (some e :: es'.map some) [] (m + 1) hw he hl (by omega)
  rw [List.append_nil] at h
  unfold read
  rw [List.map_append, List.map_cons, h]
  have hh : head flatReader [] (some e) = .ret (if e.optional then .ok [] [] else .err) := by
    simp only [head, ht, Bool.false_eq_true, if_false]
    have : flatReader.get [] 1 = none := rfl
    rw [this]
    simp only
    split <;> rfl
  cases ho : e.optional with
  | true => rw [bind_ok _ _ _ [] [] (by rw [run_cons, hh, ho]; rfl)]; simp
  | false => rw [ho] at hh; simp only [Res.bind]; rw [run_cons, hh]; rfl

/-- Element table of `ngx_rtmp_amf_message_handler` (ngx_rtmp_receive.c:379-384). -/
def cmdElts : List Elt := [.mk 2 false false [] (.mem 0 128) 128]

/-- C15 is false of the code: four bytes (an object marker, a key and nothing behind it) sent as any AMF command make the worker
dereference a NULL element description (ngx_rtmp_amf.c:331), whatever the buffers and the budget. -/
theorem C15_null_violation (n : Nat) (hn : 4 ≤ n) : view (read chainReader n ⟨[[3, 0, 1, 65]], 0⟩ cmdElts) = .ub .nullElt := by
  have h : read flatReader 4 [3, 0, 1, 65] cmdElts = .ub .nullElt := by decide +kernel
  rw [C13_decode_chain]
  exact run_mono flatReader h (by simp) hn

/-- The same for an array that announces more elements than it has. -/
theorem C15_null_array_violation (n : Nat) (hn : 4 ≤ n) :
    view (read chainReader n ⟨[[10, 0, 0, 0], [2, 5]], 0⟩ cmdElts) = .ub .nullElt := by
  have h : read flatReader 4 [10, 0, 0, 0, 2, 5] cmdElts = .ub .nullElt := by decide +kernel
  rw [C13_decode_chain]
  exact run_mono flatReader h (by simp) hn

example : ∀ e ∈ cmdElts, WfElt true e := by
  intro e h; simp only [cmdElts, List.mem_singleton] at h; subst h
  exact .str (by omega) (by omega) (by simp)

example : view (read chainReader 20 ⟨[[2, 0, 1], [65, 5]], 0⟩ [.mk 2 false false [] (.mem 0 128) 128, .mk 5 false false [] .null 0,
    .mk 0 true false [] (.mem 1 8) 8]) = .ok [] [(0, [65, 0])] := by decide +kernel

/-! ### C17 -/

/-- C17 holds for commands that fit one output buffer (one chunk): the frame carries the whole encoding.
Partial: longer ones lose their head, see `C17_truncated_violation`. -/
theorem C17_short_partial (cap : Nat) (ps : List Bytes) (h : ps.flatten.length ≤ cap) :
    ∃ c, createAmf cap ps = some c ∧ contents c = ps.flatten := by
  have gen : ∀ (ps : List Bytes) (d : Bytes), d.length + ps.flatten.length ≤ cap →
      putAll cap ([], some ⟨d, cap⟩) ps = some ([], some ⟨d ++ ps.flatten, cap⟩) := by
    intro ps
    induction ps with
    | nil => intro d _; simp [putAll]
    | cons p ps ih =>
      intro d hd
      simp only [List.flatten_cons, List.length_append] at hd
      have hp : put cap p.length ([], some ⟨d, cap⟩) p = some ([], some ⟨d ++ p, cap⟩) := by
        cases p with
        | nil => simp [put]
        | cons x xs =>
          simp only [List.length_cons] at hd
          have ht : target cap [] (some ⟨d, cap⟩) = ([], ⟨d, cap⟩) := by simp only [target]; rw [if_neg (by omega)]
          simp only [List.length_cons, put]
          rw [ht]
          simp only
          rw [if_pos (by omega)]
      simp only [putAll, hp]
      rw [ih (d ++ p) (by rw [List.length_append]; omega)]
      simp
  refine ⟨[⟨ps.flatten, cap⟩], ?_, by simp [contents]⟩
  simp only [createAmf, appendAmf]
  rw [gen ps [] (by simpa using h)]
  simp

/-- C17 is false of the code: every command longer than one chunk is truncated. Both pointers passed to `ngx_rtmp_append_amf` are
`&frame->chain` (ngx_rtmp_send.c:432), so the frame ends up with the last buffer only, which holds at most `chunk_size` bytes. -/
theorem C17_truncated_violation (cap : Nat) (hc : 0 < cap) (ps : List Bytes) (h : cap < ps.flatten.length) :
    ∃ c, createAmf cap ps = some c ∧ (contents c).length < ps.flatten.length ∧ contents c ≠ ps.flatten := by
  -- capacities stay `cap`
  have capPut : ∀ (fuel : Nat) (st st' : List OBuf × Option OBuf) (p : Bytes), put cap fuel st p = some st' →
      (∀ b, st.2 = some b → b.cap = cap) → ∀ b, st'.2 = some b → b.cap = cap := by
    intro fuel
    induction fuel with
    | zero =>
      intro st st' p hp hst
      cases p with
      | nil => simp only [put] at hp; cases hp; exact hst
      | cons x xs => simp [put] at hp
    | succ fuel ih =>
      intro st st' p hp hst
      cases p with
      | nil => simp only [put] at hp; cases hp; exact hst
      | cons x xs =>
        obtain ⟨pre, link⟩ := st
        have ht : (target cap pre link).2.cap = cap := by
          cases link with
          | none => rfl
          | some b =>
            simp only [target]
            split
            · rfl
            · exact hst b rfl
        simp only [put] at hp
        split at hp
        · cases hp; intro b hb; cases hb; exact ht
        · exact ih _ _ _ hp (by intro b hb; cases hb; exact ht)
  have capAll : ∀ (ps : List Bytes) (st st' : List OBuf × Option OBuf), putAll cap st ps = some st' →
      (∀ b, st.2 = some b → b.cap = cap) → ∀ b, st'.2 = some b → b.cap = cap := by
    intro ps
    induction ps with
    | nil => intro st st' h hst; simp only [putAll] at h; cases h; exact hst
    | cons p ps ih =>
      intro st st' h hst
      simp only [putAll] at h
      split at h
      · exact absurd h (by simp)
      · rename_i s1 h1
        exact ih _ _ h (capPut _ _ _ _ h1 hst)
  obtain ⟨st, e1, _, e3⟩ := putAll_contents cap hc ps ([], some ⟨[], cap⟩) (by simp)
  have hcap := capAll ps _ _ e1 (by intro b hb; cases hb; rfl)
  have hlt : (contents st.2.toList).length < ps.flatten.length := by
    cases hb : st.2 with
    | none => simpa [contents] using Nat.lt_of_le_of_lt (Nat.zero_le _) h
    | some b =>
      have h1 := e3 b hb
      rw [hcap b hb] at h1
      simp only [contents, Option.toList_some, List.map_cons, List.map_nil, List.flatten_cons, List.flatten_nil, List.append_nil]
      omega
  refine ⟨st.2.toList, by simp [createAmf, appendAmf, e1], hlt, ?_⟩
  intro he
  rw [he] at hlt
  exact Nat.lt_irrefl _ hlt

/-- Concrete: a 300-byte command with the RTMP default chunk size of 128 arrives as its last 44 bytes. -/
example : ((createAmf 128 [List.replicate 100 1, List.replicate 200 2]).map fun c => (contents c).length) = some 44 := by decide +kernel

/-! ### C42, AMF part -/

/-- `k` nested objects, each the value of key "A" of the one around it, unfinished. -/
def nest : Nat → Bytes
  | 0 => [5]
  | k + 1 => [3, 0, 1, 65] ++ nest k

/-- C42 is false of the AMF decoder: the nesting of its calls grows with the nesting of objects in the message, which the peer chooses. With
every call (`ngx_rtmp_amf_read` and `ngx_rtmp_amf_read_object` alternate) one level deeper than its caller, `2 * k` levels are not
enough for 4k+1 bytes of input. -/
theorem C42_amf_nesting_violation (k : Nat) : run flatReader (2 * k) (.read (nest k) [none]) = .stuck := by
  induction k with
  | zero => rfl
  | succ k ih =>
    have e : nest (k + 1) = 3 :: ([0, 1] ++ ([65] ++ nest k)) := rfl
    rw [show 2 * (k + 1) = 2 * k + 1 + 1 from rfl, run_cons, e]
    simp only [head, flatGet_cons]
    rw [show beDec [(3 : UInt8)] = 3 from by decide, (body_type _ _ _).2.2.2.2.2.2.1]
    simp only [Data.table]
    rw [run_obj, flatGet_append [0, 1] _ 2 rfl]
    simp only
    rw [if_neg (by decide), show beDec [(0 : UInt8), 1] = ([65] : Bytes).length from by decide, readKey_spec]
    simp only [List.find?_nil, ih]
    rfl

end Verif.Amf
