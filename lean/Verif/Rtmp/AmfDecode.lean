import Verif.Rtmp.AmfSpec
/- The decoder on complete encodings: every value is consumed and delivered as the specification says. -/
namespace Verif.Amf
open Verif

theorem flatGet_append (x rest : Bytes) (n : Nat) (h : x.length = n) : flatReader.get (x ++ rest) n = some (x, rest) := by
  subst h
  show flatGet _ _ = _
  simp [flatGet]

theorem flatGet_cons (b : UInt8) (rest : Bytes) : flatReader.get (b :: rest) 1 = some ([b], rest) :=
  flatGet_append [b] rest 1 rfl

theorem flatGet_zero (bs : Bytes) : flatReader.get bs 0 = some ([], bs) := flatGet_append [] bs 0 rfl

theorem beDec_one (b : UInt8) : beDec [b] = b.toNat := by simp [beDec]

theorem beEnc_reverse (k n : Nat) : (beEnc k n).reverse = leEnc k n := by
  have gen : ∀ k n, leEnc k n = (beEnc k n).reverse := by
    intro k
    induction k with
    | zero => intro n; rfl
    | succ k ih =>
      intro n
      have snoc : ∀ k n, beEnc (k + 1) n = beEnc k (n / 256) ++ [UInt8.ofNat n] := by
        intro k
        induction k with
        | zero => intro n; simp [beEnc]
        | succ k ih2 =>
          intro n
          rw [beEnc, ih2 n, beEnc]
          simp only [List.cons_append]
          rw [Nat.div_div_eq_div_mul, Nat.pow_succ, Nat.mul_comm 256]
      rw [snoc, leEnc, ih]; simp
  exact (gen k n).symm

mutual
/-- Steps the decoder needs for the content of a value. -/
def Val.cost : Val → Nat
  | .obj fs => fs.cost
  | .mixed _ fs => fs.cost
  | .arr vs => vs.cost
  | _ => 1
def Fields.cost : Fields → Nat
  | .nil => 1
  | .cons _ v fs => v.cost + fs.cost + 6
def Vals.cost : Vals → Nat
  | .nil => 1
  | .cons v vs => v.cost + vs.cost + 6
end

theorem Val.cost_pos (v : Val) : 1 ≤ v.cost := by
  cases v <;> simp only [Val.cost] <;> try omega
  · rename_i fs; cases fs <;> simp only [Fields.cost] <;> omega
  · rename_i fs; cases fs <;> simp only [Fields.cost] <;> omega
  · rename_i fs; cases fs <;> simp only [Vals.cost] <;> omega

/-- A destination fit for values of type `vt`. -/
def WfSlot (vt : Nat) (d : Data) (len : Nat) : Prop :=
  match d with
  | .null => True
  | .mem _ cap => (vt = 0 ∧ 8 ≤ cap) ∨ (vt = 1 ∧ 1 ≤ cap) ∨ (vt = 2 ∧ 1 ≤ len ∧ len ≤ cap)
  | .elts es => (vt = 3 ∨ vt = 8 ∨ vt = 10) ∧ ∀ e ∈ es, WfElt false e

def WfOpt (tl : Bool) : Option Elt → Prop
  | none => True
  | some e => WfElt tl e

theorem find_mem {es : List Elt} {p : Elt → Bool} {e : Elt} (h : es.find? p = some e) : e ∈ es := List.mem_of_find?_eq_some h

theorem wfSlot_data {e : Elt} {vt : Nat} (h : WfElt false e) (ht : e.typeless = false) (ha : accepts e.ty vt) :
    WfSlot vt e.data e.len := by
  cases h with
  | null h _ => trivial
  | num h _ => simp only [Elt.ty, accepts] at ha; simp only [Elt.data, WfSlot]; omega
  | bool h _ => simp only [Elt.ty, accepts] at ha; simp only [Elt.data, WfSlot]; omega
  | str h h' _ => simp only [Elt.ty, accepts] at ha; simp only [Elt.data, Elt.len, WfSlot]; omega
  | table h he _ =>
    simp only [Elt.ty, accepts] at ha
    simp only [Elt.data, WfSlot]
    exact ⟨by omega, he⟩
  | variant he => simp [Elt.typeless] at ht

theorem wfSlot_slot {e : Option Elt} (h : WfOpt false e) (vt : Nat) : WfSlot vt (slot e vt).1 (slot e vt).2 := by
  cases e with
  | none => trivial
  | some e =>
    have h : WfElt false e := h
    by_cases htl : e.typeless = true
    · -- only variants are typeless
      cases h with
      | null h ht => exact absurd (ht htl) (by simp)
      | num h ht => exact absurd (ht htl) (by simp)
      | bool h ht => exact absurd (ht htl) (by simp)
      | str h h' ht => exact absurd (ht htl) (by simp)
      | table h he ht => exact absurd (ht htl) (by simp)
      | variant he =>
        simp only [slot, and_self, if_true]
        split
        · rename_i e' hf
          have hm := find_mem hf
          have hp := List.find?_some hf
          simp only [Bool.and_eq_true, beq_iff_eq, Bool.not_eq_true'] at hp
          exact wfSlot_data (he e' (by simpa using hm)) hp.1.2 (by simp [accepts, hp.1.1])
        · trivial
    · have htl : e.typeless = false := by simpa using htl
      obtain ⟨ty, o, t, name, d, len⟩ := e
      simp only [Elt.typeless] at htl
      subst htl
      simp only [slot]
      rw [if_neg (by simp)]
      split
      · rename_i ha; exact wfSlot_data h rfl ha
      · trivial

theorem compatible_iff (a b : Nat) : compatible a b = true ↔ accepts a b := by
  simp only [compatible, accepts, tObject, tMixedArray, Bool.or_eq_true, Bool.and_eq_true, beq_iff_eq]
  omega

theorem type_lt (v : Val) : v.type < 256 := by cases v <;> simp [Val.type]

theorem typeByte (v : Val) : beDec [UInt8.ofNat v.type] = v.type := by
  rw [beDec_one, UInt8.toNat_ofNat']
  exact Nat.mod_eq_of_lt (type_lt v)

theorem bind_ok {R : Type} (r : R) (l : List Write) (f : R → Res R) (r' : R) (l' : List Write) (h : f r = .ok r' l') :
    (Res.ok r l).bind f = .ok r' (l ++ l') := by simp only [Res.bind, h]

theorem body_type {R : Type} {G : Reader R} {o : R → List Elt → Res R} {a : R → List Elt → Nat → Res R} {v : R → List Elt → Res R}
    (r : R) (d : Data) (len : Nat) :
    body G o a v r 0 d len = some (readRev G r d 8) ∧ body G o a v r 1 d len = some (readByte G r d) ∧
    body G o a v r 2 d len = some (readStr G r d len) ∧ body G o a v r 5 d len = some (.ok r []) ∧
    body G o a v r 6 d len = some (.ok r []) ∧
    body G o a v r 8 d len = some (match G.get r 4 with
      | none => .err
      | some (_, r) =>
        match d.table with
        | none => .ub .confusion
        | some t => o r t) ∧
    body G o a v r 3 d len = some (match d.table with
      | none => .ub .confusion
      | some t => o r t) ∧
    body G o a v r 10 d len = some (match d.table with
      | none => .ub .confusion
      | some t =>
        match G.get r 4 with
        | none => .err
        | some (b, r) => a r t (beDec b)) ∧
    body G o a v r 0x103 d len = some (match d.table with
      | none => .ub .confusion
      | some t => v r t) := ⟨rfl, rfl, rfl, rfl, rfl, rfl, rfl, rfl, rfl⟩

/-- The body of `ngx_rtmp_amf_read` with `n` steps for the containers. -/
abbrev bodyN (n : Nat) (r : Bytes) (ty : Nat) (d : Data) (len : Nat) : Option (Res Bytes) :=
  body flatReader (fun r t => run flatReader n (.obj r t)) (fun r t k => run flatReader n (.arr r t k))
    (fun r t => run flatReader n (.var r t)) r ty d len

/-- What has to be shown of a value. -/
def BodyOk (v : Val) : Prop :=
  ∀ (d : Data) (len n : Nat) (rest : Bytes), WfSlot v.type d len → v.cost ≤ n →
    bodyN n (v.payload ++ rest) v.type d len = some (.ok rest (deliver d len v))

theorem run_nil {R : Type} (G : Reader R) (n : Nat) (r : R) : run G (n + 1) (.read r []) = .ok r [] := rfl

theorem run_cons {R : Type} (G : Reader R) (n : Nat) (r : R) (e : Option Elt) (es : List (Option Elt)) :
    run G (n + 1) (.read r (e :: es)) =
      match head G r e with
      | .ret x => x
      | .go r ty d len =>
        match body G (fun r t => run G n (.obj r t)) (fun r t k => run G n (.arr r t k)) (fun r t => run G n (.var r t)) r ty d len with
        | none => .ok r []
        | some x => x.bind fun r => run G n (.read r es) := rfl

theorem run_var {R : Type} (G : Reader R) (n : Nat) (r : R) (es : List Elt) :
    run G (n + 1) (.var r es) =
      match G.get r 1 with
      | none => .err
      | some (t, r) => run G n (.read r [some (variantElt es (beDec t))]) := rfl

/-- A value in front of the decoder is consumed and delivered; then the next element is read. -/
theorem read_val {v : Val} (hb : BodyOk v) (e : Option Elt) (he : WfOpt false e) (es : List (Option Elt)) (n : Nat) (rest : Bytes)
    (hn : v.cost + 3 ≤ n) :
    run flatReader (n + 1) (.read (v.enc ++ rest) (e :: es)) =
      (Res.ok rest (deliverTo e v)).bind fun r => run flatReader n (.read r es) := by
  have hslot := wfSlot_slot he v.type
  have hget : flatReader.get (v.enc ++ rest) 1 = some ([UInt8.ofNat v.type], v.payload ++ rest) := flatGet_cons _ _
  rw [run_cons]
  cases e with
  | none =>
    simp only [head, hget, typeByte]
    rw [show body flatReader _ _ _ _ _ _ _ = _ from hb .null 0 n rest hslot (by omega)]
    rfl
  | some e =>
    have he : WfElt false e := he
    by_cases htl : e.typeless = true
    · cases he with
      | null h ht => exact absurd (ht htl) (by simp)
      | num h ht => exact absurd (ht htl) (by simp)
      | bool h ht => exact absurd (ht htl) (by simp)
      | str h h' ht => exact absurd (ht htl) (by simp)
      | table h he ht => exact absurd (ht htl) (by simp)
      | @variant name vs l hes =>
        simp only [head, Elt.typeless, Elt.optional, if_true, Bool.false_eq_true, if_false, Elt.ty, Elt.data, Elt.len]
        rw [(body_type _ _ _).2.2.2.2.2.2.2.2]
        simp only [Data.table]
        obtain ⟨n, rfl⟩ : ∃ m, n = m + 1 := ⟨n - 1, by omega⟩
        rw [run_var, hget]
        simp only [typeByte]
        obtain ⟨n, rfl⟩ : ∃ m, n = m + 1 := ⟨n - 1, by omega⟩
        rw [run_cons]
        -- the element the variant reader builds
        have hv : ∃ d l', variantElt vs v.type = .mk v.type false true [] d l' ∧
            slot (some (.mk 0x103 false true name (.elts vs) l)) v.type = (d, l') := by
          simp only [variantElt, slot, and_self, if_true]
          split
          · rename_i h; exact ⟨_, _, rfl, by rw [h]⟩
          · rename_i e' h; exact ⟨_, _, rfl, by rw [h]⟩
        obtain ⟨d, l', e1, e2⟩ := hv
        rw [e2] at hslot
        rw [e1]
        simp only [head, Elt.typeless, Elt.optional, if_true, Bool.false_eq_true, if_false, Elt.ty, Elt.data, Elt.len]
        rw [show body flatReader _ _ _ _ _ _ _ = _ from hb d l' n rest hslot (by omega)]
        simp only
        obtain ⟨n, rfl⟩ : ∃ m, n = m + 1 := ⟨n - 1, by omega⟩
        rw [bind_ok _ _ _ rest [] rfl]
        simp only [deliverTo, e2, List.append_nil]
    · have htl : e.typeless = false := by simpa using htl
      simp only [head, hget, typeByte, htl, Bool.false_eq_true, if_false]
      have hty : e.ty % 256 = e.ty := by
        cases he with
        | null h _ => exact Nat.mod_eq_of_lt h
        | num _ _ => rfl
        | bool _ _ => rfl
        | str _ _ _ => rfl
        | table h _ _ => simp only [Elt.ty]; omega
        | variant _ => simp [Elt.typeless] at htl
      have hs : slot (some e) v.type = (if compatible (e.ty % 256) v.type then e.data else .null, e.len) := by
        obtain ⟨ty, o, t, name, d, len⟩ := e
        simp only [Elt.typeless] at htl
        subst htl
        simp only [Elt.ty] at hty
        simp only [slot, Elt.ty, Elt.data, Elt.len, hty]
        rw [if_neg (by simp)]
        by_cases ha : accepts ty v.type
        · rw [if_pos ha, if_pos ((compatible_iff _ _).2 ha)]
        · rw [if_neg ha, if_neg (fun h => ha ((compatible_iff _ _).1 h))]
      rw [hs] at hslot
      rw [show body flatReader _ _ _ _ _ _ _ = _ from hb _ e.len n rest hslot (by omega)]
      simp only [deliverTo, hs]

theorem read_one {v : Val} (hb : BodyOk v) (e : Option Elt) (he : WfOpt false e) (n : Nat) (rest : Bytes) (hn : v.cost + 4 ≤ n) :
    run flatReader n (.read (v.enc ++ rest) [e]) = .ok rest (deliverTo e v) := by
  obtain ⟨n, rfl⟩ : ∃ m, n = m + 1 := ⟨n - 1, by omega⟩
  rw [read_val hb e he [] n rest (by omega)]
  obtain ⟨n, rfl⟩ : ∃ m, n = m + 1 := ⟨n - 1, by omega⟩
  rw [bind_ok _ _ _ rest [] rfl, List.append_nil]

theorem foldl_max_ge (es : List Elt) (m : Nat) : m ≤ es.foldl (fun m e => max m e.name.length) m := by
  induction es generalizing m with
  | nil => exact Nat.le_refl _
  | cons e es ih => exact Nat.le_trans (Nat.le_max_left _ _) (ih _)

theorem maxName_ge {es : List Elt} {e : Elt} (h : e ∈ es) : e.name.length ≤ maxName es := by
  unfold maxName
  generalize 0 = m
  induction es generalizing m with
  | nil => simp at h
  | cons x es ih =>
    rcases List.mem_cons.1 h with rfl | h
    · exact Nat.le_trans (Nat.le_max_right m _) (foldl_max_ge es _)
    · exact ih h _

theorem readKey_spec (es : List Elt) (name rest : Bytes) :
    readKey flatReader (name ++ rest) es name.length = some (es.find? (fun e => e.name == name), rest) := by
  unfold readKey
  split
  · rw [flatGet_append name rest _ rfl]; rfl
  · rename_i h
    have h : maxName es < name.length := by omega
    have e : name ++ rest = name.take (maxName es) ++ (name.drop (maxName es) ++ rest) := by
      rw [← List.append_assoc, List.take_append_drop]
    rw [e, flatGet_append _ _ _ (by simp; omega)]
    simp only
    rw [flatGet_append _ _ _ (by simp)]
    have : es.find? (fun e => e.name == name) = none := by
      rw [List.find?_eq_none]
      intro x hx
      have := maxName_ge hx
      simp only [beq_iff_eq]
      intro he
      rw [he] at this; omega
    rw [this]

theorem run_obj {R : Type} (G : Reader R) (n : Nat) (r : R) (es : List Elt) :
    run G (n + 1) (.obj r es) =
      match G.get r 2 with
      | none => .ok r []
      | some (b, r) =>
        if beDec b = 0 then
          match G.get r 1 with
          | none => .err
          | some (t, r) => if beDec t = tEnd then .ok r [] else .err
        else
          match readKey G r es (beDec b) with
          | none => .err
          | some (e, r) => (run G n (.read r [e])).bind fun r => run G n (.obj r es) := rfl

theorem run_arr {R : Type} (G : Reader R) (n : Nat) (r : R) (es : List Elt) (k : Nat) :
    run G (n + 1) (.arr r es (k + 1)) = (run G n (.read r [es.head?])).bind fun r => run G n (.arr r es.tail k) := rfl

theorem wfOpt_find {tl : Bool} {es : List Elt} (h : ∀ e ∈ es, WfElt tl e) (p : Elt → Bool) : WfOpt tl (es.find? p) := by
  cases hf : es.find? p with
  | none => trivial
  | some e => exact h e (find_mem hf)

theorem wfOpt_head {tl : Bool} {es : List Elt} (h : ∀ e ∈ es, WfElt tl e) : WfOpt tl es.head? := by
  cases es with
  | nil => trivial
  | cons e es => exact h e (List.mem_cons_self ..)

theorem table_wf {vt : Nat} {d : Data} {len : Nat} (h : WfSlot vt d len) (hv : vt = 3 ∨ vt = 8 ∨ vt = 10) :
    d.table = some d.fields ∧ ∀ e ∈ d.fields, WfElt false e := by
  cases d with
  | null => exact ⟨rfl, by intro e he; simp [Data.fields] at he⟩
  | mem loc cap => simp only [WfSlot] at h; omega
  | elts es => exact ⟨rfl, h.2⟩

theorem readStr_spec (s rest : Bytes) (hs : s.length < 65536) (d : Data) (len : Nat) (hd : WfSlot 2 d len) :
    readStr flatReader (beEnc 2 s.length ++ s ++ rest) d len = .ok rest (storing d (s.take (len - 1) ++ [0])) := by
  have hdec : beDec (beEnc 2 s.length) = s.length := beDec_beEnc_of_lt (by simpa using hs)
  rw [List.append_assoc]
  simp only [readStr, flatGet_append _ _ _ (beEnc_length 2 s.length), hdec]
  cases d with
  | null => simp only [flatGet_append s rest _ rfl]; rfl
  | elts es => simp [WfSlot] at hd
  | mem loc cap =>
    simp only [WfSlot] at hd
    simp only
    split
    · rename_i hl
      rw [if_neg (by omega), if_neg (by omega)]
      have e : s ++ rest = s.take (len - 1) ++ (s.drop (len - 1) ++ rest) := by
        rw [← List.append_assoc, List.take_append_drop]
      rw [e, flatGet_append _ _ _ (by simp; omega)]
      simp only
      rw [flatGet_append _ _ _ (by simp; omega)]
      rfl
    · rename_i hl
      rw [if_neg (by omega), flatGet_append s rest _ rfl]
      simp only [storing]
      rw [List.take_of_length_le (by omega)]

mutual
theorem body_val : ∀ (v : Val), v.Wf → BodyOk v
  | .num n, hw => by
    intro d len m rest hd hm
    simp only [Val.Wf] at hw
    have hd : WfSlot 0 d len := hd
    show bodyN m (beEnc 8 n ++ rest) 0 d len = _
    rw [bodyN, (body_type _ _ _).1]
    simp only [readRev, flatGet_append _ _ _ (beEnc_length 8 n), beEnc_reverse, deliver]
    cases d with
    | null => rfl
    | elts es => simp [WfSlot] at hd
    | mem loc cap =>
      simp only [WfSlot] at hd
      simp only [store, leEnc_length, storing]
      rw [if_pos (by omega)]
  | .bool b, hw => by
    intro d len m rest hd hm
    have hd : WfSlot 1 d len := hd
    show bodyN m ([b] ++ rest) 1 d len = _
    rw [bodyN, (body_type _ _ _).2.1]
    simp only [readByte, flatGet_append [b] rest 1 rfl, deliver]
    cases d with
    | null => rfl
    | elts es => simp [WfSlot] at hd
    | mem loc cap =>
      simp only [WfSlot] at hd
      simp only [store, storing, List.length_singleton]
      rw [if_pos (by omega)]
  | .str s, hw => by
    intro d len m rest hd hm
    simp only [Val.Wf] at hw
    show bodyN m (beEnc 2 s.length ++ s ++ rest) 2 d len = _
    rw [bodyN, (body_type _ _ _).2.2.1, readStr_spec s rest hw d len hd]
    simp only [deliver]
  | .null, _ => by
    intro d len m rest hd hm
    show bodyN m rest 5 d len = _
    rw [bodyN, (body_type _ _ _).2.2.2.1]; simp only [deliver]
  | .undef, _ => by
    intro d len m rest hd hm
    show bodyN m rest 6 d len = _
    rw [bodyN, (body_type _ _ _).2.2.2.2.1]; simp only [deliver]
  | .obj fs, hw => by
    intro d len m rest hd hm
    simp only [Val.Wf] at hw
    have hd : WfSlot 3 d len := hd
    obtain ⟨e1, e2⟩ := table_wf hd (by omega)
    simp only [Val.payload, Val.type]
    rw [bodyN, (body_type _ _ _).2.2.2.2.2.2.1, e1]
    simp only [deliver]
    rw [List.append_assoc, obj_fields fs hw d.fields e2 m rest (by simpa only [Val.cost] using hm)]
  | .mixed c fs, hw => by
    intro d len m rest hd hm
    simp only [Val.Wf] at hw
    have hd : WfSlot 8 d len := hd
    obtain ⟨e1, e2⟩ := table_wf hd (by omega)
    simp only [Val.payload, Val.type]
    rw [bodyN, (body_type _ _ _).2.2.2.2.2.1, List.append_assoc, flatGet_append _ _ _ (beEnc_length 4 c), e1]
    simp only [deliver]
    rw [List.append_assoc, obj_fields fs hw.2 d.fields e2 m rest (by simpa only [Val.cost] using hm)]
  | .arr vs, hw => by
    intro d len m rest hd hm
    simp only [Val.Wf] at hw
    have hd : WfSlot 10 d len := hd
    obtain ⟨e1, e2⟩ := table_wf hd (by omega)
    simp only [Val.payload, Val.type]
    rw [bodyN, (body_type _ _ _).2.2.2.2.2.2.2.1, e1]
    simp only [List.append_assoc, flatGet_append _ _ _ (beEnc_length 4 vs.length), deliver]
    rw [beDec_beEnc_of_lt hw.1, arr_vals vs hw.2 d.fields e2 m rest (by simpa only [Val.cost] using hm)]
theorem obj_fields : ∀ (fs : Fields), fs.Wf → ∀ (t : List Elt), (∀ e ∈ t, WfElt false e) → ∀ (n : Nat) (rest : Bytes), fs.cost ≤ n →
    run flatReader n (.obj (fs.enc ++ ([0, 0, 9] ++ rest)) t) = .ok rest (deliverF t fs)
  | .nil, _, t, _, n, rest, hn => by
    simp only [Fields.cost] at hn
    obtain ⟨n, rfl⟩ : ∃ m, n = m + 1 := ⟨n - 1, by omega⟩
    rw [run_obj]
    have e : Fields.nil.enc ++ ([0, 0, 9] ++ rest) = [0, 0] ++ (9 :: rest) := by simp [Fields.enc]
    rw [e, flatGet_append [0, 0] _ 2 rfl]
    simp only
    rw [if_pos (show beDec [0, 0] = 0 by decide), flatGet_cons]
    simp only
    rw [if_pos (show beDec [9] = tEnd by decide)]
    simp only [deliverF]
  | .cons name v fs, hw, t, ht, n, rest, hn => by
    simp only [Fields.Wf] at hw
    simp only [Fields.cost] at hn
    obtain ⟨h0, h1, hv, hfs⟩ := hw
    have hdec : beDec (beEnc 2 name.length) = name.length := beDec_beEnc_of_lt (by simpa using h1)
    obtain ⟨n, rfl⟩ : ∃ m, n = m + 1 := ⟨n - 1, by omega⟩
    rw [run_obj]
    have e : (Fields.cons name v fs).enc ++ ([0, 0, 9] ++ rest) =
        beEnc 2 name.length ++ (name ++ (v.enc ++ (fs.enc ++ ([0, 0, 9] ++ rest)))) := by
      simp [Fields.enc, Val.enc]
    rw [e, flatGet_append _ _ _ (beEnc_length 2 _)]
    simp only [hdec]
    rw [if_neg (by omega), readKey_spec]
    simp only
    rw [read_one (body_val v hv) _ (wfOpt_find ht _) n _ (by have := fs.cost; omega)]
    rw [bind_ok _ _ _ _ _ (obj_fields fs hfs t ht n rest (by omega))]
    simp only [deliverF, deliverTo]
theorem arr_vals : ∀ (vs : Vals), vs.Wf → ∀ (t : List Elt), (∀ e ∈ t, WfElt false e) → ∀ (n : Nat) (rest : Bytes), vs.cost ≤ n →
    run flatReader n (.arr (vs.enc ++ rest) t vs.length) = .ok rest (deliverV t vs)
  | .nil, _, t, _, n, rest, hn => by
    simp only [Vals.cost] at hn
    obtain ⟨n, rfl⟩ : ∃ m, n = m + 1 := ⟨n - 1, by omega⟩
    rfl
  | .cons v vs, hw, t, ht, n, rest, hn => by
    simp only [Vals.Wf] at hw
    simp only [Vals.cost] at hn
    obtain ⟨hv, hvs⟩ := hw
    obtain ⟨n, rfl⟩ : ∃ m, n = m + 1 := ⟨n - 1, by omega⟩
    have e : (Vals.cons v vs).enc ++ rest = v.enc ++ (vs.enc ++ rest) := by simp [Vals.enc, Val.enc]
    rw [e, Vals.length, run_arr, read_one (body_val v hv) _ (wfOpt_head ht) n _ (by omega)]
    rw [bind_ok _ _ _ _ _ (arr_vals vs hvs t.tail (fun e h => ht e (List.mem_of_mem_tail h)) n rest (by omega))]
    simp only [deliverV, deliverTo]
end

end Verif.Amf
