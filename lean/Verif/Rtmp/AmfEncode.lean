import Verif.Rtmp.AmfDecode
/- The encoder produces the specified encoding; a description matching a value receives all of it. -/
namespace Verif.Amf
open Verif

mutual
/-- Values this implementation writes itself: it always announces 0 for the count of a mixed array. -/
def Val.Plain : Val → Prop
  | .obj fs => fs.Plain
  | .mixed c fs => c = 0 ∧ fs.Plain
  | .arr vs => vs.Plain
  | _ => True
def Fields.Plain : Fields → Prop
  | .nil => True
  | .cons _ v fs => v.Plain ∧ fs.Plain
def Vals.Plain : Vals → Prop
  | .nil => True
  | .cons v vs => v.Plain ∧ vs.Plain
end

mutual
/-- A value laid out in memory for the encoder, as the callers do it: a double, a byte, a NUL-terminated string with its length (0 for the
empty one), a table. -/
def Val.toW (name : Bytes) : Val → WElt
  | .num n => .mk 0 false name (.mem (leEnc 8 n)) 8
  | .bool b => .mk 1 false name (.mem [b]) 1
  | .str s => .mk 2 false name (.mem (s ++ [0])) s.length
  | .null => .mk 5 false name .null 0
  | .undef => .mk 6 false name .null 0
  | .obj fs => .mk 3 false name (.elts fs.toW) 0
  | .mixed _ fs => .mk 8 false name (.elts fs.toW) 0
  | .arr vs => .mk 10 false name (.elts vs.toW) 0
def Fields.toW : Fields → WElts
  | .nil => .nil
  | .cons name v fs => .cons (v.toW name) fs.toW
def Vals.toW : Vals → WElts
  | .nil => .nil
  | .cons v vs => .cons (v.toW []) vs.toW
end

def WritesTo (x : WRes) (bs : Bytes) : Prop := ∃ ps, x = .puts ps ∧ ps.flatten = bs

theorem WritesTo.append {x y : WRes} {a b : Bytes} (hx : WritesTo x a) (hy : WritesTo y b) : WritesTo (x.append y) (a ++ b) := by
  obtain ⟨p, rfl, rfl⟩ := hx
  obtain ⟨q, rfl, rfl⟩ := hy
  exact ⟨p ++ q, rfl, by simp⟩

theorem writesTo_one (b : Bytes) : WritesTo (.puts [b]) b := ⟨_, rfl, by simp⟩

theorem toW_length (vs : Vals) : vs.toW.length = vs.length := by
  match vs with
  | .nil => rfl
  | .cons v vs => simp only [Vals.toW, WElts.length, Vals.length, toW_length vs]

theorem peek_all (bs : Bytes) (n : Nat) (h : bs.length = n) : peek n (.mem bs) = some bs := by
  subst h; simp [peek]

theorem leEnc_reverse (k n : Nat) : (leEnc k n).reverse = beEnc k n := by rw [← beEnc_reverse, List.reverse_reverse]

theorem strlen_nul : strlen [0] = some 0 := by decide

theorem strLen_val (s : Bytes) (h : s.length < 65536) : strLen (.mem (s ++ [0])) s.length = some s.length := by
  unfold strLen
  by_cases h0 : s.length = 0
  · have : s = [] := List.length_eq_zero_iff.1 h0
    subst this
    rfl
  · rw [if_neg (by omega), Nat.mod_eq_of_lt h]

theorem toW_eq (v : Val) (name : Bytes) : ∃ d l, v.toW name = .mk v.type false name d l := by
  cases v <;> exact ⟨_, _, rfl⟩

mutual
theorem write_val : ∀ (v : Val) (name : Bytes), v.Wf → v.Plain → WritesTo (writeElt (v.toW name)) v.enc
  | .num n, name, _, _ => by
    simp only [Val.toW, writeElt]
    rw [if_pos (show 0 = tNumber from rfl), peek_all _ 8 (leEnc_length 8 n)]
    simp only [Option.map, leEnc_reverse, putOf]
    exact WritesTo.append (writesTo_one [0]) (writesTo_one _)
  | .bool b, name, _, _ => by
    simp only [Val.toW, writeElt]
    rw [if_neg (by decide), if_pos (show 1 = tBoolean from rfl)]
    exact WritesTo.append (writesTo_one [1]) (writesTo_one _)
  | .str s, name, hw, _ => by
    simp only [Val.Wf] at hw
    simp only [Val.toW, writeElt]
    rw [if_neg (by decide), if_neg (by decide), if_pos (show 2 = tString from rfl), strLen_val s hw]
    simp only
    have : peek s.length (.mem (s ++ [0])) = some s := by simp [peek]
    rw [this]
    exact WritesTo.append (writesTo_one [2]) (WritesTo.append (writesTo_one _) (writesTo_one _))
  | .null, name, _, _ => ⟨[[5]], rfl, rfl⟩
  | .undef, name, _, _ => ⟨[[6]], rfl, rfl⟩
  | .obj fs, name, hw, hp => by
    simp only [Val.Wf] at hw
    simp only [Val.Plain] at hp
    have h := write_fields fs hw hp
    have : writeElt ((Val.obj fs).toW name) = (WRes.puts [[3]]).append ((writeObj fs.toW).append (.puts [[9]])) := by
      simp only [Val.toW, writeElt]; rfl
    rw [this]
    have := WritesTo.append (writesTo_one [3]) (WritesTo.append h (writesTo_one [9]))
    simpa [Val.enc, Val.type, Val.payload] using this
  | .mixed c fs, name, hw, hp => by
    simp only [Val.Wf] at hw
    simp only [Val.Plain] at hp
    obtain ⟨rfl, hp⟩ := hp
    have h := write_fields fs hw.2 hp
    have : writeElt ((Val.mixed 0 fs).toW name) =
        (WRes.puts [[8]]).append ((WRes.puts [[0, 0, 0, 0]]).append ((writeObj fs.toW).append (.puts [[9]]))) := by
      simp only [Val.toW, writeElt]; rfl
    rw [this]
    have := WritesTo.append (writesTo_one [8]) (WritesTo.append (writesTo_one [0, 0, 0, 0]) (WritesTo.append h (writesTo_one [9])))
    simpa [Val.enc, Val.type, Val.payload, beEnc] using this
  | .arr vs, name, hw, hp => by
    simp only [Val.Wf] at hw
    simp only [Val.Plain] at hp
    have h := write_vals vs hw.2 hp
    have : writeElt ((Val.arr vs).toW name) = (WRes.puts [[10]]).append ((WRes.puts [beEnc 4 vs.length]).append (writeArr vs.toW)) := by
      rw [← toW_length]
      simp only [Val.toW, writeElt]; rfl
    rw [this]
    exact WritesTo.append (writesTo_one [10]) (WritesTo.append (writesTo_one _) h)
theorem write_fields : ∀ (fs : Fields), fs.Wf → fs.Plain → WritesTo (writeObj fs.toW) (fs.enc ++ [0, 0])
  | .nil, _, _ => ⟨[[0, 0]], rfl, rfl⟩
  | .cons name v fs, hw, hp => by
    simp only [Fields.Wf] at hw
    simp only [Fields.Plain] at hp
    have h1 := write_val v name hw.2.2.1 hp.1
    have h2 := write_fields fs hw.2.2.2 hp.2
    obtain ⟨d, l, e⟩ := toW_eq v name
    have : writeObj (Fields.cons name v fs).toW = (WRes.puts [beEnc 2 name.length, name]).append
        ((writeElt (v.toW name)).append (writeObj fs.toW)) := by
      simp only [Fields.toW]
      rw [e]
      simp only [writeObj]
      rw [Nat.mod_eq_of_lt hw.2.1, List.take_of_length_le (Nat.le_refl _)]
    rw [this]
    have := WritesTo.append (x := .puts [beEnc 2 name.length, name]) (a := beEnc 2 name.length ++ name) ⟨_, rfl, by simp⟩
      (WritesTo.append h1 h2)
    simpa [Fields.enc, Val.enc] using this
theorem write_vals : ∀ (vs : Vals), vs.Wf → vs.Plain → WritesTo (writeArr vs.toW) vs.enc
  | .nil, _, _ => ⟨[], rfl, rfl⟩
  | .cons v vs, hw, hp => by
    simp only [Vals.Wf] at hw
    simp only [Vals.Plain] at hp
    have h1 := write_val v [] hw.1 hp.1
    have h2 := write_vals vs hw.2 hp.2
    simp only [Vals.toW, writeArr]
    exact WritesTo.append h1 h2
end

/-! ### Descriptions that match a value -/

mutual
/-- Number of leaves with a destination. -/
def Val.size : Val → Nat
  | .num _ => 1
  | .bool _ => 1
  | .str _ => 1
  | .null => 0
  | .undef => 0
  | .obj fs => fs.size
  | .mixed _ fs => fs.size
  | .arr vs => vs.size
def Fields.size : Fields → Nat
  | .nil => 0
  | .cons _ v fs => v.size + fs.size
def Vals.size : Vals → Nat
  | .nil => 0
  | .cons v vs => v.size + vs.size
end

mutual
/-- The matching description of a value: same shape, names and types; leaf number `k` gets location `k` and exactly the room it needs. -/
def Val.desc (name : Bytes) (k : Nat) : Val → Elt
  | .num _ => .mk 0 false false name (.mem k 8) 8
  | .bool _ => .mk 1 false false name (.mem k 1) 1
  | .str s => .mk 2 false false name (.mem k (s.length + 1)) (s.length + 1)
  | .null => .mk 5 false false name .null 0
  | .undef => .mk 6 false false name .null 0
  | .obj fs => .mk 3 false false name (.elts (fs.desc k)) 0
  | .mixed _ fs => .mk 8 false false name (.elts (fs.desc k)) 0
  | .arr vs => .mk 10 false false name (.elts (vs.desc k)) 0
def Fields.desc (k : Nat) : Fields → List Elt
  | .nil => []
  | .cons name v fs => v.desc name k :: fs.desc (k + v.size)
def Vals.desc (k : Nat) : Vals → List Elt
  | .nil => []
  | .cons v vs => v.desc [] k :: vs.desc (k + v.size)
end

mutual
/-- The leaves of a value, numbered from `k`, as C represents them in memory. -/
def Val.leaves (k : Nat) : Val → List Write
  | .num n => [(k, leEnc 8 n)]
  | .bool b => [(k, [b])]
  | .str s => [(k, s ++ [0])]
  | .null => []
  | .undef => []
  | .obj fs => fs.leaves k
  | .mixed _ fs => fs.leaves k
  | .arr vs => vs.leaves k
def Fields.leaves (k : Nat) : Fields → List Write
  | .nil => []
  | .cons _ v fs => v.leaves k ++ fs.leaves (k + v.size)
def Vals.leaves (k : Nat) : Vals → List Write
  | .nil => []
  | .cons v vs => v.leaves k ++ vs.leaves (k + v.size)
end

def Fields.names : Fields → List Bytes
  | .nil => []
  | .cons name _ fs => name :: fs.names

mutual
/-- No object has two fields of the same name. -/
def Val.Distinct : Val → Prop
  | .obj fs => fs.Distinct
  | .mixed _ fs => fs.Distinct
  | .arr vs => vs.Distinct
  | _ => True
def Fields.Distinct : Fields → Prop
  | .nil => True
  | .cons name v fs => name ∉ fs.names ∧ v.Distinct ∧ fs.Distinct
def Vals.Distinct : Vals → Prop
  | .nil => True
  | .cons v vs => v.Distinct ∧ vs.Distinct
end

theorem desc_head (v : Val) (name : Bytes) (k : Nat) :
    (v.desc name k).ty = v.type ∧ (v.desc name k).typeless = false ∧ (v.desc name k).name = name := by
  cases v <;> exact ⟨rfl, rfl, rfl⟩

theorem slot_desc (v : Val) (name : Bytes) (k : Nat) :
    slot (some (v.desc name k)) v.type = ((v.desc name k).data, (v.desc name k).len) := by
  obtain ⟨h1, h2, _⟩ := desc_head v name k
  revert h1 h2
  generalize v.desc name k = e
  obtain ⟨ty, o, t, nm, d, l⟩ := e
  intro h1 h2
  simp only [Elt.ty] at h1
  simp only [Elt.typeless] at h2
  subst h1 h2
  simp only [slot]
  rw [if_neg (by simp), if_pos (by simp [accepts])]
  rfl

mutual
theorem deliver_desc : ∀ (v : Val) (name : Bytes) (k : Nat), v.Distinct → deliverTo (some (v.desc name k)) v = v.leaves k
  | .num n, name, k, _ => by rw [deliverTo, slot_desc]; rfl
  | .bool b, name, k, _ => by rw [deliverTo, slot_desc]; rfl
  | .str s, name, k, _ => by
    rw [deliverTo, slot_desc]
    simp only [Val.desc, Elt.data, Elt.len, deliver, storing, Val.leaves]
    rw [List.take_of_length_le (by omega)]
  | .null, name, k, _ => by simp only [deliverTo, deliver, Val.leaves]
  | .undef, name, k, _ => by simp only [deliverTo, deliver, Val.leaves]
  | .obj fs, name, k, hd => by
    simp only [Val.Distinct] at hd
    rw [deliverTo, slot_desc]
    simp only [Val.desc, Elt.data, deliver, Data.fields, Val.leaves]
    exact deliver_fields fs k [] hd (by simp)
  | .mixed c fs, name, k, hd => by
    simp only [Val.Distinct] at hd
    rw [deliverTo, slot_desc]
    simp only [Val.desc, Elt.data, deliver, Data.fields, Val.leaves]
    exact deliver_fields fs k [] hd (by simp)
  | .arr vs, name, k, hd => by
    simp only [Val.Distinct] at hd
    rw [deliverTo, slot_desc]
    simp only [Val.desc, Elt.data, deliver, Data.fields, Val.leaves]
    exact deliver_vals vs k hd
theorem deliver_fields : ∀ (fs : Fields) (k : Nat) (pre : List Elt), fs.Distinct → (∀ e ∈ pre, e.name ∉ fs.names) →
    deliverF (pre ++ fs.desc k) fs = fs.leaves k
  | .nil, k, pre, _, _ => by simp only [deliverF, Fields.leaves]
  | .cons name v fs, k, pre, hd, hpre => by
    simp only [Fields.Distinct] at hd
    obtain ⟨hn, hv, hfs⟩ := hd
    have hfind : (pre ++ (Fields.cons name v fs).desc k).find? (fun e => e.name == name) = some (v.desc name k) := by
      rw [List.find?_append]
      have : pre.find? (fun e => e.name == name) = none := by
        rw [List.find?_eq_none]
        intro e he
        have := hpre e he
        simp only [Fields.names, List.mem_cons, not_or] at this
        simpa using this.1
      rw [this]
      simp only [Fields.desc, List.find?_cons, (desc_head v name k).2.2, beq_self_eq_true, Option.none_or]
    simp only [deliverF, hfind, Fields.leaves]
    have h1 := deliver_desc v name k hv
    rw [deliverTo] at h1
    rw [h1]
    have h2 := deliver_fields fs (k + v.size) (pre ++ [v.desc name k]) hfs (by
      intro e he
      rcases List.mem_append.1 he with he | he
      · have := hpre e he
        simp only [Fields.names, List.mem_cons, not_or] at this
        exact this.2
      · simp only [List.mem_singleton] at he
        subst he
        rw [(desc_head v name k).2.2]; exact hn)
    simp only [Fields.desc]
    rw [List.append_assoc] at h2
    exact congrArg (v.leaves k ++ ·) h2
theorem deliver_vals : ∀ (vs : Vals) (k : Nat), vs.Distinct → deliverV (vs.desc k) vs = vs.leaves k
  | .nil, k, _ => by simp only [deliverV, Vals.leaves]
  | .cons v vs, k, hd => by
    simp only [Vals.Distinct] at hd
    have h1 := deliver_desc v [] k hd.1
    rw [deliverTo] at h1
    simp only [deliverV, Vals.desc, List.head?_cons, List.tail_cons, Vals.leaves]
    rw [h1, deliver_vals vs (k + v.size) hd.2]
end

mutual
theorem wf_desc : ∀ (v : Val) (name : Bytes) (k : Nat), WfElt false (v.desc name k)
  | .num n, name, k => .num (by omega) (by simp)
  | .bool b, name, k => .bool (by omega) (by simp)
  | .str s, name, k => .str (by omega) (by omega) (by simp)
  | .null, name, k => .null (by omega) (by simp)
  | .undef, name, k => .null (by omega) (by simp)
  | .obj fs, name, k => .table (by omega) (wf_descF fs k) (by simp)
  | .mixed c fs, name, k => .table (by omega) (wf_descF fs k) (by simp)
  | .arr vs, name, k => .table (by omega) (wf_descV vs k) (by simp)
theorem wf_descF : ∀ (fs : Fields) (k : Nat), ∀ e ∈ fs.desc k, WfElt false e
  | .nil, k => by intro e he; simp [Fields.desc] at he
  | .cons name v fs, k => by
    intro e he
    simp only [Fields.desc, List.mem_cons] at he
    rcases he with rfl | he
    · exact wf_desc v name k
    · exact wf_descF fs _ e he
theorem wf_descV : ∀ (vs : Vals) (k : Nat), ∀ e ∈ vs.desc k, WfElt false e
  | .nil, k => by intro e he; simp [Vals.desc] at he
  | .cons v vs, k => by
    intro e he
    simp only [Vals.desc, List.mem_cons] at he
    rcases he with rfl | he
    · exact wf_desc v [] k
    · exact wf_descV vs _ e he
end

end Verif.Amf
