import Verif.Rtmp.AmfModel
/-
Specification of AMF0: values, their encoding (Adobe AMF0 specification, sections 2.2-2.12), which description receives
which value, and well-formed descriptions. Uses nothing of the decoder or encoder, only the description types.
-/
namespace Verif.Amf
open Verif

mutual
/-- AMF0 values the code knows. A number is the 64-bit pattern of its IEEE double. -/
inductive Val where
  | num (n : Nat)
  | bool (b : UInt8)
  | str (s : Bytes)
  | null
  | undef
  | obj (fs : Fields)
  | mixed (count : Nat) (fs : Fields)
  | arr (vs : Vals)
inductive Fields where
  | nil
  | cons (name : Bytes) (v : Val) (fs : Fields)
inductive Vals where
  | nil
  | cons (v : Val) (vs : Vals)
end

def Vals.length : Vals → Nat
  | .nil => 0
  | .cons _ vs => vs.length + 1

/-- The AMF0 type marker. -/
def Val.type : Val → Nat
  | .num _ => 0
  | .bool _ => 1
  | .str _ => 2
  | .obj _ => 3
  | .null => 5
  | .undef => 6
  | .mixed _ _ => 8
  | .arr _ => 10

mutual
/-- What follows the type marker. -/
def Val.payload : Val → Bytes
  | .num n => beEnc 8 n
  | .bool b => [b]
  | .str s => beEnc 2 s.length ++ s
  | .null => []
  | .undef => []
  | .obj fs => fs.enc ++ [0, 0, 9]
  | .mixed c fs => beEnc 4 c ++ (fs.enc ++ [0, 0, 9])
  | .arr vs => beEnc 4 vs.length ++ vs.enc
def Fields.enc : Fields → Bytes
  | .nil => []
  | .cons name v fs => beEnc 2 name.length ++ (name ++ (UInt8.ofNat v.type :: v.payload ++ fs.enc))
def Vals.enc : Vals → Bytes
  | .nil => []
  | .cons v vs => UInt8.ofNat v.type :: v.payload ++ vs.enc
end

/-- Encoding of a value: type marker and payload. -/
def Val.enc (v : Val) : Bytes := UInt8.ofNat v.type :: v.payload

mutual
/-- Values that have an encoding: 64-bit numbers, strings and names up to 65535 bytes, names not empty, counts below 2^32. -/
def Val.Wf : Val → Prop
  | .num n => n < 256 ^ 8
  | .bool _ => True
  | .str s => s.length < 65536
  | .null => True
  | .undef => True
  | .obj fs => fs.Wf
  | .mixed c fs => c < 256 ^ 4 ∧ fs.Wf
  | .arr vs => vs.length < 256 ^ 4 ∧ vs.Wf
def Fields.Wf : Fields → Prop
  | .nil => True
  | .cons name v fs => 0 < name.length ∧ name.length < 65536 ∧ v.Wf ∧ fs.Wf
def Vals.Wf : Vals → Prop
  | .nil => True
  | .cons v vs => v.Wf ∧ vs.Wf
end

/-- Well-formed descriptions: the destination is large enough for the type it is declared with. Elements without type marker on the wire
(`NGX_RTMP_AMF_TYPELESS`, other than variants) are admitted only if `tl`. -/
inductive WfElt (tl : Bool) : Elt → Prop
  | null {ty o t name len} (h : ty < 256) (ht : t = true → tl = true) : WfElt tl (.mk ty o t name .null len)
  | num {o t name loc cap len} (h : 8 ≤ cap) (ht : t = true → tl = true) : WfElt tl (.mk 0 o t name (.mem loc cap) len)
  | bool {o t name loc cap len} (h : 1 ≤ cap) (ht : t = true → tl = true) : WfElt tl (.mk 1 o t name (.mem loc cap) len)
  | str {o t name loc cap len} (h : 1 ≤ len) (h' : len ≤ cap) (ht : t = true → tl = true) :
      WfElt tl (.mk 2 o t name (.mem loc cap) len)
  | table {ty o t name es len} (h : ty = 3 ∨ ty = 8 ∨ ty = 10) (he : ∀ e ∈ es, WfElt tl e) (ht : t = true → tl = true) :
      WfElt tl (.mk ty o t name (.elts es) len)
  | variant {name es len} (he : ∀ e ∈ es, WfElt tl e) : WfElt tl (.mk 0x103 false true name (.elts es) len)

/-- Types a description of type `t` accepts: its own, and objects and mixed arrays for each other. -/
def accepts (t vt : Nat) : Prop := t = vt ∨ (t = 3 ∧ vt = 8) ∨ (t = 8 ∧ vt = 3)

instance (t vt : Nat) : Decidable (accepts t vt) := by unfold accepts; exact inferInstance

/-- Destination and size a value of type `vt` goes to: nowhere without description or when the declared type does not accept it; for a
variant the last alternative declared with exactly this type. -/
def slot : Option Elt → Nat → Data × Nat
  | none, _ => (.null, 0)
  | some (.mk ty _ t _ data len), vt =>
    if ty = 0x103 ∧ t = true then
      match data with
      | .elts es =>
        match es.reverse.find? (fun e => e.ty == vt && !e.typeless && !e.optional) with
        | some e => (e.data, e.len)
        | none => (.null, 0)
      | _ => (.null, 0)
    else if accepts ty vt then (data, len)
    else (.null, len)

/-- Fields described by a table destination. -/
def Data.fields : Data → List Elt
  | .elts es => es
  | _ => []

/-- Store of `bs`, if there is a destination. -/
def storing : Data → Bytes → List Write
  | .mem loc _, bs => [(loc, bs)]
  | _, _ => []

mutual
/-- The stores that deliver a value to a destination: numbers in host (little-endian) byte order, strings cut to fit and NUL-terminated,
fields to the first description of that name, array elements to the description at that index. -/
def deliver (d : Data) (len : Nat) : Val → List Write
  | .num n => storing d (leEnc 8 n)
  | .bool b => storing d [b]
  | .str s => storing d (s.take (len - 1) ++ [0])
  | .null => []
  | .undef => []
  | .obj fs => deliverF d.fields fs
  | .mixed _ fs => deliverF d.fields fs
  | .arr vs => deliverV d.fields vs
def deliverF (es : List Elt) : Fields → List Write
  | .nil => []
  | .cons name v fs =>
    let s := slot (es.find? (fun e => e.name == name)) v.type
    deliver s.1 s.2 v ++ deliverF es fs
def deliverV (es : List Elt) : Vals → List Write
  | .nil => []
  | .cons v vs =>
    let s := slot es.head? v.type
    deliver s.1 s.2 v ++ deliverV es.tail vs
end

/-- Delivery of a value to an optional description. -/
def deliverTo (e : Option Elt) (v : Val) : List Write := deliver (slot e v.type).1 (slot e v.type).2 v

end Verif.Amf
