import Verif.Base.Bytes
/-
JSON as RFC 8259 has it: values, and a reader of texts. It knows nothing of any program. Texts are bytes; numbers are whole numbers (a text with a fraction or an exponent is not read).
-/
namespace Verif.Json

inductive Val where
  | null
  | bool (b : Bool)
  | num (n : Int)
  | str (s : Bytes)
  | arr (l : List Val)
  | obj (l : List (Bytes × Val))

/-- Whitespace (section 2) -/
def isWs (b : UInt8) : Bool := b == 0x20 || b == 0x09 || b == 0x0a || b == 0x0d

def skip (l : Bytes) : Bytes := l.dropWhile isWs

def hexVal (b : UInt8) : Option Nat :=
  let n := b.toNat
  if 48 ≤ n ∧ n ≤ 57 then some (n - 48) else if 97 ≤ n ∧ n ≤ 102 then some (n - 87) else if 65 ≤ n ∧ n ≤ 70 then some (n - 55) else none

/-- UTF-8 (RFC 3629) of a character below 0x10000 -/
def utf8 (n : Nat) : Bytes :=
  if n < 0x80 then [UInt8.ofNat n]
  else if n < 0x800 then [UInt8.ofNat (0xc0 + n / 64), UInt8.ofNat (0x80 + n % 64)]
  else [UInt8.ofNat (0xe0 + n / 4096), UInt8.ofNat (0x80 + n / 64 % 64), UInt8.ofNat (0x80 + n % 64)]

def tail8 (b : UInt8) : Prop := 0x80 ≤ b.toNat ∧ b.toNat ≤ 0xbf

/-- Well-formed UTF-8 (RFC 3629, section 4) -/
inductive Utf8 : Bytes → Prop where
  | nil : Utf8 []
  | one {b : UInt8} {r : Bytes} : b.toNat < 128 → Utf8 r → Utf8 (b :: r)
  | two {b c : UInt8} {r : Bytes} : 0xc2 ≤ b.toNat ∧ b.toNat ≤ 0xdf → tail8 c → Utf8 r → Utf8 (b :: c :: r)
  | three {b c d : UInt8} {r : Bytes} : 0xe0 ≤ b.toNat ∧ b.toNat ≤ 0xef →
      (if b.toNat = 0xe0 then 0xa0 else 0x80) ≤ c.toNat ∧ c.toNat ≤ (if b.toNat = 0xed then 0x9f else 0xbf) → tail8 d → Utf8 r → Utf8 (b :: c :: d :: r)
  | four {b c d e : UInt8} {r : Bytes} : 0xf0 ≤ b.toNat ∧ b.toNat ≤ 0xf4 →
      (if b.toNat = 0xf0 then 0x90 else 0x80) ≤ c.toNat ∧ c.toNat ≤ (if b.toNat = 0xf4 then 0x8f else 0xbf) → tail8 d → tail8 e → Utf8 r → Utf8 (b :: c :: d :: e :: r)

/-- Escapes of one character (section 7) -/
def unescape (b : UInt8) : Option UInt8 :=
  if b = 0x22 then some 0x22 else if b = 0x5c then some 0x5c else if b = 0x2f then some 0x2f else if b = 0x62 then some 0x08 else if b = 0x66 then some 0x0c
  else if b = 0x6e then some 0x0a else if b = 0x72 then some 0x0d else if b = 0x74 then some 0x09 else none

/-- A string behind its first quotation mark (section 7): what it says, and what follows. Surrogates are not read. -/
def readStr : Bytes → Option (Bytes × Bytes)
  | [] => none
  | b :: r =>
    if b = 0x22 then some ([], r)
    else if b = 0x5c then
      match r with
      | 0x75 :: h1 :: h2 :: h3 :: h4 :: r =>
        (hexVal h1).bind fun a => (hexVal h2).bind fun b => (hexVal h3).bind fun c => (hexVal h4).bind fun d =>
          let n := ((a * 16 + b) * 16 + c) * 16 + d
          if 0xd800 ≤ n ∧ n < 0xe000 then none else (readStr r).map fun y => (utf8 n ++ y.1, y.2)
      | c :: r => (unescape c).bind fun x => (readStr r).map fun y => (x :: y.1, y.2)
      | [] => none
    else if b < 0x20 then none
    else (readStr r).map fun y => (b :: y.1, y.2)

def digit (b : UInt8) : Option Nat := if 48 ≤ b.toNat ∧ b.toNat ≤ 57 then some (b.toNat - 48) else none

/-- Digits, as many as there are, after the value so far -/
def readDigits : Nat → Bytes → Nat × Bytes
  | n, [] => (n, [])
  | n, b :: r => match digit b with
    | some d => readDigits (n * 10 + d) r
    | none => (n, b :: r)

/-- The whole part of a number (section 6): no zeros in front -/
def readInt : Bytes → Option (Nat × Bytes)
  | [] => none
  | b :: r => (digit b).bind fun d => if d = 0 then (match r with
      | c :: _ => if (digit c).isSome then none else some (0, r)
      | [] => some (0, r)) else some (readDigits d r)

/-- There is no fraction and no exponent. -/
def whole (l : Bytes) : Bool := match l with
  | b :: _ => !(b == 0x2e || b == 0x65 || b == 0x45)
  | [] => true

def readNum (l : Bytes) : Option (Int × Bytes) :=
  match l with
  | 0x2d :: r => (readInt r).bind fun x => if whole x.2 then some (-(x.1 : Int), x.2) else none
  | l => (readInt l).bind fun x => if whole x.2 then some ((x.1 : Int), x.2) else none

/-- What follows a word -/
def word : Bytes → Bytes → Option Bytes
  | [], l => some l
  | _ :: _, [] => none
  | a :: w, b :: l => if a = b then word w l else none

def nullW : Bytes := [0x6e, 0x75, 0x6c, 0x6c]
def trueW : Bytes := [0x74, 0x72, 0x75, 0x65]
def falseW : Bytes := [0x66, 0x61, 0x6c, 0x73, 0x65]

mutual
/-- A value (section 3), and what follows it. The number bounds the depth. -/
def readVal : Nat → Bytes → Option (Val × Bytes)
  | 0, _ => none
  | n + 1, l =>
    match skip l with
    | [] => none
    | b :: r =>
      if b = 0x22 then (readStr r).map fun x => (.str x.1, x.2)
      else if b = 0x5b then (if (skip r).head? = some 0x5d then some (.arr [], (skip r).tail) else (readItems n r).map fun x => (.arr x.1, x.2))
      else if b = 0x7b then (if (skip r).head? = some 0x7d then some (.obj [], (skip r).tail) else (readMembers n r).map fun x => (.obj x.1, x.2))
      else if b = 0x6e then (word nullW (b :: r)).map fun x => (.null, x)
      else if b = 0x74 then (word trueW (b :: r)).map fun x => (.bool true, x)
      else if b = 0x66 then (word falseW (b :: r)).map fun x => (.bool false, x)
      else (readNum (b :: r)).map fun x => (.num x.1, x.2)

/-- The elements of an array (section 5) up to its end; there is one at least. -/
def readItems : Nat → Bytes → Option (List Val × Bytes)
  | 0, _ => none
  | n + 1, l => (readVal n l).bind fun x =>
    match skip x.2 with
    | [] => none
    | b :: r => if b = 0x2c then (readItems n r).map fun y => (x.1 :: y.1, y.2) else if b = 0x5d then some ([x.1], r) else none

/-- The members of an object (section 4) up to its end; there is one at least. -/
def readMembers : Nat → Bytes → Option (List (Bytes × Val) × Bytes)
  | 0, _ => none
  | n + 1, l =>
    match skip l with
    | [] => none
    | b :: r => if b ≠ 0x22 then none else (readStr r).bind fun k =>
      match skip k.2 with
      | [] => none
      | b :: r => if b ≠ 0x3a then none else (readVal n r).bind fun x =>
        match skip x.2 with
        | [] => none
        | b :: r => if b = 0x2c then (readMembers n r).map fun y => ((k.1, x.1) :: y.1, y.2) else if b = 0x7d then some ([(k.1, x.1)], r) else none
end

/-- A JSON text (section 2): one value -/
def read (l : Bytes) : Option Val := (readVal (l.length + 1) l).bind fun x => if (skip x.2).isEmpty then some x.1 else none

/-- A member of an object; an element of an array -/
def Val.get (k : Bytes) : Val → Option Val
  | .obj l => (l.find? fun x => x.1 == k).map (·.2)
  | _ => none

def Val.items : Val → Option (List Val)
  | .arr l => some l
  | _ => none

/-- The members of an object have different names (section 4: "SHOULD be unique"). -/
def Val.keys : Val → List Bytes
  | .obj l => l.map (·.1)
  | _ => []

end Verif.Json
