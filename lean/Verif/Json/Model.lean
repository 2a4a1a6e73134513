import Verif.Json.Spec
/-
Model of how cJSON (modules/nginx-rtmp-module/json/cJSON.c) prints: into a buffer that grows. Memory is a function from places to bytes; what has not been written is anything. Memory can be had.

Items are `Val`. Strings are C strings: what is behind a zero is not there. Numbers are whole; for those of less than 16 digits `%1.15g` is decimal, and read back exactly (:563-573); texts of others are a parameter.
-/
namespace Verif.Json

/-- `bad` is undefined behaviour, `null` is NULL or false. -/
inductive Res (α : Type) where
  | bad
  | null
  | ok (a : α)

def Res.bind {α β : Type} (x : Res α) (f : α → Res β) : Res β :=
  match x with
  | .bad => .bad
  | .null => .null
  | .ok a => f a

/-- `printbuffer` (:423-432) -/
structure Buf where
  mem : Nat → UInt8
  length : Nat
  offset : Nat
  depth : Nat
  format : Bool

def intMax : Nat := 2147483647

/-- `ensure` (:435-520) -/
def ensure (p : Buf) (needed : Nat) : Res Buf :=
  if 0 < p.length ∧ p.length ≤ p.offset then .null
  else if intMax < needed then .null
  else
    let needed := needed + (p.offset + 1)
    if needed ≤ p.length then .ok p
    else if intMax / 2 < needed then (if needed ≤ intMax then .ok { p with length := intMax } else .null)
    else .ok { p with length := needed * 2 }

/-- Bytes from a place on -/
def patch (mem : Nat → UInt8) (i : Nat) (l : Bytes) : Nat → UInt8 := fun k => if i ≤ k then (l[k - i]?).getD (mem k) else mem k

/-- Writing bytes; outside of the buffer it is undefined -/
def write (p : Buf) (i : Nat) (l : Bytes) : Res Buf := if i + l.length ≤ p.length then .ok { p with mem := patch p.mem i l } else .bad

/-- `update_offset` (:523-533): strlen; beyond the buffer it is undefined -/
def updateOffset (p : Buf) : Res Buf :=
  match (List.range (p.length - p.offset)).find? fun k => p.mem (p.offset + k) == 0 with
  | none => .bad
  | some k => .ok { p with offset := p.offset + k }

/-- A C string -/
def cstr (s : Bytes) : Bytes := s.takeWhile (· != 0)

/-- :985-1003 -/
def short (b : UInt8) : Option UInt8 :=
  if b = 0x5c then some 0x5c else if b = 0x22 then some 0x22 else if b = 0x08 then some 0x62 else if b = 0x0c then some 0x66 else if b = 0x0a then some 0x6e else if b = 0x0d then some 0x72
  else if b = 0x09 then some 0x74 else none

/-- `%x` of a digit -/
def hexDigit (n : Nat) : UInt8 := if n < 10 then UInt8.ofNat (48 + n) else UInt8.ofNat (87 + n)

/-- `u%04x` of a byte (:1006) -/
def uText (b : UInt8) : Bytes := [0x75, 0x30, 0x30, hexDigit (b.toNat / 16), hexDigit (b.toNat % 16)]

/-- What a byte needs beyond itself (:921-940) -/
def extra (b : UInt8) : Nat := if (short b).isSome then 1 else if b < 32 then 5 else 0

/-- The loop that copies (:968-1011): the place of the next byte. `sprintf` writes a zero, too. -/
def copyLoop (p : Buf) (at' : Nat) : Bytes → Res Buf
  | [] => .ok p
  | b :: s =>
    if 31 < b ∧ b ≠ 0x22 ∧ b ≠ 0x5c then (write p at' [b]).bind fun p => copyLoop p (at' + 1) s
    else
      match short b with
      | some c => (write p at' [0x5c, c]).bind fun p => copyLoop p (at' + 2) s
      | none => (write p at' (0x5c :: uText b ++ [0])).bind fun p => copyLoop p (at' + 6) s

/-- `print_string_ptr` (:896-1015) -/
def printStr (p : Buf) (s : Bytes) : Res Buf :=
  let s := cstr s
  let esc := (s.map extra).sum
  let len := s.length + esc
  (ensure p (len + 3)).bind fun p =>
    if esc = 0 then write p p.offset (0x22 :: s ++ [0x22, 0])
    else (write p p.offset [0x22]).bind fun p => (copyLoop p (p.offset + 1) s).bind fun p => write p (p.offset + len + 1) [0x22, 0]

/-- Decimal digits -/
def decGo : Nat → Nat → Bytes
  | 0, _ => []
  | fuel + 1, n => if n < 10 then [UInt8.ofNat (48 + n)] else decGo fuel (n / 10) ++ [UInt8.ofNat (48 + n % 10)]

def dec (n : Nat) : Bytes := decGo (n + 1) n

/-- The text of a number (:556-574); `big` is that of a large one. -/
def numText (big : Int → Bytes) (n : Int) : Bytes := if n.natAbs < 10 ^ 15 then (if n < 0 then 0x2d :: dec n.natAbs else dec n.natAbs) else big n

/-- `print_number` (:543-606) -/
def printNum (big : Int → Bytes) (p : Buf) (n : Int) : Res Buf :=
  let t := numText big n
  if 25 < t.length then .null else (ensure p (t.length + 1)).bind fun p => (write p p.offset (t ++ [0])).bind fun p => .ok { p with offset := p.offset + t.length }

/-- Words of `print_value` (:1372-1397) -/
def printWord (p : Buf) (w : Bytes) : Res Buf := (ensure p (w.length + 1)).bind fun p => write p p.offset (w ++ [0])

def tabs (n : Nat) : Bytes := List.replicate n 0x09

mutual
/-- `print_value` (:1361-1432) -/
def printVal (big : Int → Bytes) : Val → Buf → Res Buf
  | .null, p => printWord p nullW
  | .bool true, p => printWord p trueW
  | .bool false, p => printWord p falseW
  | .num n, p => printNum big p n
  | .str s, p => printStr p s
  /- `print_array` (:1533-1592) -/
  | .arr l, p =>
    (ensure p 1).bind fun p => (write p p.offset [0x5b]).bind fun p => (printItems big l { p with offset := p.offset + 1, depth := p.depth + 1 }).bind fun p =>
      (ensure p 2).bind fun p => (write p p.offset [0x5d, 0]).bind fun p => .ok { p with depth := p.depth - 1 }
  /- `print_object` (:1708-1819) -/
  | .obj l, p =>
    let n := if p.format then 2 else 1
    (ensure p (n + 1)).bind fun p => (write p p.offset (if p.format then [0x7b, 0x0a] else [0x7b])).bind fun p =>
      (printMembers big l { p with offset := p.offset + n, depth := p.depth + 1 }).bind fun p =>
        (ensure p (if p.format then p.depth + 1 else 2)).bind fun p => (write p p.offset ((if p.format then tabs (p.depth - 1) else []) ++ [0x7d, 0])).bind fun p => .ok { p with depth := p.depth - 1 }

/-- The loop of `print_array` (:1555-1579) -/
def printItems (big : Int → Bytes) : List Val → Buf → Res Buf
  | [], p => .ok p
  | v :: l, p =>
    (printVal big v p).bind fun p => (updateOffset p).bind fun p =>
      if l.isEmpty then printItems big l p
      else
        let n := if p.format then 2 else 1
        (ensure p (n + 1)).bind fun p => (write p p.offset ((if p.format then [0x2c, 0x20] else [0x2c]) ++ [0])).bind fun p => printItems big l { p with offset := p.offset + n }

/-- The loop of `print_object` (:1736-1798) -/
def printMembers (big : Int → Bytes) : List (Bytes × Val) → Buf → Res Buf
  | [], p => .ok p
  | (k, v) :: l, p =>
    (if p.format then (ensure p p.depth).bind fun p => (write p p.offset (tabs p.depth)).bind fun p => .ok { p with offset := p.offset + p.depth } else .ok p).bind fun p =>
      (printStr p k).bind fun p => (updateOffset p).bind fun p =>
        let n := if p.format then 2 else 1
        (ensure p n).bind fun p => (write p p.offset (if p.format then [0x3a, 0x09] else [0x3a])).bind fun p =>
          (printVal big v { p with offset := p.offset + n }).bind fun p => (updateOffset p).bind fun p =>
            let n := (if p.format then 1 else 0) + (if l.isEmpty then 0 else 1)
            (ensure p (n + 1)).bind fun p => (write p p.offset ((if l.isEmpty then [] else [0x2c]) ++ (if p.format then [0x0a] else []) ++ [0])).bind fun p =>
              printMembers big l { p with offset := p.offset + n }
end

/-- `print` (:1181-1243): the text. Memory is anything at first. -/
def print (big : Int → Bytes) (format : Bool) (mem : Nat → UInt8) (v : Val) : Res Bytes :=
  (printVal big v ⟨mem, 256, 0, 0, format⟩).bind fun p => (updateOffset p).bind fun p => .ok ((List.range p.offset).map p.mem)

end Verif.Json
