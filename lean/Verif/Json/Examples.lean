import Verif.Json.Props
/-
The theorems of C80 are about something.
-/
namespace Verif.Json

/-- A value with everything: a quotation mark, a backslash, a line feed, a byte 1, a character of two bytes, nested lists, an empty object, negative numbers -/
def exVal : Val := .obj [([0x61, 0x22], .arr [.num (-120), .null, .bool true, .obj []]), ([0x6e], .str [0x5c, 0x0a, 0x01, 0xc3, 0xa4]), ([], .arr []), ([0x7a], .num 0)]

def exBig : Int → Bytes := fun _ => [0x31, 0x65, 0x2b, 0x31, 0x35]

example : Plain exVal = true ∧ weight 0 exVal < 2147483646 := by decide +kernel
example : BigOk exBig := fun _ => ⟨by show (5 : Nat) ≤ 25; decide, by unfold exBig; decide⟩
example : AllUtf8 exVal := by
  simp only [exVal, AllUtf8, AllUtf8Members, AllUtf8Items, and_true, true_and]
  exact ⟨.one (by decide) (.one (by decide) .nil), .one (by decide) .nil, .one (by decide) (.one (by decide) (.one (by decide) (.two (by decide) ⟨by decide, by decide⟩ .nil))), .nil, .one (by decide) .nil⟩

/-- The buffer grows: a string of 300 bytes does not fit into 256. -/
def exLong : Val := .str (List.replicate 300 0x41)

def out : Res Bytes → Bytes
  | .ok t => t
  | _ => []

example : out (print exBig true (fun k => UInt8.ofNat k) exLong) = 0x22 :: List.replicate 300 0x41 ++ [0x22] := by decide +kernel

/-- `{"a": [1, ""]}` with tabulators, from memory full of 0x55 -/
example : out (print exBig true (fun _ => 0x55) (.obj [([0x61], .arr [.num 1, .str []])])) =
    [0x7b, 0x0a, 0x09, 0x22, 0x61, 0x22, 0x3a, 0x09, 0x5b, 0x31, 0x2c, 0x20, 0x22, 0x22, 0x5d, 0x0a, 0x7d] := by decide +kernel

/-- The reader does not read everything: zeros in front, a control byte in a string, a comma too many, something behind the value, a word cut short -/
example : (read [0x30, 0x31]).isNone ∧ (read [0x22, 0x0a, 0x22]).isNone ∧ (read [0x5b, 0x31, 0x2c, 0x5d]).isNone ∧ (read [0x31, 0x20, 0x32]).isNone ∧ (read [0x74, 0x72]).isNone ∧
    (read [0x31, 0x2e, 0x35]).isNone ∧ (read [0x20, 0x5b, 0x0a, 0x31, 0x20, 0x2c, 0x2d, 0x32, 0x5d]).isSome := by decide +kernel

end Verif.Json
