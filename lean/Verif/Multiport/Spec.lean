import Verif.Toolkit.UrlProps
/-
How an address is written.
-/
namespace Verif.Multiport

/-- A host: no colon in it, unless it is in brackets -/
def Host (h : Bytes) : Prop := (58 ∉ h ∧ h.head? ≠ some 91) ∨ ∃ a, h = 91 :: a ++ [93] ∧ 93 ∉ a

/-- The text is a port, or a host and a port. -/
def Reads (t : Bytes) (h : Option Bytes) (n : Nat) : Prop :=
  ∃ ds, Url.Digits ds ∧ Url.decimal ds = n ∧ match h with
    | none => t = ds
    | some h => Host h ∧ t = h ++ 58 :: ds

/-- The text is the path of a Unix socket. -/
def Unix (t : Bytes) : Prop :=
  ∃ a b c d p, t = a :: b :: c :: d :: 58 :: p ∧ (a = 117 ∨ a = 85) ∧ (b = 110 ∨ b = 78) ∧ (c = 105 ∨ c = 73) ∧ (d = 120 ∨ d = 88)

end Verif.Multiport
