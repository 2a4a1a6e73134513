import Verif.Base.Bytes
/-
Independent specification of an encrypted segment, from the point of view of a player (RFC 8216 4.3.2.4, RFC 5652 6.3):
cipher block chaining decryption with the inverse cipher, then removal of the PKCS#7 padding.
-/
namespace Verif.Ts.Spec
open Verif

/-- Decrypt whole blocks; `none` if the length is not a multiple of 16. -/
def cbcDecrypt (dec : Bytes → Bytes) (iv : Bytes) (data : Bytes) : Option Bytes :=
  if data.length = 0 then some []
  else if h : data.length < 16 then none
  else (cbcDecrypt dec (data.take 16) (data.drop 16)).map fun r => List.zipWith (· ^^^ ·) iv (dec (data.take 16)) ++ r
termination_by data.length
decreasing_by simp only [List.length_drop]; omega

/-- Remove the padding: the last byte `k`, 1 to 16, and the last `k` bytes are all equal to it. -/
def unpad (data : Bytes) : Option Bytes :=
  match data.getLast? with
  | none => none
  | some k =>
    if 1 ≤ k.toNat ∧ k.toNat ≤ 16 ∧ k.toNat ≤ data.length ∧ data.drop (data.length - k.toNat) = List.replicate k.toNat k
    then some (data.take (data.length - k.toNat)) else none

/-- What a player sees. -/
def play (dec : Bytes → Bytes) (iv : Bytes) (file : Bytes) : Option Bytes := (cbcDecrypt dec iv file).bind unpad

end Verif.Ts.Spec
