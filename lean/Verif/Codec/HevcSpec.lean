import Verif.Codec.Spec
/-
What a HEVC header is, after ITU-T H.265 7.3.2.2.1, 7.3.3, 7.4.3.2.1, Table 6-1 and ISO/IEC 14496-15 8.3.3.1.
-/
namespace Verif.Codec.Spec
open Verif Verif.BitOp

/-- A sub-layer: 88 bits of profile if they are there, 8 of level if they are there -/
structure SubLayer where
  profile : Option (List Bool)
  level : Option (List Bool)
  deriving DecidableEq

def SubLayer.Ok (l : SubLayer) : Prop := (∀ b, l.profile = some b → b.length = 88) ∧ ∀ b, l.level = some b → b.length = 8

def SubLayer.bits (l : SubLayer) : List Bool := l.profile.getD [] ++ l.level.getD []

/-- Sequence parameter set, up to the conformance window: left, right, top, bottom -/
structure HevcSps where
  vps : Nat := 0
  nesting : Bool := true
  general : List Bool
  level : List Bool
  subs : List SubLayer := []
  id : Nat := 0
  format : Nat := 1
  separate : Bool := false
  width : Nat
  height : Nat
  window : Option (Nat × Nat × Nat × Nat) := none
  deriving DecidableEq

/-- `profile_tier_level(1, sps_max_sub_layers_minus1)` -/
def HevcSps.ptl (s : HevcSps) : List Bool :=
  s.general ++ s.level ++ s.subs.flatMap (fun l => [l.profile.isSome, l.level.isSome]) ++
    (if s.subs = [] then [] else List.replicate (2 * (8 - s.subs.length)) false) ++ s.subs.flatMap SubLayer.bits

def windowBits : Option (Nat × Nat × Nat × Nat) → List Bool
  | none => [false]
  | some (l, r, t, b) => [true] ++ golombCode l ++ golombCode r ++ golombCode t ++ golombCode b

def HevcSps.bits (s : HevcSps) : List Bool :=
  bitEnc 4 s.vps ++ bitEnc 3 s.subs.length ++ [s.nesting] ++ s.ptl ++ golombCode s.id ++ golombCode s.format ++ (if s.format = 3 then [s.separate] else []) ++
    golombCode s.width ++ golombCode s.height ++ windowBits s.window

def HevcSps.Ok (s : HevcSps) : Prop := s.vps < 16 ∧ s.general.length = 88 ∧ s.level.length = 8 ∧ s.subs.length < 7 ∧ (∀ l ∈ s.subs, l.Ok) ∧ s.id < 16 ∧ s.format ≤ 3 ∧ s.width < 2 ^ 32 - 1 ∧ s.height < 2 ^ 32 - 1 ∧
  ∀ l r t b, s.window = some (l, r, t, b) → l < 2 ^ 32 - 1 ∧ r < 2 ^ 32 - 1 ∧ t < 2 ^ 32 - 1 ∧ b < 2 ^ 32 - 1

/-- `SubWidthC` and `SubHeightC` -/
def HevcSps.sub (s : HevcSps) : Nat × Nat := match s.format with | 1 => (2, 2) | 2 => (2, 1) | _ => (1, 1)

/-- The size of a picture as it is shown -/
def HevcSps.size (s : HevcSps) : Int × Int :=
  match s.window with
  | none => (s.width, s.height)
  | some (l, r, t, b) => ((s.width : Int) - s.sub.1 * (l + r), (s.height : Int) - s.sub.2 * (t + b))

/-- The two bytes before a NAL unit: its length -/
def be16 (n : Nat) : Bytes := [UInt8.ofNat (n / 256), UInt8.ofNat n]

/-- NAL units of an array -/
def nalsBytes (l : List Bytes) : Bytes := l.flatMap fun n => be16 n.length ++ n

/-- Arrays of NAL units of one type; `flags` is the completeness flag and the reserved bit -/
structure NalArray where
  flags : Nat := 2
  type : Nat
  nals : List Bytes
  deriving DecidableEq

def NalArray.Ok (a : NalArray) : Prop := a.flags < 4 ∧ a.type < 64 ∧ a.nals.length < 65536 ∧ ∀ n ∈ a.nals, n.length < 65536

def NalArray.bytes (a : NalArray) : Bytes := UInt8.ofNat (a.flags * 64 + a.type) :: be16 a.nals.length ++ nalsBytes a.nals

/-- `HEVCDecoderConfigurationRecord`: `general` is from the profile to `avgFrameRate`, `rates` the byte up to `temporalIdNested` -/
def hevcRecord (general : Bytes) (rates lengthSize : Nat) (arrays : List NalArray) : Bytes :=
  1 :: general ++ [UInt8.ofNat (rates * 4 + (lengthSize - 1)), UInt8.ofNat arrays.length] ++ arrays.flatMap NalArray.bytes

/-- A NAL unit with this set: header (type 33), and its bytes escaped; what follows the window ends with a byte that is not 0. -/
def IsSpsNal (s : HevcSps) (nal : Bytes) : Prop := ∃ (h0 h1 : UInt8) (rbsp : Bytes), h0.toNat / 2 % 64 = 33 ∧ nal = h0 :: h1 :: escape 0 rbsp ∧ s.bits <+: bitsOf rbsp ∧ rbsp.getLast? ≠ some 0

end Verif.Codec.Spec
