import Verif.Rtmp.BitOpProps
/-
What codec headers are, after ISO/IEC 14496-10 (H.264) 7.3.2.1, 7.4.1.1 and 9.1, ISO/IEC 14496-15 5.2.4.1 and ISO/IEC 14496-3 1.6.2.1.
Bits are those of `BitOp`: `bitEnc` is u(n), `golombCode` is ue(v).
-/
namespace Verif.Codec.Spec
open Verif Verif.BitOp

/-- se(v), 9.1.1 -/
def codeNum (v : Int) : Nat := if 0 < v then (2 * v - 1).toNat else (-2 * v).toNat
def se (v : Int) : List Bool := golombCode (codeNum v)

/-- Chroma format and scaling lists, in high profiles: each list is there with its deltas, or not there -/
structure Chroma where
  format : Nat := 1
  separate : Bool := false
  luma : Nat := 0
  chroma : Nat := 0
  bypass : Bool := false
  lists : Option (List (Option (List Int))) := none
  deriving DecidableEq

/-- Picture order count of type 0, 1, 2 (or a type that is not used yet) -/
inductive Poc where
  | lsb (k : Nat)
  | offsets (zero : Bool) (nonRef top : Int) (refs : List Int)
  | output (type : Nat := 2)
  deriving DecidableEq

/-- Sequence parameter set, up to the cropping; numbers as they are coded (minus 1, 4 or 8) -/
structure Sps where
  profile : Nat
  constraints : Nat
  level : Nat
  id : Nat := 0
  high : Option Chroma := none
  frameNum : Nat := 0
  poc : Poc := .output 2
  refFrames : Nat
  gaps : Bool := false
  width : Nat
  height : Nat
  frameMbsOnly : Bool := true
  mbaff : Bool := false
  direct : Bool := true
  crop : Option (Nat × Nat × Nat × Nat) := none
  deriving DecidableEq

/-- Profiles that have the chroma format -/
def highProfiles : List Nat := [100, 110, 122, 244, 44, 83, 86, 118, 128, 138, 139, 134, 135]

/-- A scaling list, 7.3.2.1.1 -/
def listBits : Option (List Int) → List Bool
  | none => [false]
  | some ds => true :: ds.flatMap se

def Chroma.bits (c : Chroma) : List Bool :=
  golombCode c.format ++ (if c.format = 3 then [c.separate] else []) ++ golombCode c.luma ++ golombCode c.chroma ++ [c.bypass] ++
    match c.lists with
    | none => [false]
    | some ls => true :: ls.flatMap listBits

def Poc.bits : Poc → List Bool
  | .lsb k => golombCode 0 ++ golombCode k
  | .offsets z n t rs => golombCode 1 ++ [z] ++ se n ++ se t ++ golombCode rs.length ++ rs.flatMap se
  | .output t => golombCode t

def cropBits : Option (Nat × Nat × Nat × Nat) → List Bool
  | none => [false]
  | some (l, r, t, b) => [true] ++ golombCode l ++ golombCode r ++ golombCode t ++ golombCode b

def highBits : Option Chroma → List Bool
  | none => []
  | some c => c.bits

/-- 7.3.2.1.1 -/
def Sps.bits (s : Sps) : List Bool :=
  bitEnc 8 s.profile ++ bitEnc 8 s.constraints ++ bitEnc 8 s.level ++ golombCode s.id ++ highBits s.high ++
    golombCode s.frameNum ++ s.poc.bits ++ golombCode s.refFrames ++ [s.gaps] ++ golombCode s.width ++ golombCode s.height ++ [s.frameMbsOnly] ++
    (if s.frameMbsOnly then [] else [s.mbaff]) ++ [s.direct] ++ cropBits s.crop

/-- The numbers of a set as they are coded, to bound them -/
def Sps.codes (s : Sps) : List Nat :=
  [s.id, s.frameNum, s.refFrames, s.width, s.height] ++
  (match s.high with | none => [] | some c => [c.format, c.luma, c.chroma]) ++
  (match s.poc with | .lsb k => [k] | .offsets _ n t rs => [codeNum n, codeNum t, rs.length] ++ rs.map codeNum | .output t => [t]) ++
  (match s.crop with | none => [] | some (l, r, t, b) => [l, r, t, b])

/-- A set as the standard wants it: numbers of 32 bits, `high` for high profiles only, 8 or 12 places for lists -/
def Sps.Ok (s : Sps) : Prop := s.profile < 256 ∧ s.constraints < 256 ∧ s.level < 256 ∧ (∀ k ∈ s.codes, k < 2 ^ 32 - 1) ∧ (∀ t, s.poc = .output t → t = 2) ∧ (s.high.isSome = true ↔ s.profile ∈ highProfiles) ∧
  ∀ c, s.high = some c → ∀ ls, c.lists = some ls → ls.length = if c.format = 3 then 12 else 8

/-- There is no scaling list: none of those that could be there -/
def Sps.NoLists (s : Sps) : Prop := ∀ c, s.high = some c → ∀ ls, c.lists = some ls → ∀ l ∈ ls, l = none

/-- `ChromaArrayType` -/
def Sps.arrayType (s : Sps) : Nat := match s.high with | none => 1 | some c => if c.separate then 0 else c.format

/-- `CropUnitX` and `CropUnitY`: equations 7-19 to 7-22, Table 6-1 -/
def Sps.cropX (s : Sps) : Nat := if s.arrayType = 1 ∨ s.arrayType = 2 then 2 else 1
def Sps.cropY (s : Sps) : Nat := (if s.arrayType = 1 then 2 else 1) * (if s.frameMbsOnly then 1 else 2)

/-- What is cropped: left and right, top and bottom -/
def Sps.cropped (s : Sps) : Nat × Nat := match s.crop with | none => (0, 0) | some (l, r, t, b) => (l + r, t + b)

/-- The size of a picture as it is shown -/
def Sps.size (s : Sps) : Int × Int :=
  (16 * (s.width + 1) - s.cropX * s.cropped.1, 16 * (if s.frameMbsOnly then 1 else 2) * (s.height + 1) - s.cropY * s.cropped.2)

/-- Bytes of a NAL unit after its header: 7.4.1.1; `z` zeros are before. -/
def escape : Nat → Bytes → Bytes
  | _, [] => []
  | z, b :: bs => if 2 ≤ z ∧ b.toNat ≤ 3 then 3 :: b :: escape (if b = 0 then 1 else 0) bs else b :: escape (if b = 0 then z + 1 else 0) bs

/-- `AVCDecoderConfigurationRecord` up to the first NAL unit, of `n` octets, which is there if `k` is not 0 -/
def record (profile compat level lengthSize k n : Nat) : Bytes :=
  [1, UInt8.ofNat profile, UInt8.ofNat compat, UInt8.ofNat level, UInt8.ofNat (0xfc + (lengthSize - 1)), UInt8.ofNat (0xe0 + k), UInt8.ofNat (n / 256), UInt8.ofNat n]

/-! ### AAC -/

/-- `GetAudioObjectType` (14496-3, table 1.16) -/
def objectType (t : Nat) : List Bool := if t < 31 then bitEnc 5 t else bitEnc 5 31 ++ bitEnc 6 (t - 32)

/-- Sampling rates of table 1.18 -/
def rateIndex (r : Nat) : Option Nat :=
  if r = 96000 then some 0 else if r = 88200 then some 1 else if r = 64000 then some 2 else if r = 48000 then some 3 else if r = 44100 then some 4
  else if r = 32000 then some 5 else if r = 24000 then some 6 else if r = 22050 then some 7 else if r = 16000 then some 8 else if r = 12000 then some 9
  else if r = 11025 then some 10 else if r = 8000 then some 11 else if r = 7350 then some 12 else none

/-- An index if there is one; or the rate itself, which may also be used when there is an index -/
def IsRate (r : Nat) (b : List Bool) : Prop := (∃ i, rateIndex r = some i ∧ b = bitEnc 4 i) ∨ (r < 2 ^ 24 ∧ b = bitEnc 4 15 ++ bitEnc 24 r)

/-- `AudioSpecificConfig` (table 1.15), up to the part of the object type; `ext`: the object type 5 or 29 with the rate of output -/
structure Asc where
  object : Nat
  rate : Nat
  chan : Nat
  ext : Option (Bool × Nat) := none
  deriving DecidableEq

def Asc.Ok (a : Asc) : Prop := a.object < 96 ∧ a.object ≠ 31 ∧ a.chan < 16 ∧ (a.ext = none → a.object ≠ 5 ∧ a.object ≠ 29)

def Asc.IsBits (a : Asc) (b : List Bool) : Prop := ∃ r, IsRate a.rate r ∧
  match a.ext with
  | none => b = objectType a.object ++ r ++ bitEnc 4 a.chan
  | some (ps, r') => ∃ e, IsRate r' e ∧ b = objectType (if ps then 29 else 5) ++ r ++ bitEnc 4 a.chan ++ e ++ objectType a.object

/-- The rate of output -/
def Asc.outRate (a : Asc) : Nat := match a.ext with | none => a.rate | some (_, r) => r

/-- The fixed header of ADTS (14496-3, table 1.A.6), up to the channels -/
structure Adts where
  mpeg2 : Bool
  absent : Bool
  object : Nat
  rate : Nat
  priv : Bool := false
  chan : Nat
  deriving DecidableEq

def Adts.Ok (a : Adts) (i : Nat) : Prop := 1 ≤ a.object ∧ a.object ≤ 4 ∧ rateIndex a.rate = some i ∧ a.chan < 8

def Adts.bits (a : Adts) (i : Nat) : List Bool :=
  bitEnc 12 0xfff ++ [a.mpeg2] ++ bitEnc 2 0 ++ [a.absent] ++ bitEnc 2 (a.object - 1) ++ bitEnc 4 i ++ [a.priv] ++ bitEnc 3 a.chan

end Verif.Codec.Spec
