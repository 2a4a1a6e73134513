import Verif.Base.Bytes
/- ADTS (ISO/IEC 13818-7, 6.2) without CRC, and the AudioSpecificConfig of the codec header. -/
namespace Verif.Adts
open Verif

/-- A frame as a player sees it. -/
structure Frame where
  profile : Nat
  sr : Nat
  ch : Nat
  raw : Bytes
  deriving DecidableEq

/-- Frames one behind the other; `none`: no frame header, or the end is missing. -/
def decode : Nat → Bytes → Option (List Frame)
  | _, [] => some []
  | 0, _ => none
  | f + 1, b0 :: b1 :: b2 :: b3 :: b4 :: b5 :: b6 :: r =>
    let len := b3.toNat % 4 * 2048 + b4.toNat * 8 + b5.toNat / 32
    if b0 = 0xff ∧ b1.toNat / 16 = 15 ∧ b1.toNat / 2 % 4 = 0 ∧ b1.toNat % 2 = 1 ∧ b6.toNat % 4 = 0 ∧ 7 ≤ len ∧ len - 7 ≤ r.length then
      (decode f (r.drop (len - 7))).map (⟨b2.toNat / 64, b2.toNat / 4 % 16, b2.toNat % 2 * 4 + b3.toNat / 64, r.take (len - 7)⟩ :: ·)
    else none
  | _, _ => none

def decoded (b : Bytes) : Option (List Frame) := decode b.length b

/-- AudioSpecificConfig: 5 bits object type, 4 bits sample rate, 4 bits channels, 3 more bits. -/
structure Asc where
  obj : Nat
  sr : Nat
  ch : Nat
  low : Nat

def Asc.Ok (a : Asc) : Prop := 0 < a.obj ∧ a.obj < 31 ∧ a.sr < 15 ∧ a.ch < 8 ∧ a.low < 8

instance (a : Asc) : Decidable a.Ok := inferInstanceAs (Decidable (_ ∧ _))

def Asc.bytes (a : Asc) : Bytes := beEnc 2 (a.obj * 2 ^ 11 + a.sr * 2 ^ 7 + a.ch * 2 ^ 3 + a.low)

/-- What ADTS can say of it: profiles are object types 1 to 4 minus 1; everything else is called LC. -/
def Asc.frame (a : Asc) (raw : Bytes) : Frame := ⟨if a.obj ≤ 4 then a.obj - 1 else 1, a.sr, a.ch, raw⟩

/-- An audio message: time and payload. -/
structure Msg where
  ts : Nat
  bytes : Bytes

/-- Messages that carry a frame of at most `cap` bytes with its header. -/
def Msg.sound (cap : Nat) (m : Msg) : Bool := 2 ≤ m.bytes.length && m.bytes[1]? != some 0 && m.bytes.length + 5 ≤ cap

/-- The PES packet `p` carries the frames of the messages `g`, and its time is that of the first, up to `sync` milliseconds. -/
structure Pes (a : Asc) (sync : Nat) (p : Nat × Bytes) (g : List Msg) : Prop where
  hSome : g ≠ []
  hFrames : decoded p.2 = some (g.map fun m => a.frame (m.bytes.drop 2))
  hTime : ∀ m, g.head? = some m → ∃ d : Int, -90 * (sync : Int) ≤ d ∧ d ≤ 90 * (sync : Int) ∧ ((p.1 : Int) - (90 * m.ts + d)) % 2 ^ 64 = 0

end Verif.Adts
