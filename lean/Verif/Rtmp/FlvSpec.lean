import Verif.Base.Bytes
/-
The FLV format (Adobe Flash Video File Format Specification 10.1, annex E): header, tags, back pointers; and the cutting
of a payload into buffers of a given size.
-/
namespace Verif.Flv
open Verif

/-- An FLV tag. `ts` is the 32-bit timestamp, `sid` the StreamID (0 in files). -/
structure Tag where
  type : Nat
  ts : Nat
  sid : Nat
  data : Bytes
deriving DecidableEq, Repr

/-- FLVTAG without the back pointer: TagType, DataSize, lower 24 bits of the timestamp, upper 8 bits, StreamID, data. -/
def Tag.head (t : Tag) : Bytes :=
  beEnc 1 t.type ++ beEnc 3 t.data.length ++ beEnc 3 (t.ts % 2 ^ 24) ++ beEnc 1 (t.ts / 2 ^ 24) ++ beEnc 3 t.sid

/-- PreviousTagSize that follows a tag. -/
def Tag.back (t : Tag) : Bytes := beEnc 4 (11 + t.data.length)

def Tag.bytes (t : Tag) : Bytes := t.head ++ t.data ++ t.back

/-- Values that fit their fields. -/
structure Tag.Ok (t : Tag) : Prop where
  hType : t.type = 8 ∨ t.type = 9 ∨ t.type = 18
  hTs : t.ts < 2 ^ 32
  hSid : t.sid < 2 ^ 24
  hLen : t.data.length < 2 ^ 24

/-- File header: signature, version 1, flags, header size, and PreviousTagSize0. -/
def fileHeader (flags : UInt8) (offset : Nat) : Bytes := [0x46, 0x4c, 0x56, 1, flags] ++ beEnc 4 offset ++ beEnc 4 0

/-- Audio and video are announced in the header flags. -/
def announcesAudio (flags : UInt8) : Bool := flags.toNat / 4 % 2 == 1
def announcesVideo (flags : UInt8) : Bool := flags.toNat % 2 == 1

/-- Pieces of at most `c` bytes, all but the last of them full; the empty payload is one empty piece. -/
structure Pieces (c : Nat) (bufs : List Bytes) (d : Bytes) : Prop where
  sum : bufs.flatten = d
  ne : bufs ≠ []
  full : ∀ b ∈ bufs.dropLast, b.length = c
  le : ∀ b ∈ bufs, b.length ≤ c
  last : d ≠ [] → [] ∉ bufs

/-- Two lists of equal length, related position by position. -/
inductive Each {α β : Type} (R : α → β → Prop) : List α → List β → Prop
  | nil : Each R [] []
  | cons {a b l m} : R a b → Each R l m → Each R (a :: l) (b :: m)

end Verif.Flv
