import Verif.Client.BodyModel
/-
The chunked transfer coding (RFC 7230, 4.1), written down without reference to the parser: a body is a list of chunks, every byte on the wire is marked as
framing or data.
-/
namespace Verif.Client

/-- Value of a hexadecimal digit, by position in the alphabet. -/
def digit (ch : UInt8) : Option Nat :=
  (("0123456789abcdef".toUTF8.toList).idxOf? ch).orElse fun _ => ("0123456789ABCDEF".toUTF8.toList).idxOf? ch

/-- Value of a string of hexadecimal digits. -/
def hexNum : Bytes → Option Nat
  | [] => none
  | l => l.foldl (fun a ch => do return (← a) * 16 + (← digit ch)) (some 0)

/-- A chunk: its size as written, extensions, data. -/
structure Chunk where
  hex : Bytes
  ext : Bytes := []
  data : Bytes
  deriving DecidableEq

structure Body where
  chunks : List Chunk
  lastHex : Bytes := [48]
  lastExt : Bytes := []
  trailers : List Bytes := []
  deriving DecidableEq

/-- No line ends. -/
def oneLine (l : Bytes) : Prop := (13 : UInt8) ∉ l ∧ (10 : UInt8) ∉ l
instance : Decidable (oneLine l) := inferInstanceAs (Decidable (_ ∧ _))

/-- Extensions begin with a semicolon or white space. -/
def extOk (l : Bytes) : Prop := oneLine l ∧ (l = [] ∨ l.head? = some 59 ∨ l.head? = some 32 ∨ l.head? = some 9)
instance : Decidable (extOk l) := inferInstanceAs (Decidable (_ ∧ _))

/-- A chunk as it should be. Sizes of 2^59 and more are refused by the parser. -/
def Chunk.Ok (c : Chunk) : Prop := hexNum c.hex = some c.data.length ∧ 0 < c.data.length ∧ c.data.length < 576460752303423488 ∧ extOk c.ext
instance : Decidable (Chunk.Ok c) := inferInstanceAs (Decidable (_ ∧ _))

def Body.Ok (b : Body) : Prop := (∀ c ∈ b.chunks, c.Ok) ∧ hexNum b.lastHex = some 0 ∧ extOk b.lastExt ∧ ∀ t ∈ b.trailers, oneLine t ∧ t ≠ []
instance : Decidable (Body.Ok b) := inferInstanceAs (Decidable (_ ∧ _))

/-- Framing bytes. -/
def frm (l : Bytes) : List (UInt8 × Bool) := l.map (fun ch => (ch, false))
/-- Data bytes. -/
def dat (l : Bytes) : List (UInt8 × Bool) := l.map (fun ch => (ch, true))

/-- A chunk on the wire. -/
def Chunk.wire (c : Chunk) : List (UInt8 × Bool) := frm c.hex ++ frm c.ext ++ frm [13, 10] ++ dat c.data ++ frm [13, 10]

/-- A body on the wire. -/
def Body.wire (b : Body) : List (UInt8 × Bool) :=
  (b.chunks.map Chunk.wire).flatten ++ frm b.lastHex ++ frm b.lastExt ++ frm [13, 10] ++ (b.trailers.map (fun t => frm t ++ frm [13, 10])).flatten ++ frm [13, 10]

/-- The data among marked bytes. -/
def dataOf (l : List (UInt8 × Bool)) : Bytes := (l.filter (·.2)).map (·.1)
/-- The bytes. -/
def bytesOf (l : List (UInt8 × Bool)) : Bytes := l.map (·.1)

/-- What a call gets from the connection. -/
def Call.bytes (c : Call) : Bytes := c.head ++ c.reads.flatten

/-- A call as most are: it ends because there is nothing more to read for now, the reader reads everything. -/
def Call.Plain (c : Call) : Prop := c.fin = .block ∧ c.eats = none
instance : Decidable (Call.Plain c) := inferInstanceAs (Decidable (_ ∧ _))

/-- All that the calls get. -/
def input (cs : List Call) : Bytes := (cs.map Call.bytes).flatten

end Verif.Client
