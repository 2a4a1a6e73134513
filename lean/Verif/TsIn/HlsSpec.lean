import Verif.TsIn.WriteSpec
/-
What a player makes of HLS output: playlists after RFC 8216, and what segments have to be.
-/
namespace Verif.TsHls.Spec
open Verif

abbrev Text := List Char

/-- Lines; the last ends at the end. -/
def lines : Text → List Text
  | [] => [[]]
  | c :: cs => if c = '\n' then [] :: lines cs else
    match lines cs with
    | [] => [[c]]
    | l :: ls => (c :: l) :: ls

/-- What follows a tag. -/
def tag : Text → Text → Option Text
  | [], l => some l
  | _ :: _, [] => none
  | p :: ps, c :: cs => if p = c then tag ps cs else none

def digit (c : Char) : Option Nat := if 48 ≤ c.toNat ∧ c.toNat ≤ 57 then some (c.toNat - 48) else none

/-- Decimal digits to the end, after the value so far. -/
def digits : Nat → Text → Option Nat
  | acc, [] => some acc
  | acc, c :: cs => (digit c).bind fun d => digits (acc * 10 + d) cs

/-- A decimal integer (4.2). -/
def number (t : Text) : Option Nat := if t = [] then none else digits 0 t

/-- A duration of an `EXTINF` without title, in milliseconds: an integer, a point, three digits, a comma (4.3.2.1). -/
def duration (t : Text) : Option Nat :=
  if t.length < 6 then none
  else
    match t.drop (t.length - 5) with
    | ['.', a, b, c, ','] => (number (t.take (t.length - 5))).bind fun s => (digits 0 [a, b, c]).map fun f => s * 1000 + f
    | _ => none

/-- A media playlist. -/
structure Media where
  seq : Nat := 0
  target : Option Nat := none
  segs : List (Nat × Text) := []
  ended : Bool := false
  deriving DecidableEq

/-- Line after line; `next` is the duration for the next name. -/
def parseLines : List Text → Option Nat → Media → Option Media
  | [], none, m => some m
  | [], some _, _ => none
  | l :: ls, next, m =>
    if l = [] then parseLines ls next m
    else if l = "#EXT-X-VERSION:3".toList then parseLines ls next m
    else if l = "#EXT-X-ENDLIST".toList then parseLines ls next { m with ended := true }
    else
      match tag "#EXT-X-MEDIA-SEQUENCE:".toList l with
      | some r => (number r).bind fun n => if m.segs = [] then parseLines ls next { m with seq := n } else none
      | none =>
        match tag "#EXT-X-TARGETDURATION:".toList l with
        | some r => (number r).bind fun n => if m.target = none then parseLines ls next { m with target := some n } else none
        | none =>
          match tag "#EXTINF:".toList l with
          | some r => (duration r).bind fun d => if next = none then parseLines ls (some d) m else none
          | none =>
            match next with
            | some d => if l.head? = some '#' then none else parseLines ls none { m with segs := m.segs ++ [(d, l)] }
            | none => none

/-- A media playlist: it starts with `#EXTM3U`. -/
def parse (t : Text) : Option Media :=
  match lines t with
  | l :: ls => if l = "#EXTM3U".toList then parseLines ls none {} else none
  | [] => none

/-- A master playlist: (bandwidth, name) of each variant. -/
def parseMasterLines : List Text → Option (List (Nat × Text))
  | [] => some []
  | [l] => if l = [] then some [] else none
  | l :: u :: ls =>
    (tag "#EXT-X-STREAM-INF:BANDWIDTH=".toList l).bind fun r => (number r).bind fun n => if u.head? = some '#' ∨ u = [] then none else
      (parseMasterLines ls).map ((n, u) :: ·)

def parseMaster (t : Text) : Option (List (Nat × Text)) :=
  match lines t with
  | l :: ls => if l = "#EXTM3U".toList then parseMasterLines ls else none
  | [] => none

/-! ### Segments -/

/-- A file that can be played alone: a PAT with the one program, its PMT, and whole units of each stream. -/
def Plays (number pid clock : Nat) (streams : List (Nat × Nat)) (units : Nat → List TsIn.Spec.Au) (file : List Bytes) : Prop :=
  ∃ a m b, TsIn.Spec.exactAll file = some (a ++ m ++ b) ∧
    TsIn.Spec.OneUnit 0 0 false none a ∧ TsIn.Spec.readPat (TsIn.Spec.unitBytes a) = some [(number, pid)] ∧
    TsIn.Spec.OneUnit pid 0 false none m ∧ TsIn.Spec.readPmt (TsIn.Spec.unitBytes m) = some (clock, streams) ∧
    ∀ q, (TsIn.Spec.units (b.filter (·.pid == q))).1 = [] ∧ ∃ rs, TsIn.Spec.readUnits (TsIn.Spec.units (b.filter (·.pid == q))).2 = some rs ∧ rs.map (·.2) = units q

/-- Segments by the times at which they start: number and how long, in 1/90000 s; a negative difference is taken as unsigned. -/
def extents : Nat → List Nat → List (Nat × Nat)
  | i, x :: y :: r => (i, (((y : Int) - x) % (2 ^ 64 : Nat)).toNat) :: extents (i + 1) (y :: r)
  | _, _ => []

/-- The last `N`, without those that last no time. -/
def window (N : Nat) (l : List (Nat × Nat)) : List (Nat × Nat) := (l.drop (l.length - N)).filter fun x => x.2 ≠ 0

end Verif.TsHls.Spec
