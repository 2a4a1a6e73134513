import Verif.Hls2.GopModel
/-
What a session has to get from the frames that were put into the cache (`cached`, numbers of frames in order).
-/
namespace Verif.Hls2.Gop.Spec
open Verif Verif.Hls2

/-- A frame of video that cannot be decoded alone -/
def Inter (x : Frame) : Prop := x.video = true ∧ x.key = false

/-- `b` is the next after `a`. -/
def Follows (cached : List Nat) (a b : Nat) : Prop := ∃ i : Nat, cached[i]? = some a ∧ cached[i + 1]? = some b

/-- From place `m` to place `n` of the log nothing is missing and nothing twice. -/
def Unbroken (cached log : List Nat) (m n : Nat) : Prop := ∀ t : Nat, m ≤ t → t < n → ∃ a b : Nat, log[t]? = some a ∧ log[t + 1]? = some b ∧ Follows cached a b

/-- What cannot be decoded alone comes after a key frame and all that was between. -/
def Decodable (frames : List Frame) (cached log : List Nat) : Prop :=
  ∀ (n f : Nat) (x : Frame), log[n]? = some f → frames[f]? = some x → Inter x →
    ∃ (m g : Nat) (y : Frame), m ≤ n ∧ log[m]? = some g ∧ frames[g]? = some y ∧ y.key = true ∧ Unbroken cached log m n

/-- Each frame is followed by the next one, or by a later one of which all before it are out of the cache, that is, are among the first `gone`. -/
def Steady (cached : List Nat) (gone : Nat) (log : List Nat) : Prop :=
  ∀ t a b : Nat, log[t]? = some a → log[t + 1]? = some b → Follows cached a b ∨ (a < b ∧ ∃ i : Nat, i ≤ gone ∧ cached[i]? = some b)

/-- Frames with their numbers -/
def named (frames : List Frame) (ids : List Nat) : List (Nat × Frame) := ids.filterMap fun i => (frames[i]?).map (i, ·)

/-- Where a session starts that wants to go back by `off` ticks from the time `cur`: at the last of the key frames in the cache before the first that is not more than that ago. -/
def startOf (off cur : Nat) : List (Nat × Frame) → Option Nat → Option Nat
  | [], r => r
  | (i, x) :: l, r => if x.key = false then startOf off cur l r else if cur ≤ x.pts + off then r else startOf off cur l (some i)

/-- What is sent at once: up to and with the first frame of the same kind as the first that is `dur` ticks later. -/
def upTo (dur first : Nat) (video : Bool) : List (Nat × Frame) → List Nat
  | [] => []
  | (i, x) :: l => if x.video = video ∧ first + dur ≤ x.pts then [i] else i :: upTo dur first video l

/-- From where on: `off` is 0 if all of the cache is to be sent. -/
def suffix (off cur : Nat) (l : List (Nat × Frame)) : List (Nat × Frame) :=
  match (if off = 0 then none else startOf off cur l none) with
  | none => l
  | some i => l.dropWhile fun x => x.1 ≠ i

/-- What a session gets of the cache `l` first. `note`: time is counted from where it starts, otherwise from the start of the cache. -/
def sends (off : Nat) (dur : Option Nat) (note : Bool) (l : List (Nat × Frame)) : List Nat :=
  match l.head?, l.getLast? with
  | some h, some n =>
    let s := suffix off n.2.pts l
    match dur, (if note then s.head? else some h) with
    | some d, some g => upTo d g.2.pts g.2.video s
    | _, _ => s.map (·.1)
  | _, _ => []

end Verif.Hls2.Gop.Spec
