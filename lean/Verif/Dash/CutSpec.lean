import Verif.Dash.CutModel
/- What the files of a stream have to be, said of the parts it is cut into. -/
namespace Verif.Dash
open Verif Verif.Mp4

/-- A frame and whether it is one of video. -/
abbrev Item := Bool × Frame

/-- The frames of a stream in the order they came. -/
def items : List Op → List Item
  | [] => []
  | .video f :: l => (true, f) :: items l
  | .audio f :: l => (false, f) :: items l
  | .close :: l => items l

/-- A part of the stream that was made a fragment; how long it is said to be; whether video and audio were listed when it was closed. -/
structure Part where
  items : List Item
  dur : Nat
  hasVideo : Bool
  hasAudio : Bool
  deriving DecidableEq

/-- The time of the first frame. -/
def start : List Item → Nat
  | [] => 0
  | x :: _ => x.2.timestamp

/-- The frames of one track. -/
def track (video : Bool) (l : List Item) : List Frame := (l.filter (·.1 == video)).map (·.2)

/-- The last `n`. -/
def lastN {α : Type} (n : Nat) (l : List α) : List α := l.drop (l.length - n)

/-- What the playlist says of a part. -/
def Part.slot (p : Part) : Slot := ⟨start p.items, p.dur⟩

/-- The files for part `p` after `before`: one for each track named by the time of its first frame, and a playlist of the last parts. -/
def filesOf (win : Nat) (before : List Part) (p : Part) : List Out :=
  [.media true (start p.items) (record before.length true (track true p.items)), .media false (start p.items) (record before.length false (track false p.items))] ++
    (if before.length = 0 then [.init] else []) ++ [.mpd p.hasVideo p.hasAudio ((lastN win (before ++ [p])).map Part.slot)]

/-- The files for parts. -/
def files (win : Nat) : List Part → List Part → List Out
  | _, [] => []
  | before, p :: l => filesOf win before p ++ files win (before ++ [p]) l

/-- Neighbours. -/
def Adjacent {α : Type} (R : α → α → Prop) (l : List α) : Prop := ∀ pre a b post, l = pre ++ a :: b :: post → R a b

/-- The frames come in order of time, for less than 24 days. -/
def Ordered (l : List Item) : Prop := (∀ x ∈ l, x.2.timestamp < 2 ^ 31) ∧ l.Pairwise fun x y => x.2.timestamp ≤ y.2.timestamp

instance (l : List Item) : Decidable (Ordered l) := inferInstanceAs (Decidable (_ ∧ _))

/-- A key frame of video. -/
def isKey (x : Item) : Bool := x.1 && x.2.key

/-- Bytes of a track. -/
def size (video : Bool) (l : List Item) : Nat := ((track video l).map (·.bytes.length)).sum

/-- Less than 10 MiB of each track come within the time of two fragments. -/
def Light (cfg : Cfg) (xs : List Item) : Prop :=
  ∀ v : Bool, ∀ y ∈ xs, size v (xs.filter fun x => decide (y.2.timestamp ≤ x.2.timestamp ∧ x.2.timestamp < y.2.timestamp + cfg.fraglen * 2)) < 10485760

instance (cfg : Cfg) (xs : List Item) : Decidable (Light cfg xs) := by unfold Light; infer_instance

/-- At every frame the last key frame (at time `k`, if any) is less than a fragment ago. -/
def keyed (len : Nat) : Option Nat → List Item → Bool
  | _, [] => true
  | k, x :: l =>
    match if isKey x then some x.2.timestamp else k with
    | none => false
    | some t => decide (x.2.timestamp < t + len) && keyed len (some t) l

/-- The file a name stands for: the last that was written. -/
def onDisk (video : Bool) (time : Nat) : List Out → Option Track
  | [] => none
  | .media v t track :: l => match onDisk video time l with
    | some x => some x
    | none => if v = video ∧ t = time then some track else none
  | _ :: l => onDisk video time l

/-- The playlist there is. -/
def lastMpd : List Out → Option (Bool × Bool × List Slot)
  | [] => none
  | .mpd hv ha ts :: l => match lastMpd l with
    | some x => some x
    | none => some (hv, ha, ts)
  | _ :: l => lastMpd l

end Verif.Dash
