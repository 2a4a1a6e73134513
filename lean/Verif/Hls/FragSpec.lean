import Verif.Hls.FragModel
/- What a playlist has to say (RFC 8216). -/
namespace Verif.HlsFrag

/-- The last `n` elements. -/
def lastN {α : Type} (n : Nat) (l : List α) : List α := l.drop (l.length - n)

/-- The playlist shows the last `win` fragments of `all`, numbered from `first`. -/
structure Shows (win first : Nat) (all : List Frag) (p : Playlist) : Prop where
  hEntries : p.entries = lastN win all
  hSeq : p.seq = first + (all.length - win)

/-- 4.3.3.1: no duration, rounded to the nearest second, exceeds the target. -/
def TargetOk (p : Playlist) : Prop := ∀ f ∈ p.entries, (f.dur + 45000) / 90000 ≤ p.target

/-- Adjacent elements. -/
def Adjacent {α : Type} (R : α → α → Prop) (l : List α) : Prop := ∀ pre a b post, l = pre ++ a :: b :: post → R a b

/-- The time an operation brings. -/
def opTs : Op → Option Nat
  | .video f _ => some f.ts
  | .audio ts _ _ => some ts
  | .close => none

/-- Times below 2^63 that do not go back; the first is not before `last`. -/
def Forward : Nat → List Op → Prop
  | _, [] => True
  | last, op :: ops => match opTs op with
    | none => Forward last ops
    | some t => last ≤ t ∧ t < 2 ^ 63 ∧ Forward t ops

/-- The video frames among the operations. -/
def videos : List Op → List Frame
  | [] => []
  | .video f _ :: ops => f :: videos ops
  | _ :: ops => videos ops

/-- A fragment may start with this operation. -/
def mayStart : Op → Bool
  | .video f _ => f.boundary
  | .audio _ b _ => b
  | .close => false

/-- The video frames on disk: finished fragments, then the open one. -/
def written (st : St) : List Frame := st.done.flatMap (·.frames) ++ st.cur

/-- A frame or an audio message, with a disk that works. -/
def Works : Op → Prop
  | .video _ env => env.disk = .ok
  | .audio _ _ env => env.disk = .ok
  | .close => False

/-- Only video frames start fragments. -/
def VideoStarts : Op → Prop
  | .audio _ b _ => b = false
  | _ => True

/-- Key files can be written, and the random numbers are among `fresh`. -/
def KeysWork (fresh : Nat → Prop) : Op → Prop
  | .video _ env => env.disk ≠ .noKey ∧ ∃ k, env.rnd = some k ∧ fresh k
  | .audio _ _ env => env.disk ≠ .noKey ∧ ∃ k, env.rnd = some k ∧ fresh k
  | .close => True

/-- How many of the fragments use key `k`. -/
def uses (k : Nat) : List Done → Nat
  | [] => 0
  | d :: ds => (if d.frag.keyId = k then 1 else 0) + uses k ds

end Verif.HlsFrag
