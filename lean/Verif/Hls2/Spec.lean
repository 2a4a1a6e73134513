import Verif.Hls2.Model
import Verif.TsIn.HlsSpec
/-
What HLS has to give: how a stream is cut into fragments, what a player reads in a playlist (RFC 8216), and what it asks for.
-/
namespace Verif.Hls2.Spec
open Verif Verif.Hls2
open Verif.TsHls.Spec (Text lines tag number duration)

/-- A frame and what was known of the codecs when it was put into a fragment -/
abbrev Item := Codec × Frame

/-- The frames of a fragment -/
structure Group where
  first : Item
  more : List Item := []
  deriving DecidableEq, Repr

def Group.items (g : Group) : List Item := g.first :: g.more
def Group.frames (g : Group) : List Frame := g.items.map (·.2)
/-- Times of the first and the last frame -/
def Group.start (g : Group) : Nat := g.first.2.pts
def Group.stop (g : Group) : Nat := match g.more.getLast? with | none => g.start | some x => x.2.pts
/-- The bytes of the fragment: tables, and the frames -/
def Group.data (g : Group) : Bytes := g.first.1.tables ++ g.frames.flatMap (·.data)

/-- A frame far from the start of the fragment: more than the longest fragment later, or more than a second before it -/
def Forced (c : Conf) (start : Nat) (f : Frame) : Prop := (c.maxFraglen * 90 : Int) < (f.pts : Int) - start ∨ (f.pts : Int) - start < -90000

instance (c : Conf) (start : Nat) (f : Frame) : Decidable (Forced c start f) := by unfold Forced; infer_instance

/-- The first fragment may start with a key frame, or with a frame of audio if there is no video. -/
def MayOpen (x : Item) : Prop := if x.2.video then x.2.key = true else x.1.avc = false

/-- Any other may so only if there is no AAC. -/
def MayStart (x : Item) : Prop := if x.2.video then x.2.key = true ∧ x.1.aac = false else x.1.avc = false

instance (x : Item) : Decidable (MayOpen x) := by unfold MayOpen; infer_instance
instance (x : Item) : Decidable (MayStart x) := by unfold MayStart; infer_instance

/-- A fragment ends before this frame. -/
def Cut (c : Conf) (start : Nat) (x : Item) : Prop :=
  Forced c start x.2 ∨ (MayStart x ∧ ((c.fraglen * 90 : Int) ≤ (x.2.pts : Int) - start ∨ (x.2.pts : Int) - start < 0))

instance (c : Conf) (start : Nat) (x : Item) : Decidable (Cut c start x) := by unfold Cut; infer_instance

/-- The fragments are cut where they have to be, and nowhere else. -/
structure Sliced (c : Conf) (gs : List Group) : Prop where
  hFirst : ∀ g, gs.head? = some g → MayOpen g.first
  hIn : ∀ g ∈ gs, ∀ x ∈ g.more, ¬ Cut c g.start x
  hCut : ∀ i a b, gs[i]? = some a → gs[i + 1]? = some b → Cut c a.start b.first

/-- How long a fragment is that has a next one: up to the next; if the next is forced, up to the own last frame. -/
def ticks (c : Conf) (a b : Group) : Int := if Forced c a.start b.first.2 then (a.stop : Int) - a.start else (b.start : Int) - a.start

/-! ### Playlists -/

structure Seg where
  disc : Bool
  ms : Nat
  uri : Text
  deriving DecidableEq, Repr

structure Media where
  seq : Nat := 0
  target : Option Nat := none
  segs : List Seg := []
  deriving DecidableEq, Repr

/-- Line after line: whether a discontinuity was told, and the duration for the next name -/
def parseLines : List Text → Bool → Option Nat → Media → Option Media
  | [], false, none, m => some m
  | [], _, _, _ => none
  | l :: ls, disc, next, m =>
    if l = [] then parseLines ls disc next m
    else if l = "#EXT-X-VERSION:3".toList then parseLines ls disc next m
    else if l = "#EXT-X-DISCONTINUITY".toList then parseLines ls true next m
    else
      match tag "#EXT-X-MEDIA-SEQUENCE:".toList l with
      | some r => (number r).bind fun n => if m.segs = [] then parseLines ls disc next { m with seq := n } else none
      | none =>
        match tag "#EXT-X-TARGETDURATION:".toList l with
        | some r => (number r).bind fun n => if m.target = none then parseLines ls disc next { m with target := some n } else none
        | none =>
          match tag "#EXTINF:".toList l with
          | some r => (duration r).bind fun d => if next = none then parseLines ls disc (some d) m else none
          | none =>
            match next with
            | some d => if l.head? = some '#' then none else parseLines ls false none { m with segs := m.segs ++ [⟨disc, d, l⟩] }
            | none => none

/-- A media playlist: it starts with `#EXTM3U`. -/
def parse (t : Text) : Option Media :=
  match lines t with
  | l :: ls => if l = "#EXTM3U".toList then parseLines ls false none {} else none
  | [] => none

/-! ### Requests -/

/-- What is before the query, and the last segment of a path -/
def pathOf (u : Text) : Text := u.takeWhile (· ≠ '?')
def lastSeg (p : Text) : Text := (p.reverse.takeWhile (· ≠ '/')).reverse

/-- The path a player asks for: that of the reference, below any directory -/
def Asks (u path : Text) : Prop := ∃ dir, path = dir ++ '/' :: lastSeg (pathOf u)

end Verif.Hls2.Spec
