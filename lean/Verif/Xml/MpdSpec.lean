import Verif.Xml.Spec
import Verif.TsIn.HlsSpec
/-
What a player makes of an MPD (ISO/IEC 23009-1): the part of it that is used for live streams with a `SegmentTimeline` for each representation. It knows nothing of any program.
-/
namespace Verif.Mpd
open Verif.Xml
open Verif.TsHls.Spec (number tag)

def s (x : String) : Text := x.toList

/-- A representation: `times` are start and duration of its segments. -/
structure Repr where
  id : Text
  codecs : Text
  bandwidth : Nat
  timescale : Nat
  media : Text
  init : Text
  times : List (Nat × Nat)
  deriving DecidableEq

structure ASet where
  mime : Text
  reps : List Repr
  deriving DecidableEq

/-- An MPD with one period: lengths are in seconds. -/
structure Doc where
  kind : Text
  start : Text
  publish : Text
  update : Nat
  buffer : Nat
  depth : Nat
  profiles : Text
  period : Text × Nat
  sets : List ASet
  deriving DecidableEq

/-- `PTnS` (xs:duration) -/
def seconds (t : Text) : Option Nat := (tag (s "PT") t).bind fun r => match r.reverse with
  | 'S' :: r => number r.reverse
  | _ => none

def named (n : Node) (x : String) : Option Unit := if n.name = s x then some () else none

/-- `S` (5.3.9.6.2): start and duration, not repeated -/
def readS (n : Node) : Option (Nat × Nat) :=
  (named n "S").bind fun _ => if n.kids.isEmpty ∧ (n.attr (s "r")).isNone then (n.attr (s "t")).bind fun t => (number t).bind fun t => (n.attr (s "d")).bind fun d => (number d).map fun d => (t, d) else none

/-- All children are of one kind. -/
def every {α : Type} (f : Node → Option α) : List Node → Option (List α)
  | [] => some []
  | n :: ns => (f n).bind fun a => (every f ns).map (a :: ·)

/-- There is one child. -/
def only (n : Node) : Option Node := match n.kids with
  | [k] => some k
  | _ => none

/-- `Representation` with `SegmentTemplate` (5.3.9.4) and `SegmentTimeline` (5.3.9.6); no `presentationTimeOffset` -/
def readRep (n : Node) : Option Repr :=
  (named n "Representation").bind fun _ => (n.attr (s "id")).bind fun id => (n.attr (s "codecs")).bind fun codecs => (n.attr (s "bandwidth")).bind fun b => (number b).bind fun b =>
  (only n).bind fun t => (named t "SegmentTemplate").bind fun _ => (t.attr (s "timescale")).bind fun ts => (number ts).bind fun ts => (t.attr (s "media")).bind fun media =>
  (t.attr (s "initialization")).bind fun init => if (t.attr (s "presentationTimeOffset")).isSome then none else
  (only t).bind fun l => (named l "SegmentTimeline").bind fun _ => (every readS l.kids).map fun times => ⟨id, codecs, b, ts, media, init, times⟩

def readSet (n : Node) : Option ASet :=
  (named n "AdaptationSet").bind fun _ => (n.attr (s "mimeType")).bind fun m => (every readRep n.kids).map fun reps => ⟨m, reps⟩

def readDoc (n : Node) : Option Doc :=
  (named n "MPD").bind fun _ => if n.attr (s "xmlns") ≠ some (s "urn:mpeg:DASH:schema:MPD:2011") then none else
  (n.attr (s "type")).bind fun kind => (n.attr (s "availabilityStartTime")).bind fun start => (n.attr (s "publishTime")).bind fun publish =>
  ((n.attr (s "minimumUpdatePeriod")).bind seconds).bind fun update => ((n.attr (s "minBufferTime")).bind seconds).bind fun buffer => ((n.attr (s "timeShiftBufferDepth")).bind seconds).bind fun depth =>
  (n.attr (s "profiles")).bind fun profiles => (only n).bind fun p => (named p "Period").bind fun _ => (p.attr (s "id")).bind fun id => ((p.attr (s "start")).bind seconds).bind fun ps =>
  (every readSet p.kids).map fun sets => ⟨kind, start, publish, update, buffer, depth, profiles, (id, ps), sets⟩

def readMpd (t : Text) : Option Doc := (read t).bind readDoc

/-! ### Names of segments (5.3.9.4.4) -/

/-- What an identifier between two `$` stands for; there may be no time. -/
def subst (id : Text) (time : Option Text) (x : Text) : Option Text := if x = s "RepresentationID" then some id else if x = s "Time" then time else if x = [] then some ['$'] else none

/-- A template; the second argument is an identifier that has begun, in reverse. -/
def fill (id : Text) (time : Option Text) : Option Text → Text → Option Text
  | none, [] => some []
  | some _, [] => none
  | none, c :: r => if c = '$' then fill id time (some []) r else (fill id time none r).map (c :: ·)
  | some a, c :: r => if c = '$' then (subst id time a.reverse).bind fun x => (fill id time none r).map (x ++ ·) else fill id time (some (c :: a)) r

/-- The name of the segment that begins at a time -/
def mediaName (r : Repr) (t : Nat) : Option Text := fill r.id (some (toString t).toList) none r.media

/-- The name of the initialization segment: there is no `$Time$`. -/
def initName (r : Repr) : Option Text := fill r.id none none r.init

/-! ### Codecs (RFC 6381) -/

inductive Codec where
  | avc (profile constraints level : Nat)
  | aac (object : Nat)
  | mp4 (video : Bool) (object : Nat)
  deriving DecidableEq

def hexDigit (c : Char) : Option Nat :=
  if 48 ≤ c.toNat ∧ c.toNat ≤ 57 then some (c.toNat - 48) else if 65 ≤ c.toNat ∧ c.toNat ≤ 70 then some (c.toNat - 55) else if 97 ≤ c.toNat ∧ c.toNat ≤ 102 then some (c.toNat - 87) else none

def hexByte (a b : Char) : Option Nat := (hexDigit a).bind fun x => (hexDigit b).map fun y => 16 * x + y

/-- `avc1.PPCCLL` (3.3), `mp4a.40.n`, `mp4a.oo`, `mp4v.oo` with object types of 14496-1 (3.3) -/
def readCodec (t : Text) : Option Codec :=
  match tag (s "avc1.") t with
  | some [a, b, c, d, e, f] => (hexByte a b).bind fun p => (hexByte c d).bind fun k => (hexByte e f).map fun l => .avc p k l
  | some _ => none
  | none =>
    match tag (s "mp4a.40.") t with
    | some r => (number r).map .aac
    | none =>
      match tag (s "mp4a.") t with
      | some [a, b] => (hexByte a b).map (.mp4 false)
      | some _ => none
      | none =>
        match tag (s "mp4v.") t with
        | some [a, b] => (hexByte a b).map (.mp4 true)
        | _ => none

end Verif.Mpd
