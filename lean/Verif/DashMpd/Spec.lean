import Verif.Xml.MpdSpec
/-
What a player makes of an MPD (ISO/IEC 23009-1) whose sets have one representation each, and where it looks for the files (RFC 3986). It knows nothing of any program.
-/
namespace Verif.DashMpd
open Verif.Xml
open Verif.TsHls.Spec (number)
open Verif.Mpd (s named only every readRep seconds Repr)

/-- Width, height and frames in a second -/
structure Picture where
  width : Nat
  height : Nat
  fps : Nat
  deriving DecidableEq

/-- A set with one representation; `channels` is what `AudioChannelConfiguration` says, `rate` is `audioSamplingRate`. -/
structure Track where
  mime : Text
  rep : Repr
  picture : Option Picture := none
  rate : Option Nat := none
  channels : Option Nat := none
  deriving DecidableEq

/-- An MPD with one period: lengths are in seconds. -/
structure Doc where
  kind : Text
  start : Text
  publish : Text
  update : Nat
  buffer : Nat
  depth : Nat
  period : Nat
  tracks : List Track
  deriving DecidableEq

/-- An attribute that is a number -/
def numOf (n : Node) (k : String) : Option Nat := (n.attr (s k)).bind number

/-- `AudioChannelConfiguration` (5.8.5.4) with the scheme that counts channels -/
def readChannels (n : Node) : Option Nat :=
  (named n "AudioChannelConfiguration").bind fun _ => if n.attr (s "schemeIdUri") = some (s "urn:mpeg:dash:23003:3:audio_channel_configuration:2011") then numOf n "value" else none

def readPicture (n : Node) : Option Picture := (numOf n "width").bind fun w => (numOf n "height").bind fun h => (numOf n "frameRate").map fun f => ⟨w, h, f⟩

def readTrack (channels : Option Nat) (n : Node) : Option Track :=
  (n.attr (s "mimeType")).bind fun m => (readRep n).map fun r => ⟨m, r, readPicture n, numOf n "audioSamplingRate", channels⟩

/-- `AdaptationSet` (5.3.3) -/
def readSet (n : Node) : Option Track :=
  (named n "AdaptationSet").bind fun _ => match n.kids with
    | [r] => readTrack none r
    | [c, r] => (readChannels c).bind fun x => readTrack (some x) r
    | _ => none

def readDoc (n : Node) : Option Doc :=
  (named n "MPD").bind fun _ => if n.attr (s "xmlns") ≠ some (s "urn:mpeg:dash:schema:mpd:2011") then none else
  (n.attr (s "type")).bind fun kind => (n.attr (s "availabilityStartTime")).bind fun start => (n.attr (s "publishTime")).bind fun publish =>
  ((n.attr (s "minimumUpdatePeriod")).bind seconds).bind fun update => ((n.attr (s "minBufferTime")).bind seconds).bind fun buffer => ((n.attr (s "timeShiftBufferDepth")).bind seconds).bind fun depth =>
  (only n).bind fun p => (named p "Period").bind fun _ => ((p.attr (s "start")).bind seconds).bind fun ps =>
  (every readSet p.kids).map fun tracks => ⟨kind, start, publish, update, buffer, depth, ps, tracks⟩

def readMpd (t : Text) : Option Doc := (read t).bind readDoc

/-! ### Where a file is (RFC 3986, 5.2) -/

/-- All up to the last slash -/
def dir (p : Text) : Text := (p.reverse.dropWhile (· ≠ '/')).reverse

/-- A reference from a file to another, if it is a path and nothing else; it is not encoded. -/
def target (base ref : Text) : Option Text := if ref.any (fun c => c == ':' || c == '?' || c == '#' || c == '%') || ref.head? == some '/' || ref.isEmpty then none else some (dir base ++ ref)

/-- Characters that a name can have for a reference to it to be written as it is, in an attribute and in a template -/
def Ordinary (name : Text) : Prop := ∀ c ∈ name, c ∉ ['"', '<', '&', '$', ':', '?', '#', '%', '/']

instance (name : Text) : Decidable (Ordinary name) := inferInstanceAs (Decidable (∀ c ∈ name, _))

end Verif.DashMpd
