import Verif.TsDash.Spec
import Verif.TsDash.InitSpec
import Verif.Xml.MpdSpec
/-
What a playlist of a transport stream has to be, besides that a player can read it: what it lists, and what is on disk under the names in it. It knows nothing of the program.
-/
namespace Verif.TsDash.Spec
open Verif Verif.Mp4 Verif.Xml

/-- When segments begin -/
def starts (parts : List (List Item)) : List Nat := parts.filterMap fun p => p.head?.map (·.u.dts)

/-- Segments that have ended, by when segments begin: start and duration -/
def gaps : List Nat → List (Nat × Nat)
  | t :: u :: r => (t, u - t) :: gaps (u :: r)
  | _ => []

/-- The last `n` -/
def lastOf {α : Type} (n : Nat) (l : List α) : List α := l.drop (l.length - n)

/-- What is listed: the last `n` segments that have ended, but for those that last for no time -/
def listed (n : Nat) (parts : List (List Item)) : List (Nat × Nat) := (lastOf n (gaps (starts parts))).filter fun x => decide (x.2 ≠ 0)

/-- What is in a file after writes: the last one counts. -/
def onDisk (files : List (Text × Bytes)) (name : Text) : Option Bytes := (files.reverse.find? fun f => f.1 == name).map (·.2)

/-- Types of streams (13818-1, table 2-34) that have a place in MP4 here: MPEG-1, MPEG-2, MPEG-4 and H.264 video; MPEG-1, MPEG-2 sound and AAC -/
def videoTypes : List Nat := [0x01, 0x02, 0x10, 0x1b]
def soundTypes : List Nat := [0x03, 0x04, 0x0f]

/-- Streams (number and type) of one kind -/
def streams (video : Bool) (ess : List (Nat × Nat)) : List (Nat × Nat) := ess.filter fun e => (if video then videoTypes else soundTypes).contains e.2

/-- Kinds, that of the first stream first -/
def kinds (ess : List (Nat × Nat)) : List Bool :=
  match ess.find? fun e => videoTypes.contains e.2 || soundTypes.contains e.2 with
  | none => []
  | some e => let v := videoTypes.contains e.2; if (streams (!v) ess).isEmpty then [v] else [v, !v]

/-- Adaptation sets: one for each kind, with a representation for each stream -/
def wanted (ess : List (Nat × Nat)) : List (Text × List Text) :=
  (kinds ess).map fun v => (if v then Mpd.s "video/mp4" else Mpd.s "audio/mp4", (streams v ess).map fun e => (toString e.1).toList)

/-- A decoder learns of a stream what is in it. `codec` is in the playlist, `e` is the sample entry in the initialization segment; `us` are the first units of the stream: bytes, and units of H.264. -/
def Described (k : Kind) (type : Nat) (video : Bool) (us : List (Bytes × List Bytes)) (codec : Option Mpd.Codec) (e : Bytes) : Prop :=
  match k with
  | .avc => ∀ s p, (us.flatMap (·.2)).find? isSps = some s → (us.flatMap (·.2)).find? isPps = some p →
      ∃ w h conf, ∃ pr co le : UInt8, (s.drop 1).take 3 = [pr, co, le] ∧ codec = some (.avc pr.toNat co.toNat le.toNat) ∧ readPicture e = some ⟨w, h, conf⟩ ∧
        readAvcConf conf = some ⟨pr.toNat, co.toNat, le.toNat, 4, [s], [p], []⟩
  | .aac _ => ∀ o i ch, (us.findSome? fun u => adtsSays u.1) = some (o, i, ch) → codec = some (.aac o) ∧ ∃ n f d conf, readVoice e = some (n, f, d) ∧ d.object = 0x40 ∧ d.info = some conf ∧ readAsc conf = some (o, i, ch)
  | .other => ∀ object, (type, object) ∈ objectTypes → codec = some (.mp4 video object) ∧
      ∃ d : Decoder, d.object = object ∧ (if video then ∃ w h, readVisual e = some (w, h, d) else ∃ n f, readVoice e = some (n, f, d))

/-- Units of a stream (time and number of bytes), the first of which has bytes, from the first to the last for `ms` or more: bits per second -/
def Average (ms : Nat) (us : List (Nat × Nat)) (rate : Nat) : Prop :=
  ∃ first last, us.head? = some first ∧ first.2 ≠ 0 ∧ us.getLast? = some last ∧ first.1 + ms * 90 ≤ last.1 ∧ rate = (us.map (·.2)).sum * 8 * 90000 / (last.1 - first.1)

/-- A rate for a stream: over a time from the first unit with bytes on -/
def Rate (ms : Nat) (us : List (Nat × Nat)) (rate : Nat) : Prop := ∃ skip stretch rest, us = skip ++ stretch ++ rest ∧ (∀ u ∈ skip, u.2 = 0) ∧ Average ms stretch rate

/-- A player gets a segment: under the name that the playlist gives it, there is a file, read as exactly the samples of the segment, which begins when the playlist says; it lasts as long as the playlist says,
and its index says so too (modulo 32 bits). -/
def Plays (files : List (Text × Bytes)) (r : Mpd.Repr) (video : Bool) (parts : List (List Item)) (x : Nat × Nat) : Prop :=
  ∃ number p q name file, parts[number]? = some p ∧ parts[number + 1]? = some q ∧ q.head?.map (·.u.dts) = some (x.1 + x.2) ∧ Mpd.mediaName r x.1 = some name ∧ onDisk files name = some file ∧
    Holds video number p (x.1 + x.2) (x.1, file)

end Verif.TsDash.Spec
