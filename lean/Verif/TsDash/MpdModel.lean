import Verif.TsDash.InitText
import Verif.Hls.RestoreModel
/-
Model of DASH output of nginx-ts-module as a whole (src/ngx_ts_dash.c): representations of all elementary streams, the playlist (MPD), files. Characters are `Char`.

Files and directories can be written; a write is seen at once (initialization segments and the playlist are renamed from a temporary name; segments are not). The text of a date (`strftime`) is a parameter.
-/
namespace Verif.TsDash
open Verif Verif.TsIn
open Verif.HlsRestore (Text dec hex)

/-- `ngx_ts_dash_format_codec` (:1030-1051): profile, constraints and level have 8 bits, and so have object types -/
def codecOf (r : Rep) : Text :=
  match r.avc with
  | some a => "avc1.".toList ++ hex 2 a.profile ++ hex 2 a.constraints ++ hex 2 a.level
  | none =>
    match r.aac with
    | some a => "mp4a.40.".toList ++ dec a.profile
    | none => "mp4".toList ++ (if r.video then ['v'] else ['a']) ++ ['.'] ++ hex 2 (oti r.type)

/-- A representation and the number of its elementary stream (`rep->es->pid`); a set of them (ngx_ts_dash.h:90-94) -/
structure Ent where
  pid : Nat
  rep : Rep

structure ReSet where
  video : Bool
  ents : List Ent

/-- The segments in the ring, the oldest first (:914-922) -/
def ringOf (r : Rep) : List Seg := (List.range r.segs.length).filterMap fun k => r.segs[(r.seg + k) % r.segs.length]?

/-- :917-921 -/
def entryText (x : Seg) : Text := if x.duration = 0 then [] else "            <S t=\"".toList ++ dec x.start ++ "\" d=\"".toList ++ dec x.duration ++ "\"/>\n".toList

/-- :884-928 -/
def repText (x : Ent) : Text :=
  "      <Representation\n          id=\"".toList ++ dec x.pid ++ "\"\n          codecs=\"".toList ++ codecOf x.rep ++ "\"\n          bandwidth=\"".toList ++ dec x.rep.bandwidth ++
  "\">\n        <SegmentTemplate\n            timescale=\"90000\"\n            media=\"$RepresentationID$.$Time$.mp4\"\n            initialization=\"$RepresentationID$.init.mp4\">\n          <SegmentTimeline>\n".toList ++
  (ringOf x.rep).flatMap entryText ++ "          </SegmentTimeline>\n        </SegmentTemplate>\n      </Representation>\n".toList

/-- :876-882, 930-931 -/
def setText (x : ReSet) : Text :=
  "    <AdaptationSet\n        segmentAlignment=\"true\"\n        mimeType=\"".toList ++ (if x.video then "video".toList else "audio".toList) ++ "/mp4\">\n".toList ++ x.ents.flatMap repText ++ "    </AdaptationSet>\n".toList

/-- The playlist (:853-936) -/
def mpdText (c : Conf) (start publish : Text) (sets : List ReSet) : Text :=
  "<?xml version=\"1.0\"?>\n<MPD\n    xmlns:xsi=\"http://www.w3.org/2001/XMLSchema-instance\"\n    xmlns=\"urn:mpeg:DASH:schema:MPD:2011\"\n    xsi:schemaLocation=\"urn:mpeg:DASH:schema:MPD:2011 DASH-MPD.xsd\"\n    type=\"dynamic\"\n    availabilityStartTime=\"".toList ++
  start ++ "\"\n    publishTime=\"".toList ++ publish ++ "\"\n    minimumUpdatePeriod=\"PT".toList ++ dec (c.minSeg / 1000) ++ "S\"\n    minBufferTime=\"PT".toList ++ dec (c.minSeg / 1000) ++
  "S\"\n    timeShiftBufferDepth=\"PT".toList ++ dec (2 * (c.minSeg / 1000) + c.maxSeg / 1000 + 1) ++
  "S\"\n    profiles=\"urn:hbbtv:dash:profile:isoff-live:2012,urn:mpeg:dash:profile:isoff-live:2011\">\n  <Period\n      id=\"0\"\n      start=\"PT0S\">\n".toList ++
  sets.flatMap setText ++ "  </Period>\n</MPD>\n".toList

/-- The loop that finds a buffer large enough (:843-946): `ngx_slprintf` stops at the end of the buffer. What was written, and the size for the next time; `none` is that the rounds are not enough. -/
def mpdLoop (t : Text) : Nat → Nat → Option (Text × Nat)
  | 0, _ => none
  | n + 1, cap => if (t.take cap).length ≠ cap then some (t.take cap, cap) else mpdLoop t n (cap * 2)

/-- `ngx_ts_dash_t` (ngx_ts_dash.h:97-112). `sets` is empty before there is a PMT. `files` is what was written below the path, in order; `mpd` is index.mpd. -/
structure Dash where
  sets : List ReSet := []
  playlistLen : Nat := 128
  initLen : Nat := 256
  start : Option Nat := none
  files : List (Text × Bytes) := []
  mpd : Option Text := none

/-- Names below the path (:258-260, 264-272 and 719-724) -/
def initName (pid : Nat) : Text := dec pid ++ ".init.mp4".toList
def segName (pid time : Nat) : Text := dec pid ++ ".".toList ++ dec time ++ ".mp4".toList

/-- `ngx_ts_dash_update_init_segments` (:1054-1117) -/
def updateInits (now : Nat) : List Ent → Nat → List (Text × Bytes) → Option (Nat × List (Text × Bytes))
  | [], cap, fs => some (cap, fs)
  | x :: xs, cap, fs =>
    if x.rep.bandwidth = 0 then updateInits now xs cap fs
    else (initFile now x.rep ((initT now x.rep).length + 1) cap).bind fun y => updateInits now xs y.2 (fs ++ [(initName x.pid, y.1)])

def entsOf (sets : List ReSet) : List Ent := sets.flatMap (·.ents)

/-- `ngx_ts_dash_update_playlist` (:794-957) -/
def updatePlaylist (c : Conf) (date : Nat → Text) (now : Nat) (d : Dash) : Option Dash :=
  (updateInits now (entsOf d.sets) d.initLen d.files).bind fun x =>
    let s := d.start.getD now
    let d := { d with initLen := x.1, files := x.2, start := some s }
    if (entsOf d.sets).any (·.rep.bandwidth == 0) then some d
    else
      let t := mpdText c (date s) (date now) d.sets
      (mpdLoop t (t.length + 1) d.playlistLen).map fun y => { d with playlistLen := y.2, mpd := some y.1 }

/-- Types of streams that are taken, and whether they are video (:205-237) -/
def taken (type : Nat) : Option Bool :=
  if type = 0x01 ∨ type = 0x02 ∨ type = 0x10 ∨ type = 0x1b then some true else if type = 0x03 ∨ type = 0x04 ∨ type = 0x0f then some false else none

/-- A stream into its set (:199-285) -/
def addEs (c : Conf) (sets : List ReSet) (es : Nat × Nat) : List ReSet :=
  match taken es.2 with
  | none => sets
  | some v =>
    if sets.any (·.video == v) then sets.map fun s => if s.video == v then { s with ents := s.ents ++ [⟨es.1, newRep c es.2 v⟩] } else s
    else sets ++ [⟨v, [⟨es.1, newRep c es.2 v⟩]⟩]

/-- `ngx_ts_dash_pmt_handler` (:162-293) when all programs have their PMT: streams (pid and type) in order; a later PMT changes nothing. -/
def pmt (c : Conf) (d : Dash) (ess : List (Nat × Nat)) : Dash := { d with sets := ess.foldl (addEs c) [] }

def findEnt (sets : List ReSet) (pid : Nat) : Option Ent := (entsOf sets).find? (·.pid == pid)

/-- Pids are not there twice. -/
def setRep (sets : List ReSet) (pid : Nat) (r : Rep) : List ReSet := sets.map fun s => { s with ents := s.ents.map fun x => if x.pid == pid then { x with rep := r } else x }

/-- `ngx_ts_dash_pes_handler` (:296-355); false is NGX_ERROR -/
def pes (c : Conf) (date : Nat → Text) (now : Nat) (d : Dash) (e : Es) (bufs : List Bytes) : Option (Dash × Bool) :=
  if !e.ptsf then some (d, true)
  else
    match findEnt d.sets e.pid with
    | none => some (d, true)
    | some ent =>
      (updateBandwidth c ent.rep bufs e.dts).bind fun r =>
        (closeSegment c false r e).bind fun x =>
          let d := { d with sets := setRep d.sets e.pid x.1, files := d.files ++ (x.1.files.drop r.files.length).map fun f => (segName e.pid f.1, f.2) }
          (if x.2 then updatePlaylist c date now d else some d).bind fun d =>
            let o := openSegment x.1 e
            if o.2 then (copy o.1 e bufs).map fun y => ({ d with sets := setRep d.sets e.pid y.1 }, y.2) else some ({ d with sets := setRep d.sets e.pid o.1 }, false)

/-- Units of all streams one after the other, each with the time it is -/
def runDash (c : Conf) (date : Nat → Text) (d : Dash) : List (Nat × Es × List Bytes) → Option (Dash × Bool)
  | [] => some (d, true)
  | u :: us => (pes c date u.1 d u.2.1 u.2.2).bind fun x => if x.2 then runDash c date x.1 us else some (x.1, false)

end Verif.TsDash
