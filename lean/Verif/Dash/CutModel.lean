import Verif.Dash.Mp4Track
/-
Cutting a stream into DASH fragments and listing them: modules/nginx-rtmp-module/dash/ngx_rtmp_dash_module.c:31-73 (state), 173-199 (the ring of fragments),
248-250, 393-397, 419-423 (what the playlist lists), 524-654 (closing), 657-725 (opening), 981-1041 (where to cut), 1044-1208 (frames), 1217-1223 (end of the stream).

Every file can be opened and takes every write (for others see C67). The files are a log; what is in them is modelled in `Mp4Model`; the text of the
playlist is not. Numbers that count fragments do not overflow. The ring is a function on its indices, which are below its length `winfrags * 2 + 1`.
-/
namespace Verif.Dash
open Verif Verif.Mp4

/-- `ngx_rtmp_dash_app_conf_t` (:80-89) -/
structure Cfg where
  fraglen : Nat
  winfrags : Nat
  deriving DecidableEq

/-- `ngx_rtmp_dash_frag_t` (:31-34) -/
structure Slot where
  timestamp : Nat
  duration : Nat
  deriving DecidableEq

/-- A file that is written: a segment of a track, the initialization segments, the playlist. -/
inductive Out
  | media (video : Bool) (time : Nat) (track : Track)
  | init
  | mpd (hasVideo hasAudio : Bool) (times : List Slot)
  deriving DecidableEq

/-- `ngx_rtmp_dash_ctx_t` (:50-73), and the files written so far -/
structure St where
  frags : Nat → Slot
  frag : Nat := 0
  nfrags : Nat := 0
  id : Nat := 0
  opened : Bool := false
  hasVideo : Bool := false
  hasAudio : Bool := false
  video : Track := { id := 0, mask := 0 }
  audio : Track := { id := 0, mask := 0 }
  out : List Out := []

/-- The index of `ngx_rtmp_dash_get_frag` (:173-183) -/
def index (cfg : Cfg) (s : St) (n : Nat) : Nat := (s.frag + n) % (cfg.winfrags * 2 + 1)

def getFrag (cfg : Cfg) (s : St) (n : Nat) : Slot := s.frags (index cfg s n)

/-- Writing through the pointer `ngx_rtmp_dash_get_frag` gives. -/
def setFrag (cfg : Cfg) (s : St) (n : Nat) (v : Slot) : St := { s with frags := fun i => if i = index cfg s n then v else s.frags i }

/-- `ngx_rtmp_dash_next_frag` (:186-199) -/
def nextFrag (cfg : Cfg) (s : St) : St := if s.nfrags = cfg.winfrags then { s with frag := s.frag + 1 } else { s with nfrags := s.nfrags + 1 }

/-- `ngx_rtmp_dash_write_playlist` (:216-445) -/
def writePlaylist (cfg : Cfg) (s : St) : St :=
  { s with out := s.out ++ (if s.id = 0 then [.init] else []) ++ [.mpd s.hasVideo s.hasAudio ((List.range s.nfrags).map (getFrag cfg s))] }

/-- `ngx_rtmp_dash_close_fragments` (:630-654); the names of the files (:567-570) are the time of the fragment -/
def closeFragments (cfg : Cfg) (s : St) : St :=
  if s.opened then
    let t := (getFrag cfg s s.nfrags).timestamp
    let s := { s with out := s.out ++ [.media true t s.video, .media false t s.audio] }
    let s := writePlaylist cfg (nextFrag cfg s)
    { s with id := s.id + 1, opened := false }
  else s

/-- `ngx_rtmp_dash_open_fragments` (:705-725) -/
def openFragments (s : St) : St :=
  if s.opened then s else { s with video := openTrack s.id true, audio := openTrack s.id false, opened := true }

/-- NGX_RTMP_DASH_MAX_MDAT (:25) -/
def maxMdat : Nat := 10485760

/-- `timestamp - f->timestamp` of `uint32_t` (:994, :998) -/
def since (cfg : Cfg) (s : St) (ts : Nat) : Nat := (ts + 2 ^ 32 - (getFrag cfg s s.nfrags).timestamp) % 2 ^ 32

/-- `hit` (:996-1010); `-d` of the smallest `int32_t`, which overflows, is taken to be itself. -/
def hit (cfg : Cfg) (s : St) (ts : Nat) : Bool :=
  if since cfg s ts < 2 ^ 31 then decide (cfg.fraglen ≤ since cfg s ts)
  else decide (since cfg s ts ≠ 2 ^ 31) && decide (1000 < 2 ^ 32 - since cfg s ts)

/-- `boundary` (:1001-1032) -/
def boundary (cfg : Cfg) (s : St) (key : Bool) (ts : Nat) : Bool :=
  let b := if since cfg s ts < 2 ^ 31 ∧ cfg.fraglen * 2 ≤ since cfg s ts then true else key
  let b := if s.hasVideo && !hit cfg s ts then false else b
  let b := if !s.hasVideo && s.hasAudio then hit cfg s ts else b
  let b := if maxMdat ≤ s.audio.mdatSize then true else b
  let b := if maxMdat ≤ s.video.mdatSize then true else b
  if !s.opened then true else b

/-- `f->duration = timestamp - f->timestamp` (:996-998) -/
def measure (cfg : Cfg) (s : St) (ts : Nat) : St :=
  if since cfg s ts < 2 ^ 31 then setFrag cfg s s.nfrags { getFrag cfg s s.nfrags with duration := since cfg s ts } else s

/-- Closing the open fragment and opening one that starts at `ts` (:1034-1040) -/
def cutAt (cfg : Cfg) (s : St) (ts : Nat) : St :=
  let s := openFragments (closeFragments cfg s)
  setFrag cfg s s.nfrags { getFrag cfg s s.nfrags with timestamp := ts }

/-- `ngx_rtmp_dash_update_fragments` (:981-1041) -/
def updateFragments (cfg : Cfg) (s : St) (key : Bool) (ts : Nat) : St :=
  if boundary cfg s key ts then cutAt cfg (measure cfg s ts) ts else measure cfg s ts

/-- A video frame, an audio frame (see `videoFrame`, `audioFrame` in `Mp4Model`), the end of the stream or its closing. -/
inductive Op
  | video (f : Frame)
  | audio (f : Frame)
  | close
  deriving DecidableEq

/-- `ngx_rtmp_dash_video` (:1153-1208), `ngx_rtmp_dash_audio` (:1105-1150), both with `ngx_rtmp_dash_append` (:1044-1102);
`ngx_rtmp_dash_close_stream` (:956-978), `ngx_rtmp_dash_stream_eof` (:1217-1223) -/
def step (cfg : Cfg) (s : St) : Op → St
  | .video f =>
    let s := updateFragments cfg { s with hasVideo := true } f.key f.timestamp
    { s with video := append s.video f (some f.bytes.length) }
  | .audio f =>
    let s := updateFragments cfg { s with hasAudio := true } false f.timestamp
    { s with audio := append s.audio f (some f.bytes.length) }
  | .close => closeFragments cfg s

/-- After `ngx_rtmp_dash_publish` (:808-953): when a session publishes again the ring keeps what was in it (:841-844). -/
def init (frags : Nat → Slot) : St := { frags := frags }

def run (cfg : Cfg) (s : St) (ops : List Op) : St := ops.foldl (step cfg) s

end Verif.Dash
