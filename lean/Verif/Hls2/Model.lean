import Verif.Base.Bytes
import Verif.Hls.RestoreModel
/-
Model of HLS out of memory: modules/nginx-rtmp-module/mpegts/ngx_hls_live_module.c and the part of mpegts/ngx_hls_http_module.c that reads the names of fragments.

Fragments are values here; that they are objects with reference counts, shared with responses and taken from a common free list, is in HeapModel.lean.
Durations (`double` seconds) are numbers of ticks of 1/90000 s: `(ts - frag_ts) / 90000.` is compared with milliseconds / 1000. and with whole seconds, and both roundings keep the order for times below 2^50 ticks.
-/
namespace Verif.Hls2
open Verif Verif.HlsRestore

/-- `ngx_mpegts_frame_t` (ngx_rtmp.h): packets of a transport stream; types other than audio and video do not come (ngx_hls_live_module.c:934-943). -/
structure Frame where
  video : Bool
  key : Bool
  pts : Nat
  data : Bytes
  deriving DecidableEq, Repr

/-- What of the configuration is used (`ngx_hls_live_app_conf_t`, :36-52; `winfrags` is `playlen / fraglen`, :1070-1072); times in ms. `queue` is `s->out_queue`. -/
structure Conf where
  fraglen : Nat := 5000
  maxFraglen : Nat := 50000
  win : Nat := 3
  minfrags : Nat := 2
  aligned : Bool := false
  queue : Nat := 2048
  deriving DecidableEq, Repr

/-- Slots of the ring (:688) -/
def Conf.size (c : Conf) : Nat := c.win * 2 + 1

/-- `ngx_hls_live_frag_t` (ngx_hls_live_module.h:36-49): `content` are the slots that were written, `last` is `content_last`. -/
structure Frag where
  id : Nat
  ticks : Nat := 0
  discont : Bool
  length : Nat := 0
  content : List Frame := []
  last : Nat := 0
  deriving DecidableEq, Repr

/-- `ngx_hls_live_ctx_t` (ngx_hls_live_module.h:51-83) -/
structure St where
  opened : Bool := false
  playing : Bool := false
  nfrag : Nat := 0
  nfrags : Nat := 0
  fragTs : Nat := 0
  ring : List (Option Frag)
  deriving DecidableEq, Repr

/-- `ngx_pcalloc` in `ngx_hls_live_join` (ngx_hls_live_module.c:683-692) -/
def init (c : Conf) : St := { ring := List.replicate c.size none }

/-- `ngx_hls_live_get_frag` (:202-212) -/
def getFrag (c : Conf) (s : St) (n : Nat) : Option Frag := (s.ring[(s.nfrag + n) % c.size]?).join

/-- A slot of the ring is written. -/
def setFrag (c : Conf) (s : St) (n : Nat) (f : Frag) : St := { s with ring := s.ring.set ((s.nfrag + n) % c.size) (some f) }

/-- `ngx_hls_live_next_frag` (:215-229) -/
def nextFrag (c : Conf) (s : St) : St := if s.nfrags = c.win then { s with nfrag := s.nfrag + 1 } else { s with nfrags := s.nfrags + 1 }

/-- `ngx_hls_live_close_fragment` (:495-522). The event tells players that wait for the first playlist. -/
def closeFragment (c : Conf) (s : St) : St :=
  if !s.opened then s
  else
    let s := nextFrag c { s with opened := false }
    if c.minfrags ≤ s.nfrags ∧ !s.playing then { s with playing := true } else s

/-- What `ngx_hls_live_write_frame` does to the fragment (:898-901): slot `content_last` is written, and `content_last` is the next modulo the size of the queue. -/
def Frag.put (q : Nat) (g : Frag) (f : Frame) : Frag :=
  { g with length := g.length + f.data.length, content := g.content.take g.last ++ f :: g.content.drop (g.last + 1), last := (g.last + 1) % q }

/-- `ngx_hls_live_write_frame` (:888-907). `none`: a null pointer is used, or the remainder by 0 is computed. -/
def writeFrame (c : Conf) (s : St) (f : Frame) : Option St :=
  match getFrag c s s.nfrags with
  | none => none
  | some g => if c.queue = 0 then none else some (setFrag c s s.nfrags (g.put c.queue f))

/-- What is known of the publisher's codecs (`codec_ctx`, :934-946): whether there are AVC and AAC headers, and the 376 bytes with PAT and PMT for the codecs (C10 tells what they are). -/
structure Codec where
  avc : Bool
  aac : Bool
  tables : Bytes
  deriving DecidableEq, Repr

def Codec.frame (k : Codec) : Frame := { video := false, key := false, pts := 0, data := k.tables }

/-- `ngx_hls_live_open_fragment` (:576-635), with `ngx_hls_live_get_fragment_id` (:403-411) -/
def openFragment (c : Conf) (k : Codec) (ts : Nat) (discont : Bool) (s : St) : Option St :=
  if s.opened then some s
  else
    let id := s.nfrag + s.nfrags
    let s := { s with ring := s.ring.set (id % c.size) (some { id := id, discont := discont }), opened := true, fragTs := ts }
    match writeFrame c s k.frame with
    | none => none
    | some s =>
      match getFrag c s s.nfrags with
      | none => none
      | some g => some (setFrag c s s.nfrags { g with length := 376 })

/-- The difference as `uint64_t`, and as `int64_t` -/
def diff (a b : Nat) : Nat := (a + 2 ^ 64 - b) % 2 ^ 64
def sdiff (a b : Nat) : Int := if diff a b < 2 ^ 63 then diff a b else (diff a b : Int) - 2 ^ 64

/-- `ngx_hls_live_update_fragment` (:823-885). `none` as in `writeFrame`, and for the division by `ts_frag_len`. -/
def updateFragment (c : Conf) (k : Codec) (ts : Nat) (boundary : Bool) (s : St) : Option St :=
  let cur := if s.opened then getFrag c s s.nfrags else none
  if s.opened ∧ cur = none then none
  else
    let force := s.opened && (decide ((c.maxFraglen * 90 : Nat) < sdiff ts s.fragTs) || decide (sdiff ts s.fragTs < -90000))
    let cur := if force then cur else cur.map fun g => { g with ticks := diff ts s.fragTs }
    let s := match cur with | none => s | some g => setFrag c s s.nfrags g
    if c.aligned ∧ c.fraglen * 90 = 0 then none
    else
      let same := s.fragTs / (c.fraglen * 90) = ts / (c.fraglen * 90)
      let start := c.aligned && !s.opened && decide (s.fragTs = 0 ∨ same)
      let short := if c.aligned then s.opened && decide same else match cur with | none => false | some g => decide (g.ticks < c.fraglen * 90)
      let boundary := boundary && !short && !start
      let s := if start then { s with fragTs := ts } else s
      if boundary || force then openFragment c k ts (!s.opened) (closeFragment c s) else some s

/-- Whether a fragment may start with the frame (:932-943). `ctx->aframe` is never set. -/
def boundary (k : Codec) (opened : Bool) (f : Frame) : Bool := if f.video then f.key && (!k.aac || !opened) else !k.avc

/-- `ngx_hls_live_update` (:910-963), for the frames in the session's queue -/
def update (c : Conf) (k : Codec) : List Frame → St → Option (St × List Frame)
  | [], s => some (s, [])
  | f :: fs, s =>
    match updateFragment c k f.pts (boundary k s.opened f) s with
    | none => none
    | some s =>
      if !s.opened then some (s, f :: fs)
      else
        match writeFrame c s f with
        | none => none
        | some s => update c k fs s

/-- A session: its context, and the frames that wait in its queue -/
structure Sess where
  st : St
  queue : List Frame := []
  deriving DecidableEq, Repr

/-- `ngx_hls_live_av` (:966-1006) for one of the sessions: `fs` are put into its queue by `ngx_mpegts_gop_link` (GopModel.lean, C76). -/
def feed (c : Conf) (k : Codec) (fs : List Frame) (s : Sess) : Option Sess := (update c k (s.queue ++ fs) s.st).map fun r => { st := r.1, queue := r.2 }

def feeds (c : Conf) : List (Codec × List Frame) → Sess → Option Sess
  | [], s => some s
  | (k, fs) :: l, s => (feed c k fs s).bind (feeds c l)

/-! ### Playlist -/

/-- `max_frag` (:429-438) -/
def maxFrag (c : Conf) (s : St) : Nat :=
  (List.range s.nfrags).foldl (fun m i => match getFrag c s i with | none => m | some g => if m * 90000 < g.ticks then (g.ticks + 45000) / 90000 else m) (c.fraglen / 1000)

/-- What goes into the names: `base_url`, `s->name`, the session's id, and `ngx_process_slot` -/
structure Names where
  base : Text := []
  name : Text
  sid : Text
  slot : Nat := 0
  deriving DecidableEq, Repr

/-- `%V%V-%uL.ts?session=%V&slot=%d` (:469-471) -/
def uri (n : Names) (id : Nat) : Text := n.base ++ n.name ++ '-' :: dec id ++ ".ts?session=".toList ++ n.sid ++ "&slot=".toList ++ dec n.slot

/-- An entry (:463-471) -/
def entry (n : Names) (g : Frag) : Text :=
  (if g.discont then "#EXT-X-DISCONTINUITY\n".toList else []) ++ "#EXTINF:".toList ++ fixed3 g.ticks ++ ",\n".toList ++ uri n g.id ++ ['\n']

/-- The entries (:460-477); `none`: null pointer -/
def entries (c : Conf) (n : Names) (s : St) : Nat → Option Text
  | 0 => some []
  | i + 1 => (entries c n s i).bind fun t => (getFrag c s i).map fun g => t ++ entry n g

/-- `ngx_hls_live_update_playlist` (:413-493): `ngx_slprintf` stops at the end of a buffer of 512 KiB. -/
def playlist (c : Conf) (n : Names) (s : St) : Option Text :=
  (entries c n s s.nfrags).map fun t =>
    ("#EXTM3U\n#EXT-X-VERSION:3\n#EXT-X-MEDIA-SEQUENCE:".toList ++ dec s.nfrag ++ "\n#EXT-X-TARGETDURATION:".toList ++ dec (maxFrag c s) ++ ['\n'] ++ t).take 524288

/-- `ngx_hls_live_write_playlist` (:232-269): the inner `none` is NGX_AGAIN. -/
def writePlaylist (c : Conf) (n : Names) (s : St) : Option (Option Text) :=
  if s.nfrags < c.minfrags ∨ !s.playing then some none else (playlist c n s).map some

/-! ### Fragments by name -/

/-- `ngx_hls_http_strrchr` (ngx_hls_http_module.c:831-852) for `/`, on the text in reverse (`rev` without what is behind): what is behind the last one, unless it is at the start.
`none` is a null pointer. -/
def strrchr (ch : Char) : Text → Text → Option Text
  | [], _ => none
  | [_], _ => none
  | x :: rev, acc => if x = ch then some acc else strrchr ch rev (x :: acc)

/-- `ngx_hls_http_parse_frag` (:855-876); there is no `?` in `r->uri`. -/
def parseFrag (path : Text) : Text := (strrchr '/' path.reverse []).getD path

/-- The loops of `ngx_hls_live_find_frag` (ngx_hls_live_module.c:286-298), on the text in reverse: what is before `ch` (in reverse) and what is behind; `none` if the start is reached. -/
def seekBack (ch : Char) : Text → Text → Option (Text × Text)
  | [], _ => none
  | [_], _ => none
  | x :: rev, acc => if x = ch then some (rev, acc) else seekBack ch rev (x :: acc)

/-- `ngx_atoi` (nginx core, not in the repository); `none` is NGX_ERROR. -/
def atoiGo : Text → Nat → Option Nat
  | [], acc => some acc
  | x :: t, acc =>
    match digit? x with
    | none => none
    | some d => if 2 ^ 63 - 1 < acc * 10 + d then none else atoiGo t (acc * 10 + d)

def atoi (t : Text) : Option Nat := if t = [] then none else atoiGo t 0

/-- The number in a name (ngx_hls_live_module.c:283-302). The search begins with the byte `after` that is behind the name. -/
def fragId (name : Text) (after : Char) : Option Nat :=
  (seekBack '.' (after :: name.reverse) []).bind fun r => (seekBack '-' r.1 []).bind fun r => atoi r.2

/-- `ngx_hls_live_find_frag` from there (:304-321): the slot of the ring. NGX_ERROR is the largest number and never found. -/
def findSlot (c : Conf) (nfrag nfrags : Nat) (name : Text) (after : Char) : Option Nat :=
  (fragId name after).bind fun id => if nfrag + nfrags < id ∨ c.size < nfrag + nfrags - id then none else some (id % c.size)

def findFrag (c : Conf) (s : St) (name : Text) (after : Char) : Option Frag :=
  (findSlot c s.nfrag s.nfrags name after).bind fun i => (s.ring[i]?).join

/-- What is sent for a fragment that does not change (ngx_hls_http_module.c:878-913, 952-1006): from slot 0 up to `content_last`. -/
def Frag.body (g : Frag) : Bytes := (g.content.take g.last).flatMap (·.data)

end Verif.Hls2
