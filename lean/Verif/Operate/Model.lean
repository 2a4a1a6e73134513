import Verif.Operate.Spec
import Verif.Toolkit.UrlModel
/-
Model of the control requests (ngx_rtmp_control_module.c). `none` is a read outside of an array.

Not modelled: failing allocations, the sending of the answer (nginx core), what the recorders do when told (`ngx_rtmp_record_open` and the
like: parameter `recordOk`) and what leaving and joining a stream means for the session that is redirected (Operate/Props, over the model
of Rtmp/LiveCtxModel). `ngx_http_arg` is nginx core: `arg`.
-/
namespace Verif.Operate
open Verif

/-- NGX_LIVE_STREAM_LEN (ngx_rtmp.h:432) -/
def streamLen : Nat := 512

/-- The servers and streams of the process in their buckets (ngx_live.c:78-80, 130-131); `hash` is `ngx_hash_key` (nginx core). -/
structure World where
  servers : List (List Server)
  hash : Bytes → Nat

/-- `ngx_live_find_server` (ngx_live.c:90-110) -/
def findServer (w : World) (id : Bytes) : Option Server :=
  (w.servers[w.hash id % w.servers.length]?).bind (·.find? fun s => s.id == id)

/-- `ngx_live_find_stream` (ngx_live.c:166-186) -/
def findStream (w : World) (s : Server) (key : Bytes) : Option Stream :=
  (s.streams[w.hash key % s.streams.length]?).bind (·.find? fun st => st.name == key)

/-- `(ngx_uint_t) ngx_atoi(…)`: an error is -1. -/
def atoiU (t : Bytes) : Nat := (Url.atoi t).getD (2 ^ 64 - 1)

/-- `ngx_rtmp_control_walk_session` (ngx_rtmp_control_module.c:260-323): the sessions put into the array, none or one. -/
def walkSession (r : Req) (f : Role) (c : Ctx) : List Sess :=
  match c.session with
  | none => []
  | some s =>
    if (match r.arg .addr with | some a => !(s.addr.length == a.length && s.addr == a) | none => false) then []
    else if (match r.arg .clientid with | some t => s.number != atoiU t | none => false) then []
    else
      match f with
      | .publisher => if !c.publishing then [] else [s]
      | .subscriber => if c.publishing then [] else [s]
      | .client => [s]

/-- `ngx_rtmp_control_walk_stream` (ngx_rtmp_control_module.c:326-348) -/
def walkStream (r : Req) (f : Role) (st : Stream) : List Sess := st.play.flatMap (walkSession r f) ++ st.pub.flatMap (walkSession r f)

/-- `st->name` (ngx_rtmp.h:452), cleared before it is written (ngx_live.c:210-215) -/
def nameArray (st : Stream) : Bytes := st.name ++ List.replicate (streamLen - st.name.length) 0

/-- The loop with `ngx_memcmp` over all streams (ngx_rtmp_control_module.c:394-404) -/
def prefixLoop (r : Req) (f : Role) (key : Bytes) : List Stream → Option (List Sess)
  | [] => some []
  | st :: l =>
    if key.length > streamLen then none
    else
      (prefixLoop r f key l).map fun rest =>
        if key.isPrefixOf (nameArray st) then walkStream r f st ++ rest else rest

/-- `ngx_rtmp_control_walk_server` (ngx_rtmp_control_module.c:351-416) -/
def walkServer (w : World) (r : Req) (f : Role) (srv : Server) : Option (List Sess) :=
  let app := (r.arg .app).getD []
  if app.length = 0 then some (srv.streams.flatten.flatMap (walkStream r f))
  else
    let name := (r.arg .name).getD []
    let key := srv.id ++ 47 :: app ++ 47 :: name
    if name.length = 0 then prefixLoop r f key srv.streams.flatten
    else
      match (findServer w srv.id).bind fun s => findStream w s key with
      | some st => some (walkStream r f st)
      | none => some []

inductive Act where
  | record | drop | redirect | pause | resume
deriving DecidableEq, Repr

/-- What the handlers change: `s->pause`, finalized with NGX_LIVE_CONTROL_DROP, and the sessions handed to the recorders or redirected. -/
structure St where
  pause : Nat → Nat
  dropped : Nat → Bool
  told : List Nat

/-- The handlers (ngx_rtmp_control_module.c:112-258): the state, `ctx->count`, and whether NGX_CONF_OK is returned. -/
def handle (r : Req) (recordOk redirectOk : Sess → Bool) (a : Act) (s : Sess) (st : St) (count : Nat) : St × Nat × Bool :=
  match a with
  | .record => ({ st with told := st.told ++ [s.ref] }, count, recordOk s)
  | .drop => ({ st with dropped := fun n => if n = s.ref then true else st.dropped n }, count + 1, true)
  | .redirect =>
    match r.arg .newname with
    | none => (st, count, false)
    | some _ => ({ st with told := st.told ++ [s.ref] }, count + 1, redirectOk s)
  | .pause => ({ st with pause := fun n => if n = s.ref then 1 else st.pause n }, count + 1, true)
  | .resume => ({ st with pause := fun n => if n = s.ref ∧ st.pause n = 1 then 2 else st.pause n }, count + 1, true)

/-- The loop over the array (ngx_rtmp_control_module.c:457-463) -/
def handleAll (r : Req) (recordOk redirectOk : Sess → Bool) (a : Act) : List Sess → St → Nat → St × Nat × Bool
  | [], st, count => (st, count, true)
  | s :: l, st, count =>
    match handle r recordOk redirectOk a s st count with
    | (st', count', false) => (st', count', false)
    | (st', count', true) => handleAll r recordOk redirectOk a l st' count'

/-- `ngx_rtmp_control_walk` (ngx_rtmp_control_module.c:419-465). An empty `srv` stays empty: ngx_rmtp_get_serverid_by_domain looks
nothing up while there is a main configuration (ngx_rtmp_dynamic.c:979). -/
def walk (w : World) (r : Req) (recordOk redirectOk : Sess → Bool) (f : Role) (a : Act) (st : St) : Option (St × Nat × Bool) :=
  match r.arg .srv with
  | none => some (st, 0, false)
  | some id =>
    match findServer w id with
    | none => some (st, 0, true)
    | some srv => (walkServer w r f srv).map fun l => handleAll r recordOk redirectOk a l st 0

inductive Answer where
  | declined
  | error
  | ok
  | count (n : Nat)
deriving DecidableEq, Repr

/-- The text of the method against the words (ngx_rtmp_control_module.c:523-543 and its copies) -/
def roleOf (m : Bytes) : Option Role :=
  if m.length = 9 ∧ m = tPublisher then some .publisher
  else if m.length = 10 ∧ m = tSubscriber then some .subscriber
  else if m.length = 6 ∧ m = tClient then some .client
  else none

/-- `ngx_rtmp_control_record`, `_drop`, `_redirect`, `_pause`, `_resume` (ngx_rtmp_control_module.c:468-815) -/
def section' (w : World) (r : Req) (recordOk redirectOk : Sess → Bool) (a : Act) (method : Bytes) (st : St) : Option (Answer × St) :=
  if a = .record then
    (walk w r recordOk redirectOk .publisher a st).map fun p => (if p.2.2 then .ok else .error, p.1)
  else
    match roleOf method with
    | none => some (.error, st)
    | some f => (walk w r recordOk redirectOk f a st).map fun p => (if p.2.2 then .count p.2.1 else .error, p.1)

/-- The loop over the URI (ngx_rtmp_control_module.c:838-853): where the section and the method start. -/
def uriLoop (u : Bytes) : Nat → Option Nat → Option Nat × Option Nat
  | 0, m => (none, m)
  | n + 1, m =>
    if u[n]? ≠ some 47 then uriLoop u n m
    else
      match m with
      | some k => (some (n + 1), some k)
      | none => uriLoop u n (some (n + 1))

/-- The section and the method: empty where there is none. -/
def split (u : Bytes) : Bytes × Bytes :=
  match uriLoop u u.length none with
  | (none, none) => ([], [])
  | (none, some k) => ([], u.drop k)
  | (some j, some k) => ((u.drop j).take (k - j - 1), u.drop k)
  | (some _, none) => ([], [])

/-- `#secname` of the sections in the order of the code (ngx_rtmp_control_module.c:872-876) -/
def sectionOf (enabled : Act → Bool) (t : Bytes) : Option Act :=
  if enabled .record ∧ t = tRecord then some .record
  else if enabled .drop ∧ t = tDrop then some .drop
  else if enabled .redirect ∧ t = tRedirect then some .redirect
  else if enabled .pause ∧ t = tPause then some .pause
  else if enabled .resume ∧ t = tResume then some .resume
  else none

/-- `ngx_rtmp_control_handler` (ngx_rtmp_control_module.c:818-882); `enabled`: the bits of `llcf->control`. -/
def handler (w : World) (enabled : Act → Bool) (r : Req) (recordOk redirectOk : Sess → Bool) (st : St) : Option (Answer × St) :=
  match sectionOf enabled (split r.uri).1 with
  | none => some (.declined, st)
  | some a => section' w r recordOk redirectOk a (split r.uri).2 st

/-! ### What holds of the buckets -/

/-- Servers and streams are in their buckets, once (C27); names end in front of the end of their arrays (ngx_live.c:195-199); the numbers of
connections are counted up from one. -/
structure WF (w : World) : Prop where
  place : ∀ (i : Nat) b, w.servers[i]? = some b → ∀ s ∈ b, w.hash s.id % w.servers.length = i
  ids : (w.servers.flatten.map Server.id).Nodup
  splace : ∀ s ∈ w.servers.flatten, ∀ (i : Nat) b, s.streams[i]? = some b → ∀ st ∈ b, w.hash st.name % s.streams.length = i
  names : ∀ s ∈ w.servers.flatten, (s.streams.flatten.map Stream.name).Nodup
  short : ∀ s ∈ w.servers.flatten, ∀ st ∈ s.streams.flatten, st.name.length < streamLen
  nums : ∀ s ∈ w.servers.flatten, ∀ st ∈ s.streams.flatten, ∀ c ∈ st.play ++ st.pub, ∀ x, c.session = some x → x.number ≤ Url.maxInt

/-! ### What a paused session still hands on -/

/-- An audio or video message: the id of the video codec that is known (`none`: no codec context), whether it is video and a key frame. -/
structure Frame where
  codec : Option Nat
  video : Bool
  key : Bool
deriving DecidableEq, Repr

/-- The start of `ngx_rtmp_live_av` and its test before a player is served (ngx_rtmp_live_module.c:672-688, 831): `s->pause` of the session
that the frame came from, before and after, and whether the players get the frame. -/
def gate (pause : Nat) (f : Frame) : Nat × Bool :=
  if pause = 1 then (pause, false)
  else if pause = 2 then
    if f.codec = some 0 ∨ (f.video ∧ f.key) then (0, true) else (pause, false)
  else (pause, pause == 0)

/-- A frame of session `p` comes: which players get it. `l`: the players of the stream (:826-834, those that paused themselves are left
out of the model). -/
def deliver (pause : Nat → Nat) (p : Nat) (l : List Nat) (f : Frame) : List Nat := if (gate (pause p) f).2 then l else []

/-- Frames one after another: those that go on. -/
def frames (pause : Nat) : List Frame → Nat × List Frame
  | [] => (pause, [])
  | f :: l =>
    let g := gate pause f
    let r := frames g.1 l
    (r.1, if g.2 then f :: r.2 else r.2)

end Verif.Operate
