/-
The chains of handlers for `publish` and `play`: modules register in the order of modules/nginx-rtmp-module/config:4-31 by their `postconfiguration`
(ngx_rtmp.c:306-319), each putting itself before those that were there: `next_publish = ngx_rtmp_publish; ngx_rtmp_publish = ngx_rtmp_x_publish`.
Handlers (file:lines of the handler, line of its registration):
publish: ngx_rtmp_cmd_module.c:730-743, 1084; ngx_rtmp_access_module.c:444-457, 475; ngx_rtmp_live_module.c:984-1018, 1086; ngx_live_record.c:1220-1246,
1300; ngx_live_relay.c:204-238, 403; ngx_rtmp_exec_module.c:1170-1200, 1539; ngx_rtmp_notify_module.c:2170-2195, 2276; ngx_rtmp_log_module.c:1186-1224,
1343; hls/ngx_rtmp_hls_module.c:1418-1619, 2700; dash/ngx_rtmp_dash_module.c:826-954, 1519; ngx_rtmp_record_module.c:701-746, 1295;
mpegts/ngx_mpegts_live_module.c:1797-1803, 1877.
play: cmd, access :460-468, live :1021-1065, relay :241-271, exec :1203-1237, notify :2197-2222, log :1227-1265, mpegts :1805-1818,
mpegts/ngx_hls_live_module.c:727-765, 1081.
What the handlers do is reduced to marks; that they fail for lack of memory or for a bad name or path is one Boolean for each module that can. The
callbacks are C65, here reduced to the answers to the calls of one command; the rules of access are a Boolean.
-/
namespace Verif.Hook

inductive Mod | cmd | access | live | liveRecord | relay | exec | notify | log | hls | dash | record | mpegtsLive | hlsLive
  deriving DecidableEq

inductive Hook | publish | play
  deriving DecidableEq

/-- The global pointer `ngx_rtmp_publish` (`ngx_rtmp_play`) and the static `next_publish` (`next_play`) of each module -/
structure Chain where
  head : Option Mod := none
  next : Mod → Option Mod := fun _ => none

/-- `next_publish = ngx_rtmp_publish; ngx_rtmp_publish = ngx_rtmp_x_publish` -/
def register (c : Chain) (m : Mod) : Chain := { head := some m, next := fun k => if k = m then c.head else c.next k }

/-- The modules with handlers, in the order of config:4-31 -/
def order : List Mod := [.cmd, .access, .live, .liveRecord, .relay, .exec, .notify, .log, .hls, .dash, .record, .mpegtsLive, .hlsLive]

/-- Which modules register for which hook -/
def registers : Hook → Mod → Bool
  | .publish, .hlsLive => false
  | .publish, _ => true
  | .play, m => match m with
    | .cmd | .access | .live | .relay | .exec | .notify | .log | .mpegtsLive | .hlsLive => true
    | _ => false

/-- `ngx_rtmp_block` (ngx_rtmp.c:306-319) -/
def configure (h : Hook) (l : List Mod) : Chain := (l.filter (registers h)).foldl register {}

/-- The modules a call comes to if all go on; `fuel` bounds the number of calls. -/
def follow (c : Chain) : Nat → Option Mod → List Mod
  | 0, _ => []
  | _, none => []
  | n + 1, some m => m :: follow c n (c.next m)

/-- `s->live_type` -/
inductive Live | rtmp | flv | mpegts | hls
  deriving DecidableEq

structure Env where
  interprocess : Bool := false
  /-- `s->relay` -/
  relay : Bool := false
  liveType : Live := .rtmp
  silent : Bool := false
  /-- another publisher was there before -/
  second : Bool := false
  /-- the stream has a publisher -/
  publisher : Bool := false
  live : Bool := true
  playRestart : Bool := false
  exec : Bool := false
  hls : Bool := false
  hlsLive : Bool := false
  dash : Bool := false
  record : Bool := false
  liveRecord : Bool := false
  onPublish : Bool := false
  onPlay : Bool := false
  onRecord : Bool := false
  ignore : Bool := false
  /-- `ngx_rtmp_access` refuses -/
  denied : Bool := false
  /-- modules whose handler fails -/
  fails : Mod → Bool := fun _ => false

/-- Marks of what was done for the command. -/
inductive Eff
  /-- the session is a context of the stream (`ngx_rtmp_cmd_stream_init`) -/
  | linked
  | mpegtsReady | mpegtsJoined | hlsJoined
  | recording | dashFiles | hlsFiles | logged
  /-- a call goes out -/
  | asked (h : Hook)
  | askedRecord
  | executed
  /-- pushes or pulls are started -/
  | relayed
  | liveRecording
  | joined
  | started
  /-- the cached GOP is sent -/
  | gop
  /-- the end of the chain -/
  | accepted
  deriving DecidableEq

inductive Verdict | next | refuse | wait
  deriving DecidableEq

/-- The handlers of `publish` -/
def onPublish (e : Env) : Mod → List Eff × Verdict
  | .cmd => ([.accepted], .next)
  | .access => ([], if !e.interprocess && e.denied then .refuse else .next)
  | .live => (if e.live then .joined :: (if e.silent then [] else [.started]) else [], .next)
  | .liveRecord =>
    if e.interprocess then ([], .next)
    else
      let o := if e.liveRecord then [Eff.liveRecording] else []
      if e.onRecord then (o ++ [.askedRecord], .wait) else (o, .next)
  | .relay => if e.second then ([], .next) else if e.fails .relay then ([], .refuse) else ([.relayed], .next)
  | .exec => (if e.exec && !e.interprocess then [.executed] else [], .next)
  | .notify => if e.relay || e.interprocess then ([], .next) else if e.onPublish then ([.asked .publish], .wait) else ([], .next)
  | .log => (if e.interprocess || e.relay then [] else [.logged], .next)
  | .hls => if !e.hls || e.interprocess then ([], .next) else if e.fails .hls then ([], .refuse) else ([.hlsFiles], .next)
  | .dash => if !e.dash || e.interprocess then ([], .next) else if e.fails .dash then ([], .refuse) else ([.dashFiles], .next)
  | .record => if e.interprocess || !e.record then ([], .next) else if e.fails .record then ([], .refuse) else ([.recording], .next)
  | .mpegtsLive => ([.mpegtsReady], .next)
  | .hlsLive => ([], .next)

/-- The handlers of `play` -/
def onPlay (e : Env) : Mod → List Eff × Verdict
  | .cmd => ([.accepted], .next)
  | .access => ([], if e.denied then .refuse else .next)
  | .live =>
    (if !e.live || e.liveType == .hls || e.liveType == .mpegts then []
     else .joined :: ((if e.silent || e.playRestart then [] else [.started]) ++ (if e.publisher then [.gop] else [])), .next)
  | .relay => if e.fails .relay then ([], .refuse) else ([.relayed], .next)
  | .exec => (if e.exec then [.executed] else [], .next)
  | .notify => if e.relay || e.interprocess then ([], .next) else if e.onPlay then ([.asked .play], .wait) else ([], .next)
  | .log => (if e.interprocess || e.relay then [] else [.logged], .next)
  | .mpegtsLive => if e.liveType == .mpegts then (if e.fails .mpegtsLive then ([], .refuse) else ([.mpegtsJoined], .next)) else ([], .next)
  | .hlsLive =>
    if !e.hlsLive || e.liveType != .hls || e.interprocess then ([], .next)
    else if e.fails .hlsLive then ([], .refuse) else ([.hlsJoined], .next)
  | _ => ([], .next)

def handler : Hook → Env → Mod → List Eff × Verdict
  | .publish => onPublish
  | .play => onPlay

/-- How a call of the chain returned: to its end, with an error, or a module keeps the command until its call is answered. -/
inductive Res
  | done
  | refused
  | waiting (m : Mod) (rest : List Mod)
  deriving DecidableEq

/-- The handlers one after the other, each called by the one before -/
def call (h : Hook) (e : Env) : List Mod → List Eff × Res
  | [] => ([], .done)
  | m :: ms =>
    match handler h e m with
    | (o, .next) => let r := call h e ms; (o ++ r.1, r.2)
    | (o, .refuse) => (o, .refused)
    | (o, .wait) => (o, .waiting m ms)

/-- The answers that `ngx_rtmp_notify_pnotify_start_handle` lets pass (ngx_rtmp_notify_module.c:1241-1267) -/
def passes (e : Env) : Option Nat → Bool
  | some c => 200 ≤ c && c ≤ 300
  | none => e.ignore

/-- `ngx_rtmp_notify_pnotify_start_handle` (ngx_rtmp_notify_module.c:1241-1282), `record_start_handle` (:1875-1895) with the answer; `none` is no answer -/
def answer (h : Hook) (e : Env) (m : Mod) (rest : List Mod) (code : Option Nat) : List Eff × Res :=
  match m with
  | .notify =>
    if passes e code then call h e rest else ([], .refused)
  | _ => let r := call h e rest; ((if code = some 200 then [Eff.liveRecording] else []) ++ r.1, r.2)

/-- A command and the answers to its calls. `ngx_rtmp_publish_filter`, `ngx_rtmp_play_filter` (ngx_rtmp_cmd_module.c:224-260) begin it. -/
def answers (h : Hook) (e : Env) : List Eff × Res → List (Option Nat) → List Eff × Res
  | r, [] => r
  | (o, .waiting m rest), a :: as => let q := answer h e m rest a; answers h e (o ++ q.1, q.2) as
  | r, _ => r

def command (h : Hook) (e : Env) (as : List (Option Nat)) : List Eff × Res :=
  let c := configure h order
  let r := call h e (follow c order.length c.head)
  answers h e ((if e.relay then [] else [.linked]) ++ r.1, r.2) as

end Verif.Hook
