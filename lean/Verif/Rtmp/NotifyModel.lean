/-
Callbacks of publishers and players (`on_publish`, `on_play`): modules/nginx-rtmp-module/ngx_rtmp_notify_module.c, `common_timer` (:1158-1169),
`common_update_handle` (:1171-1186), `common_update_create` (:1188-1212), `common_done` (:1214-1239), `pnotify_start_handle` (:1241-1295),
`pnotify_start` (:1388-1432), `pnotify_done` (:1434-1445), `publish` (:2170-2195), `play` (:2197-2222), `close_stream` (:2224-2236); ngx_netcall.c,
`cleanup` (:11-32), `timeout` (:34-54), `handler` (:56-78), `destroy_handler` (:80-88), `create` (:135-170), `destroy` (:172-195);
ngx_rtmp_cmd_module.c, `publish_filter` (:224-241), `play_filter` (:243-260), `close_stream_filter` (:262-286).

One session and the contexts of its calls. A request of the HTTP client is known to at most one context, its `hcr`: `create` detaches the request
before, and a detached request calls nobody (ngx_http_client.c:499-541, 588-605). The HTTP client closes asynchronously (ngx_client.c:1306-1324), so no
handler runs inside `create`. The stream names are numbers here, the text of the URL is in NotifyUrlModel. Left out: the callbacks for meta data, streams,
records and relays; sessions of HTTP players, of which `finalize` can be synchronous; failing allocations, except that `create` may give no request.
Reading memory that is gone is the outcome `uaf`.
-/
namespace Verif.Notify

/-- `NGX_RTMP_OCLP_PLAY`, `NGX_RTMP_OCLP_PUBLISH` (:83-92) -/
inductive Kind | play | publish
  deriving DecidableEq

/-- The stages of a configured event; `start` is always set (:604). -/
structure Ev where
  update : Bool
  done : Bool
  deriving DecidableEq

/-- The configuration; `bypass` is `s->relay || s->interprocess`. -/
structure Cfg where
  publish : Option Ev
  play : Option Ev
  ignore : Bool := false
  bypass : Bool := false
  deriving DecidableEq

/-- The event of a call context: what its handler is, if it is set. -/
inductive Timer | off | timeout | update | destroy
  deriving DecidableEq

/-- `nctx->handler`: `pnotify_start_handle` or `common_update_handle` -/
inductive Hnd | start | update
  deriving DecidableEq

/-- `ngx_netcall_ctx_t` (ngx_netcall.h) -/
structure Nctx where
  kind : Kind
  ev : Ev
  hnd : Hnd := .start
  hcr : Bool := false
  timer : Timer := .off
  freed : Bool := false
  deriving DecidableEq

/-- The session, with `ngx_rtmp_notify_ctx_t` -/
structure St where
  published : Bool := false
  played : Bool := false
  closed : Bool := false
  gone : Bool := false
  cur : Option Nat := none
  pubV : Option Nat := none
  playV : Option Nat := none
  ctxs : List Nctx := []
  uaf : Bool := false
  deriving DecidableEq

inductive Stage | start | update | done
  deriving DecidableEq

/-- What happens: a call goes out, the rest of the chain is run with the arguments kept (`none`: they were never set), the client is told, the
session is finalized. -/
inductive Out
  | call (k : Kind) (s : Stage)
  | next (k : Kind) (v : Option Nat)
  | forbidden (k : Kind)
  | finalize
  deriving DecidableEq

/-- `got`: the HTTP client gives a request; `ok`: the rest of the chain, if it is run, returns NGX_OK. -/
inductive Event
  | publish (v : Nat) (got ok : Bool)
  | play (v : Nat) (got ok : Bool)
  | close (got : Bool)
  | answer (i : Nat) (code : Nat) (ok : Bool)
  | fail (i : Nat) (ok : Bool)
  | timer (i : Nat) (got ok : Bool)
  | gone (got : Bool)
  deriving DecidableEq

def setCtx (s : St) (i : Nat) (n : Nctx) : St := { s with ctxs := s.ctxs.set i n }

/-- `ngx_netcall_create` (ngx_netcall.c:135-170) -/
def create (n : Nctx) (got : Bool) : Nctx := if got then { n with hcr := true, timer := .timeout } else n

def callOut (k : Kind) (st : Stage) (got : Bool) : List Out := if got then [.call k st] else []

/-- `ngx_rtmp_notify_pnotify_start` (:1388-1432) -/
def start (s : St) (k : Kind) (ev : Ev) (got : Bool) : St × List Out :=
  ({ s with cur := some s.ctxs.length, ctxs := s.ctxs ++ [create { kind := k, ev := ev } got] }, callOut k .start got)

/-- `ngx_rtmp_publish_filter` (cmd:224-241) and `ngx_rtmp_notify_publish` (:2170-2195) -/
def publish (c : Cfg) (s : St) (v : Nat) (got : Bool) : St × List Out :=
  if s.published then (s, [])
  else
    let s := { s with published := true }
    if c.bypass then (s, [.next .publish (some v)])
    else
      match c.publish with
      | none => (s, [.next .publish (some v)])
      | some ev => let r := start s .publish ev got; ({ r.1 with pubV := some v }, r.2)

/-- `ngx_rtmp_play_filter` (cmd:243-260) and `ngx_rtmp_notify_play` (:2197-2222) -/
def play (c : Cfg) (s : St) (v : Nat) (got : Bool) : St × List Out :=
  if s.played then (s, [])
  else
    let s := { s with played := true }
    if c.bypass then (s, [.next .play (some v)])
    else
      match c.play with
      | none => (s, [.next .play (some v)])
      | some ev => let r := start s .play ev got; ({ r.1 with playV := some v }, r.2)

/-- `ngx_rtmp_notify_common_done` (:1214-1239) and `ngx_netcall_destroy` (ngx_netcall.c:172-195): the request of the last call is detached. -/
def done (s : St) (i : Nat) (got : Bool) : St × List Out :=
  match s.ctxs[i]? with
  | none => (s, [])
  | some n =>
    if n.freed then ({ s with uaf := true }, [])
    else (setCtx s i { n with hcr := false, timer := .destroy }, if n.ev.done then callOut n.kind .done got else [])

/-- `ngx_rtmp_close_stream_filter` (cmd:262-286) and `ngx_rtmp_notify_close_stream` (:2224-2236) -/
def close (c : Cfg) (s : St) (got : Bool) : St × List Out :=
  if s.closed then (s, [])
  else
    let s := { s with closed := true }
    if c.bypass then (s, [])
    else match s.cur with
      | none => (s, [])
      | some i => done s i got

/-- The codes `pnotify_start_handle` lets pass (:1255-1267); `none` is NGX_ERROR. -/
def passes (c : Cfg) : Option Nat → Bool
  | some code => 200 ≤ code && code ≤ 300
  | none => c.ignore

/-- `error:` of `pnotify_start_handle` (:1285-1294): `octx->type` is never set for these calls (:1425), it is `NGX_RTMP_OCLP_PLAY`. -/
def refuse : List Out := [.forbidden .play, .finalize]

/-- `ngx_rtmp_notify_pnotify_start_handle` (:1241-1295) for context `i`, which is `n` -/
def startHandle (c : Cfg) (s : St) (i : Nat) (n : Nctx) (code : Option Nat) (ok : Bool) : St × List Out :=
  if s.gone then ({ s with uaf := true }, [])
  else if passes c code then
    match s.cur.bind (fun j => s.ctxs[j]?) with
    | none => ({ s with uaf := true }, [])
    | some m =>
      if m.freed then ({ s with uaf := true }, [])
      else
        let o := match m.kind with
          | .publish => Out.next .publish s.pubV
          | .play => Out.next .play s.playV
        if ok then (if n.ev.update then setCtx s i { n with hnd := .update, timer := .update } else s, [o])
        else (s, o :: refuse)
  else (s, refuse)

/-- `ngx_netcall_cleanup`, `ngx_netcall_timeout`, `ngx_netcall_handler` (ngx_netcall.c:11-78): the timer is deleted, the request detached, the
handler called. The handler of updates (:1171-1186) logs to the log of the session unless the code is 200. -/
def answered (c : Cfg) (s : St) (i : Nat) (n : Nctx) (code : Option Nat) (ok : Bool) : St × List Out :=
  let n := { n with timer := .off, hcr := false }
  let s := setCtx s i n
  match n.hnd with
  | .start => startHandle c s i n code ok
  | .update => ({ setCtx s i { n with timer := .update } with uaf := s.uaf || (s.gone && code != some 200) }, [])

/-- The event of a context: the timeout of its call, the time for an update (:1158-1169, the log is the session's), the destruction. -/
def fire (c : Cfg) (s : St) (i : Nat) (n : Nctx) (got ok : Bool) : St × List Out :=
  match n.timer with
  | .off => (s, [])
  | .timeout => if n.hcr then answered c s i n none ok else (setCtx s i { n with timer := .off }, [])
  | .update =>
    if s.gone then ({ s with uaf := true }, [])
    else (setCtx s i (create { n with timer := .off } got), callOut n.kind .update got)
  | .destroy => (setCtx s i { n with timer := .off, freed := true }, [])

/-- One event. Commands do not come from a session that is gone; answers come to requests that are attached. -/
def step (c : Cfg) (s : St) : Event → St × List Out
  | .publish v got ok =>
    if s.gone then (s, [])
    else
      let r := publish c s v got
      (r.1, if ok then r.2 else match r.2 with | [.next k v] => [.next k v, .finalize] | o => o)
  | .play v got ok =>
    if s.gone then (s, [])
    else
      let r := play c s v got
      (r.1, if ok then r.2 else match r.2 with | [.next k v] => [.next k v, .finalize] | o => o)
  | .close got => if s.gone then (s, []) else close c s got
  | .answer i code ok =>
    match s.ctxs[i]? with
    | none => (s, [])
    | some n => if n.hcr && !n.freed then answered c s i n (some code) ok else (s, [])
  | .fail i ok =>
    match s.ctxs[i]? with
    | none => (s, [])
    | some n => if n.hcr && !n.freed then answered c s i n none ok else (s, [])
  | .timer i got ok =>
    match s.ctxs[i]? with
    | none => (s, [])
    | some n => if n.freed then (s, []) else fire c s i n got ok
  | .gone got =>
    if s.gone then (s, [])
    else let r := close c s got; ({ r.1 with gone := true }, r.2)

def run (c : Cfg) : St → List Event → St × List (List Out)
  | s, [] => (s, [])
  | s, e :: es => let r := step c s e; let q := run c r.1 es; (q.1, r.2 :: q.2)

end Verif.Notify
