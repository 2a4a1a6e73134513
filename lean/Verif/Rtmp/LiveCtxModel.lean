import Verif.Base.Chains
/-
Model of the life of a session on its stream: `ngx_rtmp_publish_filter`, `ngx_rtmp_play_filter`, `ngx_rtmp_close_stream_filter`,
`ngx_rtmp_cmd_stream_init` (nginx-rtmp-module/ngx_rtmp_cmd_module.c) and the lists of `ngx_live_create_ctx`, `ngx_live_delete_ctx`
(nginx-rtmp-module/ngx_live.c).

Sessions are numbered as they connect; the `ngx_rtmp_core_ctx_t` of session `n` has the same number (it lives in the pool of the session and
is freed with it). Streams are known by a number standing for the name `serverid/app/name`; that the registry is a map is
C27. A role is `true` for publishing. Not modelled: names that do not fit (then `live_stream` is NULL and
`ngx_live_create_ctx` dereferences it), the modules further down the publish and play chains, notifications.
-/
namespace Verif.LiveCtx
open Verif

structure St where
  nsess : Nat := 0
  /-- members of the session -/
  published : Nat → Bool := fun _ => false
  played : Nat → Bool := fun _ => false
  closed : Nat → Bool := fun _ => false
  relay : Nat → Bool := fun _ => false
  /-- `s->stream`, set once; `s->live_stream` when `live` -/
  stream : Nat → Option Nat := fun _ => none
  live : Nat → Bool := fun _ => false
  /-- pool destroyed -/
  freed : Nat → Bool := fun _ => false
  /-- `ngx_rtmp_core_ctx_t`: exists, `publishing`, `next` -/
  ctx : Nat → Bool := fun _ => false
  publishing : Nat → Bool := fun _ => false
  next : Nat → Option Nat := fun _ => none
  /-- the stream is registered; its `publish_ctx` (true) and `play_ctx` (false) -/
  reg : Nat → Bool := fun _ => false
  heads : Nat × Bool → Option Nat := fun _ => none

def init : St := {}

/-- A new connection (or relay session): `ngx_rtmp_create_session`. -/
def connect (s : St) : St := { s with nsess := s.nsess + 1 }

/-- `ngx_live_create_stream` for stream `k` (ngx_live.c:286-309): a new one has empty lists. -/
def createStream (s : St) (k : Nat) : St :=
  if s.reg k then s else { s with reg := set s.reg k true, heads := set (set s.heads (k, true) none) (k, false) none }

/-- `ngx_live_create_ctx` for a session on stream `k` (ngx_live.c:359-384) -/
def createCtx (s : St) (n k : Nat) (role : Bool) : St :=
  { s with
    ctx := set s.ctx n true
    publishing := set s.publishing n role
    next := set s.next n (s.heads (k, role))
    heads := set s.heads (k, role) (some n) }

/-- `ngx_rtmp_cmd_stream_init` (ngx_rtmp_cmd_module.c:185-222); the name of the first command is kept. -/
def streamInit (s : St) (n k : Nat) (role : Bool) : St :=
  let k' := match s.stream n with | some x => x | none => k
  let s := createStream { s with stream := set s.stream n (some k'), live := set s.live n true } k'
  createCtx s n k' role

/-- `ngx_rtmp_publish_filter` (ngx_rtmp_cmd_module.c:224-242) -/
def publish (s : St) (n k : Nat) : St :=
  if s.published n then s
  else
    let s := { s with published := set s.published n true }
    if s.relay n then s else streamInit s n k true

/-- `ngx_rtmp_play_filter` (ngx_rtmp_cmd_module.c:244-260) -/
def play (s : St) (n k : Nat) : St :=
  if s.played n then s
  else
    let s := { s with played := set s.played n true }
    if s.relay n then s else streamInit s n k false

/-- A relay session `n` made for session `m` (ngx_live_relay_inner.c:221-230, ngx_live_relay_simple.c:162-171). -/
def attach (s : St) (n m : Nat) (role : Bool) : St :=
  match s.stream m with
  | none => s
  | some k => createCtx { s with relay := set s.relay n true, stream := set s.stream n (some k), live := set s.live n true } n k role

/-- `ngx_live_delete_ctx` (ngx_live.c:386-408); `none`: the loop does not end. -/
def deleteCtx (s : St) (n : Nat) : Option St :=
  match s.ctx n, s.stream n with
  | true, some k =>
    match searchLink s.next (· == n) (s.nsess + 1) none (s.heads (k, s.publishing n)) with
    | none => none
    | some (_, none) => some s
    | some (pr, some _) =>
      some { s with
        next := setNext s.next pr (s.next n)
        heads := set s.heads (k, s.publishing n) (setHead (s.heads (k, s.publishing n)) pr (s.next n)) }
  | _, _ => some s

/-- The last part of `ngx_rtmp_close_stream_filter` (ngx_rtmp_cmd_module.c:275-283): a stream without sessions is removed. -/
def dropStream (s : St) (n : Nat) : St :=
  match s.live n, s.stream n with
  | true, some k => if s.heads (k, false) = none ∧ s.heads (k, true) = none then { s with reg := set s.reg k false } else s
  | _, _ => s

/-- `ngx_rtmp_close_stream_filter` (ngx_rtmp_cmd_module.c:262-287) -/
def close (s : St) (n : Nat) : Option St :=
  if s.closed n then some s
  else (deleteCtx { s with closed := set s.closed n true } n).map fun s => dropStream s n

/-- The peer goes away: `ngx_rtmp_close_session_handler` (ngx_rtmp_init.c:325-343) fires NGX_RTMP_DISCONNECT, whose handler deletes the
stream (ngx_rtmp_cmd_module.c:929-946, 671-681), and destroys the pool (:319-321). -/
def disconnect (s : St) (n : Nat) : Option St := (close s n).map fun s => { s with freed := set s.freed n true }

/-- `play2` (ngx_rtmp_cmd_module.c:872-877) -/
def play2 (s : St) (n k : Nat) : Option St := (close s n).map fun s => play s n k

end Verif.LiveCtx
