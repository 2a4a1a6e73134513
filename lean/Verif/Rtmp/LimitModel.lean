/-
Model of modules/nginx-rtmp-module/ngx_rtmp_limit_module.c and of the places that fire the events it hooks.
-/
namespace Verif.Limit

/-- Return codes used here. -/
inductive Rc where | ok | error
deriving DecidableEq, Repr

/-- `ngx_rtmp_limit_connect` (ngx_rtmp_limit_module.c:82-117) on the shared `uint32_t` counter; the
increment happens under the zone mutex, so one call is one atomic step. `none` = directive unset. -/
def limitConnect (maxConn : Option Nat) (nconn : Nat) : Rc × Nat :=
  match maxConn with
  | none => (.ok, nconn)
  | some m =>
    let n := (nconn + 1) % 2 ^ 32
    (if n > m then .error else .ok, n)

/-- `ngx_rtmp_limit_disconnect` (ngx_rtmp_limit_module.c:120-147). -/
def limitDisconnect (maxConn : Option Nat) (nconn : Nat) : Nat :=
  match maxConn with
  | none => nconn
  | some _ => (nconn + 2 ^ 32 - 1) % 2 ^ 32

/-- The server as coded: number of live RTMP sessions and the shared counter. -/
structure Server where
  live : Nat
  nconn : Nat
deriving DecidableEq, Repr

/-- What can happen to a session. -/
inductive Ev where
  | accept   -- a client connects
  | close    -- a session is closed (all DISCONNECT handlers succeed)
deriving DecidableEq, Repr

/-- `accept`: `ngx_rtmp_init_connection`/`ngx_rtmp_init_session` (ngx_rtmp_init.c:63-215, 478-513) create the session
and start the handshake; no code path fires the `NGX_RTMP_CONNECT` event
(the only `ngx_rtmp_fire_event` calls are ngx_rtmp_handshake.c:367 for HANDSHAKE_DONE, ngx_rtmp_init.c:336 and :460
for DISCONNECT and mpegts/ngx_hls_live_module.c:518, :792 for MPEGTS events), so `ngx_rtmp_limit_connect` never runs.
`close`: `ngx_rtmp_close_session_handler` (ngx_rtmp_init.c:325-343) fires DISCONNECT. -/
def step (maxConn : Option Nat) (s : Server) : Ev → Server
  | .accept => { s with live := s.live + 1 }
  | .close => { live := s.live - 1, nconn := limitDisconnect maxConn s.nconn }

def run (maxConn : Option Nat) (s : Server) (evs : List Ev) : Server := evs.foldl (step maxConn) s

/-- `ngx_rtmp_limit_shm_init` (ngx_rtmp_limit_module.c:150-172): counter starts at 0. -/
def init : Server := ⟨0, 0⟩

/-! The protocol the module was written for: CONNECT fired once for each session before it may proceed,
DISCONNECT once when it ends (also when it was refused). Workers interleave arbitrarily; each handler is one
atomic step thanks to the mutex. -/

structure Proto where
  admitted : Nat      -- sessions past the connect stage
  refused : Nat       -- refused sessions not yet torn down
  nconn : Nat
deriving DecidableEq, Repr

inductive PEv where | connect | endAdmitted | endRefused
deriving DecidableEq, Repr

def pstep (m : Nat) (s : Proto) : PEv → Proto
  | .connect =>
    match limitConnect (some m) s.nconn with
    | (.ok, n) => { s with admitted := s.admitted + 1, nconn := n }
    | (.error, n) => { s with refused := s.refused + 1, nconn := n }
  | .endAdmitted =>
    if s.admitted = 0 then s
    else { s with admitted := s.admitted - 1, nconn := limitDisconnect (some m) s.nconn }
  | .endRefused =>
    if s.refused = 0 then s
    else { s with refused := s.refused - 1, nconn := limitDisconnect (some m) s.nconn }

def prun (m : Nat) (evs : List PEv) : Proto := evs.foldl (pstep m) ⟨0, 0, 0⟩

end Verif.Limit
