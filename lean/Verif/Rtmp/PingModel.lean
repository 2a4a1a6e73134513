/-
Model of the ping keep-alive: `ngx_rtmp_reset_ping`, `ngx_rtmp_ping` (ngx_rtmp_handler.c:131-190) and the two places that
set `ping_reset` (`ngx_rtmp_recv` after a read, ngx_rtmp_handler.c:278; `ngx_rtmp_send` after the output chain was
flushed, ngx_rtmp_handler.c:762).
-/
namespace Verif.Ping

structure Cfg where
  ping : Nat          -- interval, 0 = off
  pingTimeout : Nat
  busy : Bool
deriving DecidableEq, Repr

structure St where
  active : Bool := false      -- ping_active
  reset : Bool := false       -- ping_reset
  timer : Option Nat := none  -- interval the timer is armed with
  dropped : Bool := false     -- session finalized by the ping handler
  pings : Nat := 0            -- ping requests sent
deriving DecidableEq, Repr

/-- Traffic events. -/
inductive Io where
  | received   -- some bytes were read from the peer
  | flushed    -- the pending output was written to the socket
deriving DecidableEq, Repr

/-- `ngx_rtmp_reset_ping` (ngx_rtmp_handler.c:131-147). -/
def resetPing (c : Cfg) (s : St) : St :=
  if c.ping = 0 then s else { s with active := false, reset := false, timer := some c.ping }

/-- ngx_rtmp_handler.c:278 and :762 -/
def io (s : St) (_ : Io) : St := if s.dropped then s else { s with reset := true }

/-- `ngx_rtmp_ping` (ngx_rtmp_handler.c:150-190). `sendOk`: `ngx_rtmp_send_ping_request` succeeded. A session
that has been dropped has no timer any more. -/
def timer (c : Cfg) (sendOk : Bool) (s : St) : St :=
  if s.dropped then s
  else
    let s := { s with timer := none }
    if s.reset then resetPing c s
    else if s.active then { s with dropped := true }
    else if c.busy then { s with dropped := true }
    else if !sendOk then { s with dropped := true }
    else { s with active := true, pings := s.pings + 1, timer := some c.pingTimeout }

/-- `ngx_rtmp_cycle` (ngx_rtmp_handler.c:82-101) arms the first timer. -/
def init (c : Cfg) : St := resetPing c {}

/-- A window is the traffic between two expirations of the timer, followed by the expiration. -/
def window (c : Cfg) (sendOk : Bool) (s : St) (w : List Io) : St := timer c sendOk (w.foldl io s)

def run (c : Cfg) (ws : List (List Io)) : St := ws.foldl (window c true) (init c)

end Verif.Ping
