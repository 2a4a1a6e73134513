/-
Model of `ngx_rtmp_update_bandwidth` (ngx_rtmp_bandwidth.c:11-26), structure `ngx_rtmp_bandwidth_t` (ngx_rtmp_bandwidth.h).
-/
namespace Verif.Bandwidth

/-- `NGX_RTMP_BANDWIDTH_INTERVAL` (ngx_rtmp_bandwidth.h) -/
def INTERVAL : Nat := 10

structure Bw where
  bytes : Nat := 0       -- uint64_t
  bandwidth : Nat := 0   -- uint64_t, bytes/sec
  intlEnd : Nat := 0     -- time_t
  intlBytes : Nat := 0   -- uint64_t
deriving DecidableEq, Repr

/-- `ngx_rtmp_update_bandwidth` (ngx_rtmp_bandwidth.c:11-26) at cached time `now` (seconds). -/
def update (bw : Bw) (now n : Nat) : Bw :=
  let bw :=
    if now > bw.intlEnd then
      { bw with
        bandwidth := if now > bw.intlEnd + INTERVAL then 0 else bw.intlBytes / INTERVAL
        intlBytes := 0
        intlEnd := now + INTERVAL }
    else bw
  { bw with bytes := (bw.bytes + n) % 2 ^ 64, intlBytes := (bw.intlBytes + n) % 2 ^ 64 }

/-- A history of updates (time, bytes). -/
def run (h : List (Nat × Nat)) (bw : Bw := {}) : Bw := h.foldl (fun b u => update b u.1 u.2) bw

end Verif.Bandwidth
