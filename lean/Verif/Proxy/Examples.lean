import Verif.Proxy.Props
/-
C82: cases that meet the hypotheses.
-/
namespace Verif.Proxy

open Verif.Access

/-- 10.1.2.3, as nginx reads it; other text is no address. -/
def exCore : Core where
  conv := fun t => if t = [0x31, 0x30, 0x2e, 0x31, 0x2e, 0x32, 0x2e, 0x33] then some ((Peer.v4 0x0a010203).sockaddr [2, 0, 0, 0] []) else none
  ntop := fun _ => [0x31, 0x30, 0x2e, 0x31, 0x2e, 0x32, 0x2e, 0x33]

/-- The proxy: 11.0.0.1 -/
def exProxy : Sockaddr := (Peer.v4 0x0b000001).sockaddr [2, 0, 7, 0x8f] []

def exClient : Sockaddr := (Peer.v4 0x0a010203).sockaddr [2, 0, 0, 0] []

/-- `PROXY TCP4 10.1.2.3 10.0.0.1 5000 1935` -/
def exLine : Bytes := proxyW ++ Family.text .tcp4 ++ 0x20 :: [0x31, 0x30, 0x2e, 0x31, 0x2e, 0x32, 0x2e, 0x33] ++ 0x20 :: [0x31, 0x30, 0x2e, 0x30, 0x2e, 0x30, 0x2e, 0x31] ++ 0x20 :: [0x35, 0x30, 0x30, 0x30] ++ 0x20 :: [0x31, 0x39, 0x33, 0x35] ++ crlfW

theorem exLine_header : Header exCore.conv exLine (some exClient) :=
  .tcp .tcp4 [0x31, 0x30, 0x2e, 0x31, 0x2e, 0x32, 0x2e, 0x33] [0x31, 0x30, 0x2e, 0x30, 0x2e, 0x30, 0x2e, 0x31] [0x35, 0x30, 0x30, 0x30] [0x31, 0x39, 0x33, 0x35] exClient
    (by unfold Field; decide) (by unfold Field; decide) (by unfold Field; decide) (by unfold Field; decide) rfl (by decide)

theorem exNtop : ∀ a, some exClient = some a → exCore.ntop a ≠ [] := fun _ _ => by simp [exCore]

-- `C82_header`: the line and the first byte of a handshake
example (g : Nat → UInt8) := C82_header exCore exProxy [0x31, 0x31] 2 exLine [3] (some exClient) exLine_header exNtop g []

-- `C82_exact`
example (g : Nat → UInt8) : (recv exCore (accept exProxy [0x31, 0x31]) (.data (exLine ++ [3]) g)).phase = .handshake [3] :=
  (C82_exact exCore exProxy [0x31, 0x31] (exLine ++ [3]) [3] g).mpr
    ⟨exLine, some exClient, rfl, exLine_header.accepted.2, exLine_header.accepted.1, exNtop, (C82_header exCore exProxy [0x31, 0x31] 0 exLine [3] (some exClient) exLine_header exNtop g []).2⟩

-- `C82_whole`: all but the last byte
example (g : Nat → UInt8) := C82_whole exCore exProxy [0x31, 0x31] exLine (some exClient) exLine_header (exLine.take 39) (List.take_prefix _ _) (by decide) g

-- `C82_other_violation`: `GET / TCP6 10.1.2.3 `
example (g : Nat → UInt8) := C82_other_violation exCore exProxy exClient [0x31, 0x31] [0x47, 0x45, 0x54, 0x20, 0x2f, 0x20] [0x31, 0x30, 0x2e, 0x31, 0x2e, 0x32, 0x2e, 0x33] [3] rfl (by decide) (by decide)
  rfl (by decide) .tcp6 g

/-- C82 fails for access, a case of `C82_access_violation` with `deny publish 10.0.0.0/8`: the client must not publish, and publishes; told directly, it would be denied. -/
theorem C82_denied_violation (g : Nat → UInt8) : ∃ conf : Conf,
    answer conf (some (sessionSockaddr (run exCore (accept exProxy [0x31, 0x31]) [.data (exLine ++ [3]) g]).conn)) .publish = .error ∧
    answer conf (some (run exCore (accept exProxy [0x31, 0x31]) [.data (exLine ++ [3]) g]).kept) .publish = .ok := by
  have h := (C82_header exCore exProxy [0x31, 0x31] 0 exLine [3] (some exClient) exLine_header exNtop g []).2.1
  have h' : (run exCore (accept exProxy [0x31, 0x31]) [.data (exLine ++ [3]) g]).conn = exClient := h
  have hk := C82_access_violation exCore
  refine ⟨{ rules := [⟨0xff000000, 0x0a000000, true, PUBLISH⟩], rules6 := [] }, ?_, ?_⟩
  · rw [h']; decide +kernel
  · rw [hk]; decide +kernel

end Verif.Proxy
