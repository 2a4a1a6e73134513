import Verif.Proxy.Spec
import Verif.Rtmp.AccessModel
/-
Model of modules/nginx-rtmp-module/ngx_rtmp_proxy_protocol.c, and of what a session keeps of the address of its peer (ngx_rtmp_init.c:187-213). Line numbers without a file are those of
ngx_rtmp_proxy_protocol.c.

`ngx_parse_addr` and `ngx_sock_ntop` are nginx core: parameters. Memory can be had. Timers and the registration of events are not modelled: an event says what was found.
-/
namespace Verif.Proxy

open Verif.Access (Sockaddr sessionSockaddr)

/-- Functions of nginx core: an address out of text, and its text without port (empty if it cannot be had) -/
structure Core where
  conv : Bytes → Option Sockaddr
  ntop : Sockaddr → Bytes

/-- Reading outside of the buffer (`bad`), `bad_header`, or an address and how much is to be taken -/
inductive Out where
  | bad
  | refused
  | taken (addr : Option Sockaddr) (n : Nat)

/-- `ngx_strncmp(b + i, w, len) == 0`; words have no zero in them. `none`: outside of the buffer -/
def eqAt (b : Bytes) (i : Nat) : Bytes → Option Bool
  | [] => some true
  | c :: w =>
    match b[i]? with
    | none => none
    | some x => if x = c then eqAt b (i + 1) w else some false

/-- `ngx_strlchr` of a space in so many bytes (:132) -/
def findSpace (b : Bytes) (p : Nat) : Nat → Option (Option Nat)
  | 0 => some none
  | k + 1 =>
    match b[p]? with
    | none => none
    | some x => if x = 0x20 then some (some p) else findSpace b (p + 1) k

/-- The loop for the end of the line (:147-151), in so many bytes: the place of CR -/
def findEnd (b : Bytes) (p : Nat) : Nat → Option (Option Nat)
  | 0 => some none
  | 1 => some none
  | k + 2 =>
    match b[p]?, b[p + 1]? with
    | some x, some y => if x = 0x0d ∧ y = 0x0a then some (some p) else findEnd b (p + 1) (k + 1)
    | _, _ => none

/-- `skip` (:145-157) -/
def skip (b : Bytes) (p : Nat) (n : Int) (addr : Option Sockaddr) : Out :=
  match findEnd b p n.toNat with
  | none => .bad
  | some none => .refused
  | some (some i) => .taken addr (i + 2)

/-- From the first check to `skip` (:102-143); `b` is `buf`, `n` what `recv` returned. -/
def parse (core : Core) (b : Bytes) (n : Int) : Out :=
  match (if n ≤ 8 then eqAt b 0 proxyW else some true) with
  | none => .bad
  | some false => .refused
  | some true =>
    let n := n - 6
    match (if 7 ≤ n then eqAt b 6 unknownW else some false) with
    | none => .bad
    | some true => skip b 13 (n - 7) none
    | some false =>
      if n < 5 then .refused
      else
        match eqAt b 6 [0x54, 0x43, 0x50], b[9]?, b[10]? with
        | some e, some x, some y =>
          if ¬ e ∨ (x ≠ 0x34 ∧ x ≠ 0x36) ∨ y ≠ 0x20 then .refused
          else
            let n := n - 5
            match findSpace b 11 n.toNat with
            | none => .bad
            | some none => .refused
            | some (some pp) =>
              match core.conv ((b.drop 11).take (pp - 11)) with
              | none => .refused
              | some a => skip b pp (n - (pp - 11 : Nat)) (some a)
        | _, _, _ => .bad

/-- Where a connection is -/
inductive Phase where
  | bad
  | proxy
  /-- `ngx_rtmp_handshake` reads what is left. -/
  | handshake (rest : Bytes)
  | finalized

/-- `c->sockaddr`, `c->addr_text`, `s->sockaddr`, `s->remote_addr_text` -/
structure Sess where
  conn : Sockaddr
  connText : Bytes
  kept : Sockaddr
  keptText : Bytes
  phase : Phase

/-- `ngx_rtmp_init_connection` (ngx_rtmp_init.c:187-213) where `proxy_protocol` is set -/
def accept (sa : Sockaddr) (text : Bytes) : Sess := ⟨sa, text, sessionSockaddr sa, text, .proxy⟩

/-- What is found when the handler is called: the timer, EAGAIN, another error, or what has arrived (nothing if the peer has closed). `buf` has something in it before (`garbage`). -/
inductive Ev where
  | timedout
  | again
  | error
  | data (arrived : Bytes) (garbage : Nat → UInt8)

/-- `buf` after `recv` with MSG_PEEK (:80): 107 bytes -/
def peek (arrived : Bytes) (garbage : Nat → UInt8) : Bytes := arrived.take 107 ++ (List.range (107 - (arrived.take 107).length)).map garbage

/-- `ngx_rtmp_proxy_protocol_recv` (:50-197); `c->recv` gets what was seen. -/
def recv (core : Core) (s : Sess) (ev : Ev) : Sess :=
  match s.phase with
  | .proxy =>
    match ev with
    | .timedout => { s with phase := .finalized }
    | .again => s
    | .error => { s with phase := .finalized }
    | .data arrived garbage =>
      match parse core (peek arrived garbage) (arrived.take 107).length with
      | .bad => { s with phase := .bad }
      | .refused => { s with phase := .finalized }
      | .taken none n => { s with phase := .handshake (arrived.drop n) }
      | .taken (some a) n =>
        if core.ntop a = [] then { s with phase := .finalized } else { s with conn := a, connText := core.ntop a, phase := .handshake (arrived.drop n) }
  | _ => s

def run (core : Core) (s : Sess) (l : List Ev) : Sess := l.foldl (recv core) s

end Verif.Proxy
