import Verif.Base.Bytes
/-
Model of the RTMP handshake (nginx-rtmp-module/ngx_rtmp_handshake.c).

The handshake buffer is a byte list with the positions `pos` and `last` counted from `start`. Reading or writing outside of it, and a length that
would be negative, is the outcome `none`. HMAC-SHA256 is an arbitrary function of key and message. `rand()` is an arbitrary function of the position
filled. Left out: timers, time-outs, failed allocation, socket errors (they end the session), failure of OpenSSL calls.
-/
namespace Verif.Handshake
open Verif

/-- HMAC-SHA256: key, message -/
abbrev Mac := Bytes → Bytes → Bytes

/-- `ngx_rtmp_server_key`, `ngx_rtmp_client_key` (:37-59): the text, then 32 bytes they have in common. -/
def keyTail : Bytes := [0xF0, 0xEE, 0xC2, 0x4A, 0x80, 0x68, 0xBE, 0xE8, 0x2E, 0x00, 0xD0, 0xD1, 0x02, 0x9E, 0x7E, 0x57, 0x6E, 0xEC, 0x5D, 0x2D, 0x29, 0x80,
  0x6F, 0xAB, 0x93, 0xB8, 0xE6, 0x36, 0xCF, 0xEB, 0x31, 0xAE]
def ascii (s : String) : Bytes := s.toList.map (UInt8.ofNat ·.toNat)
def serverKey : Bytes := ascii "Genuine Adobe Flash Media Server 001" ++ keyTail
def clientKey : Bytes := ascii "Genuine Adobe Flash Player 001" ++ keyTail

/-- (:92-100) -/
def serverPartial : Bytes := serverKey.take 36
def clientPartial : Bytes := clientKey.take 30

/-- (:62-71) -/
def serverVersion : Bytes := [0x0D, 0x0E, 0x0A, 0x0D]
def clientVersion : Bytes := [0x0C, 0x00, 0x0D, 0x0E]

/-- `NGX_RTMP_HANDSHAKE_BUFSIZE`, `NGX_RTMP_HANDSHAKE_CHALLENGE_SIZE` (:75-76) -/
def bufSize : Nat := 3073
def chalSize : Nat := 1537

structure Buf where
  mem : Bytes
  pos : Nat
  last : Nat

/-- Read `n` bytes at `i` -/
def rd (m : Bytes) (i n : Nat) : Option Bytes := if i + n ≤ m.length then some ((m.drop i).take n) else none

/-- Write at `i` -/
def wr (m : Bytes) (i : Nat) (d : Bytes) : Option Bytes := if i + d.length ≤ m.length then some (m.take i ++ d ++ m.drop (i + d.length)) else none

/-- What is fed to the HMAC (:125-135) -/
def digestInput (b : Buf) (skip : Option Nat) : Option Bytes :=
  match skip with
  | some p =>
    if b.pos ≤ p ∧ p ≤ b.last then
      match rd b.mem b.pos (p - b.pos) with
      | none => none
      | some x =>
        if b.last ≠ p + 32 then
          if b.last < p + 32 then none
          else (rd b.mem (p + 32) (b.last - p - 32)).map (x ++ ·)
        else some x
    else rd b.mem b.pos (b.last - b.pos)
  | none => rd b.mem b.pos (b.last - b.pos)

/-- `ngx_rtmp_make_digest` (:103-140) without the store to `dst` -/
def makeDigest (mac : Mac) (key : Bytes) (b : Buf) (skip : Option Nat) : Option Bytes := (digestInput b skip).map (mac key)

/-- Sum of four bytes (:150-153, :176-179) -/
def sum4 (d : Bytes) : Nat := d.foldl (fun a x => a + x.toNat) 0

/-- `ngx_rtmp_find_digest` (:143-166); inner `none`: `NGX_ERROR` -/
def findDigest (mac : Mac) (b : Buf) (key : Bytes) (base : Nat) : Option (Option Nat) :=
  match rd b.mem (b.pos + base) 4 with
  | none => none
  | some d =>
    let offs := sum4 d % 728 + base + 4
    match makeDigest mac key b (some (b.pos + offs)), rd b.mem (b.pos + offs) 32 with
    | some dg, some x => some (if dg = x then some offs else none)
    | _, _ => none

/-- `ngx_rtmp_write_digest` (:169-188) -/
def writeDigest (mac : Mac) (b : Buf) (key : Bytes) (base : Nat) : Option Buf :=
  match rd b.mem (b.pos + base + 8) 4 with
  | none => none
  | some d =>
    let p := b.pos + (sum4 d % 728 + base + 12)
    match makeDigest mac key b (some p) with
    | none => none
    | some dg => (wr b.mem p dg).map ({ b with mem := · })

/-- `ngx_rtmp_fill_random_buffer` (:191-197) -/
def fillRandom (rnd : Nat → UInt8) (b : Buf) (e : Nat) : Option Buf :=
  if b.last ≤ e then (wr b.mem b.last ((List.range (e - b.last)).map fun i => rnd (b.last + i))).map fun m => { b with mem := m, last := e }
  else none

/-- A copy at `last` (:268-270) -/
def put (b : Buf) (d : Bytes) : Option Buf := (wr b.mem b.last d).map fun m => { b with mem := m, last := b.last + d.length }

/-- `ngx_rtmp_handshake_create_challenge` (:258-278) -/
def createChallenge (mac : Mac) (epoch : Nat) (rnd : Nat → UInt8) (version key : Bytes) (b : Buf) : Option Buf := do
  let b := { b with pos := 0, last := 0 }
  let b ← put b [3]
  let b ← put b (beEnc 4 epoch)
  let b ← put b version
  let b ← fillRandom rnd b chalSize
  let b := { b with pos := b.pos + 1 }
  let b ← writeDigest mac b key 0
  return { b with pos := b.pos - 1 }

/-- What the session keeps: `hs_buf`, `hs_old`, `hs_digest`, `peer_epoch` (ngx_rtmp.h:342-349) -/
structure Hs where
  b : Buf
  old : Bool := false
  digest : Option Bytes := none
  peerEpoch : Nat := 0

/-- `ngx_rtmp_handshake_parse_challenge` (:281-331); inner `none`: `NGX_ERROR` -/
def parseChallenge (mac : Mac) (peerKey key : Bytes) (h : Hs) : Option (Option Hs) :=
  match rd h.b.mem h.b.pos 9 with
  | none => none
  | some hd =>
    if hd.take 1 ≠ [3] then some none
    else
      let b := { h.b with pos := h.b.pos + 1 }
      let h := { h with b := b, peerEpoch := beDec ((hd.drop 1).take 4) }
      if (hd.drop 5).take 4 = [0, 0, 0, 0] then some (some { h with old := true })
      else
        match findDigest mac b peerKey 772 with
        | none => none
        | some r1 =>
          match (match r1 with | some o => some (some o) | none => findDigest mac b peerKey 8) with
          | none => none
          | some none => some (some { h with old := true })
          | some (some o) =>
            let b := { b with pos := b.pos + o, last := b.pos + o + 32 }
            (makeDigest mac key b none).map fun d => some { h with b := b, digest := some d }

/-- `ngx_rtmp_handshake_create_response` (:334-356) -/
def createResponse (mac : Mac) (rnd : Nat → UInt8) (h : Hs) : Option Hs := do
  let pos := h.b.pos
  let b ← fillRandom rnd { h.b with pos := chalSize } bufSize
  match h.digest with
  | none => return { h with b := { b with pos := pos } }
  | some key =>
    if b.last < 32 then none
    else
      let p := b.last - 32
      let d ← makeDigest mac key b (some p)
      let m ← wr b.mem p d
      return { h with b := { b with mem := m, pos := pos } }

/-! ### The exchange -/

/-- `hs_stage` (:79-89). The stages in which bytes are awaited or being sent, and the two ends. -/
inductive Stage where
  | srvRecvChallenge
  | srvSendChallResp
  | srvRecvResponse
  | srvDone
  | cliSendChallenge
  | cliRecvChallenge
  | cliRecvResponse
  | cliSendResponse
  | cliDone
  | closed
deriving DecidableEq, Repr

/-- What the environment provides: `s->epoch`, the random bytes of the challenge and of the response. -/
structure Env where
  mac : Mac
  epoch : Nat
  rnd1 : Nat → UInt8
  rnd2 : Nat → UInt8

/-- A session in the handshake; `sent` is what it has written to the socket, `taken` what it has read from it. -/
structure St where
  h : Hs
  stage : Stage
  sent : Bytes := []
  taken : Bytes := []

/-- `ngx_rtmp_handshake` (:587-605) with a buffer of any former content (`free_hs`, :212-216) -/
def startServer (mem : Bytes) : St := { h := { b := { mem := mem, pos := bufSize - chalSize, last := bufSize - chalSize } }, stage := .srvRecvChallenge }

/-- `ngx_rtmp_client_handshake` (:608-640) -/
def startClient (e : Env) (mem : Bytes) : Option St :=
  (createChallenge e.mac e.epoch e.rnd1 clientVersion clientPartial { mem := mem, pos := 0, last := 0 }).map fun b =>
    { h := { b := b }, stage := .cliSendChallenge }

/-- The buffer is full (:435-504) -/
def received (e : Env) (s : St) : Option St :=
  match s.stage with
  | .srvRecvChallenge =>
    match parseChallenge e.mac clientPartial serverKey s.h with
    | none => none
    | some none => some { s with stage := .closed }
    | some (some h) =>
      match createChallenge e.mac e.epoch e.rnd1 serverVersion serverPartial h.b with
      | none => none
      | some b =>
        if h.old then some { s with h := { h with b := { b with last := bufSize } }, stage := .srvSendChallResp }
        else (createResponse e.mac e.rnd2 { h with b := b }).map fun h => { s with h := h, stage := .srvSendChallResp }
  | .srvRecvResponse => some { s with stage := .srvDone }
  | .cliRecvChallenge =>
    match parseChallenge e.mac serverPartial clientKey s.h with
    | none => none
    | some none => some { s with stage := .closed }
    | some (some h) => some { s with h := { h with b := { h.b with pos := chalSize, last := chalSize } }, stage := .cliRecvResponse }
  | .cliRecvResponse => (createResponse e.mac e.rnd2 s.h).map fun h => { s with h := h, stage := .cliSendResponse }
  | _ => some s

/-- Everything is sent (:562-583) -/
def flushed (s : St) : St :=
  match s.stage with
  | .srvSendChallResp => { s with h := { s.h with b := { s.h.b with last := chalSize } }, stage := .srvRecvResponse }
  | .cliSendChallenge =>
    { s with h := { s.h with b := { s.h.b with pos := bufSize - chalSize, last := bufSize - chalSize } }, stage := .cliRecvChallenge }
  | .cliSendResponse => { s with stage := .cliDone }
  | _ => s

def Stage.receiving : Stage → Bool
  | .srvRecvChallenge | .srvRecvResponse | .cliRecvChallenge | .cliRecvResponse => true
  | _ => false

def Stage.sending : Stage → Bool
  | .srvSendChallResp | .cliSendChallenge | .cliSendResponse => true
  | _ => false

/-- One successful call of `c->recv` with the bytes `d` (:410-429): no more than asked for. Then `received` when the buffer is full. -/
def recv (e : Env) (s : St) (d : Bytes) : Option St :=
  match wr s.h.b.mem s.h.b.last d with
  | none => none
  | some m =>
    let s := { s with h := { s.h with b := { s.h.b with mem := m, last := s.h.b.last + d.length } }, taken := s.taken ++ d }
    if s.h.b.last = bufSize then received e s else some s

/-- One successful call of `c->send` that took `n` bytes (:537-556), then `flushed` when all is gone. -/
def send (s : St) (n : Nat) : Option St :=
  match rd s.h.b.mem s.h.b.pos n with
  | none => none
  | some d =>
    let s := { s with h := { s.h with b := { s.h.b with pos := s.h.b.pos + n } }, sent := s.sent ++ d }
    if s.h.b.pos = s.h.b.last then some (flushed s) else some s

/-- What the socket does. -/
inductive Ev where
  | recv (d : Bytes)
  | send (n : Nat)

/-- The calls the kernel can answer: it is asked in the stages of that kind, and gives or takes between one byte and what was asked for. -/
def Ev.possible (s : St) : Ev → Bool
  | .recv d => s.stage.receiving && decide (1 ≤ d.length ∧ d.length ≤ bufSize - s.h.b.last)
  | .send n => s.stage.sending && decide (1 ≤ n ∧ n ≤ s.h.b.last - s.h.b.pos)

def step (e : Env) (s : St) : Ev → Option St
  | .recv d => recv e s d
  | .send n => send s n

end Verif.Handshake
