import Verif.Base.Bytes
import Verif.Rtmp.FrameModel
/-
Model of the protocol and user control messages: constructors (ngx_rtmp_send.c:14-365) and receiving handlers
(ngx_rtmp_receive.c:14-206), with the handler table of `ngx_rtmp_init_event_handlers` (ngx_rtmp.c:420-451).
-/
namespace Verif.Control
open Verif

/-- The constructors `ngx_rtmp_create_*` and their arguments (uint32_t, `limit` uint8_t). -/
inductive Ctl where
  | chunkSize (n : Nat)
  | abort (csid : Nat)
  | ack (seq : Nat)
  | ackSize (n : Nat)
  | bandwidth (n : Nat) (limit : Nat)
  | streamBegin (msid : Nat)
  | streamEof (msid : Nat)
  | streamDry (msid : Nat)
  | setBuflen (msid : Nat) (ms : Nat)
  | recorded (msid : Nat)
  | pingRequest (t : Nat)
  | pingResponse (t : Nat)
deriving DecidableEq, Repr

/-- NGX_RTMP_USER_OUT4 (ngx_rtmp_send.c:40-44) on a little-endian machine. -/
def out4 (v : Nat) : Bytes := beEnc 4 v

/-- NGX_RTMP_UCTL_START (ngx_rtmp_send.c:32-35) -/
def utype (t : Nat) : Bytes := [UInt8.ofNat (t / 256), UInt8.ofNat t]

/-- Message type given to NGX_RTMP_USER_START and bytes written by each constructor
(ngx_rtmp_send.c: chunk_size :68-80, abort :91-105, ack :116-130, ack_size :141-155, bandwidth :166-182, stream_begin :195-208,
stream_eof :219-232, stream_dry :243-256, set_buflen :267-283, recorded :295-308, ping_request :319-332,
ping_response :343-356). -/
def content : Ctl → Nat × Bytes
  | .chunkSize n => (1, out4 n)
  | .abort csid => (1, out4 csid)       -- :101 says NGX_RTMP_MSG_CHUNK_SIZE
  | .ack seq => (3, out4 seq)
  | .ackSize n => (5, out4 n)
  | .bandwidth n l => (6, out4 n ++ [UInt8.ofNat l])
  | .streamBegin m => (4, utype 0 ++ out4 m)
  | .streamEof m => (4, utype 1 ++ out4 m)
  | .streamDry m => (4, utype 2 ++ out4 m)
  | .setBuflen m t => (4, utype 3 ++ out4 m ++ out4 t)
  | .recorded m => (4, utype 4 ++ out4 m)
  | .pingRequest t => (4, utype 6 ++ out4 t)
  | .pingResponse t => (4, utype 7 ++ out4 t)

/-- A constructor: NGX_RTMP_USER_START allocates a frame with one buffer of `chunk_size` bytes and sets `hdr.type` and
`hdr.csid`; the writes are not checked against the capacity (`none`: written past the end). `old` is the header the
frame memory has (`ngx_rtmp_shared_alloc_frame` does not clear a recycled frame). -/
def create (chunkSize : Nat) (old : Frame.Hdr) (c : Ctl) : Option (Frame.Hdr × Bytes) :=
  if (content c).2.length ≤ chunkSize then some ({ old with type := (content c).1, csid := 2 }, (content c).2) else none

/-- What a handler does. -/
inductive Act where
  | ignored
  | error
  | setChunkSize (n : Nat)
  | abort (csid : Nat)
  | ack (seq : Nat)
  | setAckSize (n : Nat)
  | bandwidth (n limit : Nat)
  | streamBegin (msid : Nat)
  | streamEof (msid : Nat)
  | streamDry (msid : Nat)
  | setBuflen (msid ms : Nat)
  | recorded (msid : Nat)
  | sendPingResponse (t : Nat)
  | resetPing
  | nullDeref
deriving DecidableEq, Repr

/-- `ngx_rtmp_protocol_message_handler` (ngx_rtmp_receive.c:14-84). Only the first buffer of the message is looked at.
ABORT, ACK and BANDWIDTH have no effect besides being recognised. -/
def protocolMessage (type : Nat) : List Bytes → Act
  | [] => .nullDeref
  | b :: _ =>
    if b.length < 4 then .ignored
    else
      let val := beDec (b.take 4)
      if type = 1 then .setChunkSize val
      else if type = 2 then .abort val
      else if type = 3 then .ack val
      else if type = 5 then .setAckSize val
      else if type = 6 then
        match b.drop 4 with
        | l :: _ => .bandwidth val l.toNat
        | [] => .ignored
      else .error

/-- `ngx_rtmp_user_message_handler` (ngx_rtmp_receive.c:87-206). -/
def userMessage : List Bytes → Act
  | [] => .nullDeref
  | b :: _ =>
    if b.length < 6 then .ignored
    else
      let evt := beDec (b.take 2)
      let val := beDec ((b.drop 2).take 4)
      if evt = 0 then .streamBegin val
      else if evt = 1 then .streamEof val
      else if evt = 2 then .streamDry val
      else if evt = 3 then
        if b.length < 10 then .ignored else .setBuflen val (beDec ((b.drop 6).take 4))
      else if evt = 4 then .recorded val
      else if evt = 6 then .sendPingResponse val
      else if evt = 7 then .resetPing
      else .ignored

/-- Handlers registered for the control message types (ngx_rtmp.c:420-451). -/
def handle (type : Nat) (bufs : List Bytes) : Act :=
  if type = 1 ∨ type = 2 ∨ type = 3 ∨ type = 5 ∨ type = 6 then protocolMessage type bufs
  else if type = 4 then userMessage bufs
  else .ignored

end Verif.Control
