import Verif.Rtmp.QueueModel
/-
Model of HTTP-FLV.
Output: `ngx_http_flv_live_prepare_out_chain`, `ngx_http_flv_live_send_header` and `ngx_http_flv_live_write_handler`
(http/ngx_http_flv_live_module.c:102-421) on top of the output queue (QueueModel) and `ngx_rtmp_prepare_merge_frame`
(ngx_rtmp_shared_module.c:86-164).
Input (pull relay): `ngx_live_relay_httpflv_parse` and the loop of `ngx_live_relay_httpflv_recv_body`
(ngx_live_relay_httpflv.c:30-419).
Not modelled: allocation failure, timers, `fast_reload`, the HTTP layer itself (header, transfer coding), byte counters.
-/
namespace Verif.Flv
open Verif Verif.Queue

/-! ### Output -/

/-- The members of `ngx_rtmp_frame_t` used here: `hdr.type` (uint8_t), `hdr.timestamp` (uint32_t), `chain`. -/
structure Frame where
  type : Nat
  ts : Nat
  bufs : List Bytes
deriving DecidableEq, Repr

/-- Frame types with a tag: video, audio, AMF_META, AMF3_META (ngx_http_flv_live_module.c:219-222; ngx_rtmp.h: 9, 8, 18, 15). -/
def wanted (t : Nat) : Bool := !(t != 9 && t != 8 && t != 18 && t != 15)

/-- `((u_char *) &n)[i]` on a little-endian machine. -/
def byteAt (n i : Nat) : UInt8 := UInt8.ofNat (n / 256 ^ i)

/-- The chain built for a frame (ngx_http_flv_live_module.c:239-299). -/
def tagChain (f : Frame) : List Bytes :=
  let datasize := (f.bufs.map List.length).sum
  let prevTagSize := datasize + 11
  [[UInt8.ofNat f.type, byteAt datasize 2, byteAt datasize 1, byteAt datasize 0,
    byteAt f.ts 2, byteAt f.ts 1, byteAt f.ts 0, byteAt f.ts 3, 0, 0, 0]] ++
  f.bufs ++
  [[byteAt prevTagSize 3, byteAt prevTagSize 2, byteAt prevTagSize 1, byteAt prevTagSize 0]]

/-- Skipping loop of `ngx_http_flv_live_prepare_out_chain` (ngx_http_flv_live_module.c:217-237): frames of other types are released.
Result: ring, released frames, frame to send (which stays in the ring). `none`: unset slot, or more turns than `fuel`. -/
def skipLoop : Nat → Ring Frame → List Frame → Option (Ring Frame × List Frame × Option Frame)
  | 0, _, _ => none
  | n + 1, r, rel =>
    if r.pos = r.last then some (r, rel, none)
    else
      match r.slots r.pos with
      | none => none
      | some f =>
        if wanted f.type then some (r, rel, some f)
        else skipLoop n { r with pos := (r.pos + 1) % r.size } (rel ++ [f])

/-- Output side of a player. -/
structure Out where
  ring : Ring Frame
  out : Bytes            -- bytes of `s->out_chain` that are not sent; empty iff NULL
  held : List Frame      -- `prepare_frame[0..nframe)`
  released : List Frame  -- frames given to `ngx_rtmp_shared_free_frame`
  wire : Bytes           -- response body so far
  headerSent : Bool      -- `r->header_sent`
  dead : Bool            -- request finalized

/-- Loop of `ngx_rtmp_prepare_merge_frame` (ngx_rtmp_shared_module.c:104-133) with the FLV `prepare_handler`. -/
def mergeLoop : Nat → Out → Option Out
  | 0, s => some s
  | n + 1, s =>
    if s.ring.pos = s.ring.last then some s
    else
      match skipLoop (s.ring.size + 1) s.ring s.released with
      | none => none
      | some (r, rel, f) =>
        if r.pos = r.last then some { s with ring := r, released := rel }
        else
          match f with
          | none => none     -- not reached: a NULL chain is returned for an empty ring only
          | some f => mergeLoop n { s with
              ring := { r with pos := (r.pos + 1) % r.size }
              released := rel
              out := s.out ++ (tagChain f).flatten
              held := s.held ++ [f] }

/-- `ngx_rtmp_prepare_merge_frame` (ngx_rtmp_shared_module.c:86-138). -/
def prepareMerge (merge : Nat) (s : Out) : Option Out :=
  if s.out ≠ [] then some s
  else mergeLoop merge { s with released := s.released ++ s.held, held := [] }

/-- The three constant headers (ngx_http_flv_live_module.c:24-26) differ in one byte. -/
def flvHeader (flags : UInt8) : Bytes := [0x46, 0x4c, 0x56, 1, flags, 0, 0, 0, 9, 0, 0, 0, 0]

/-- Choice of the header (ngx_http_flv_live_module.c:115-126,147-195): `audio`, `video` from the configuration, `hasA`, `hasV`: the stream has
received audio/video bytes. `none`: 500. -/
def chooseHeader (audio video : Nat) (hasA hasV : Bool) : Option Bytes :=
  match audio ||| (video <<< 1) with
  | 1 => some (flvHeader 4)
  | 2 => some (flvHeader 1)
  | 3 => some (flvHeader 5)
  | _ =>
    if hasA && hasV then some (flvHeader 5)
    else if !hasV && hasA then some (flvHeader 4)
    else if hasV && !hasA then some (flvHeader 1)
    else none

structure Cfg where
  audio : Nat
  video : Nat
  merge : Nat

/-- `ngx_http_flv_live_send_header` (ngx_http_flv_live_module.c:102-203) as called by the write handler (:361-368). -/
def sendHeader (cfg : Cfg) (hasA hasV : Bool) (s : Out) : Out :=
  if s.headerSent then s
  else
    match chooseHeader cfg.audio cfg.video hasA hasV with
    | none => { s with headerSent := true, dead := true }
    | some h => { s with headerSent := true, wire := s.wire ++ h }

/-- Write loop (ngx_http_flv_live_module.c:370-416). The output filter takes all of the chain (NGX_OK) or `k` bytes of it and keeps
the rest for the next write event (NGX_AGAIN). `ks`: what it takes in each turn; no entry means nothing. -/
def writeLoop (merge : Nat) : List Nat → Out → Option Out
  | [], s => some s
  | k :: ks, s =>
    if s.out = [] then some s
    else
      let s' := { s with wire := s.wire ++ s.out.take k, out := s.out.drop k }
      if s'.out = [] then (prepareMerge merge s').bind (writeLoop merge ks) else some s'

/-- `ngx_http_flv_live_write_handler` (ngx_http_flv_live_module.c:312-421). -/
def writeHandler (cfg : Cfg) (hasA hasV : Bool) (ks : List Nat) (s : Out) : Option Out :=
  if s.dead then some s
  else
    (prepareMerge cfg.merge s).bind fun s =>
      if s.out = [] then some s
      else
        let s := sendHeader cfg hasA hasV s
        if s.dead then some s else writeLoop cfg.merge ks s

/-- What happens to a player: a frame is queued (`ngx_rtmp_send_message`), a write event. -/
inductive Op where
  | send (f : Frame) (priority : Nat)
  | write (hasA hasV : Bool) (ks : List Nat)

structure Run where
  s : Out
  accepted : List Frame

def Out.init (size : Nat) : Out := ⟨Ring.init size, [], [], [], [], false, false⟩

def step (cfg : Cfg) (x : Run) : Op → Option Run
  | .send f p =>
    match sendMessage x.s.ring f p with
    | (r, .ok) => some ⟨{ x.s with ring := r }, x.accepted ++ [f]⟩
    | (r, .again) => some ⟨{ x.s with ring := r }, x.accepted⟩
  | .write a v ks => (writeHandler cfg a v ks x.s).map fun s => ⟨s, x.accepted⟩

def run (cfg : Cfg) (x : Run) : List Op → Option Run
  | [] => some x
  | o :: os => (step cfg x o).bind fun x => run cfg x os

/-! ### Input -/

/-- States of the parser (ngx_live_relay_httpflv.c:40-66). -/
inductive St where
  | hF | hFL | hFLV | hVersion | hFlags | hOff0 | hOff1 | hOff2 | hOff3
  | tagsize0 | tagsize1 | tagsize2 | tagsize3 | tagtype
  | datasize0 | datasize1 | datasize2
  | ts0 | ts1 | ts2 | tsExt | sid0 | sid1 | sid2 | data
deriving DecidableEq, Repr

/-- Parser state: members of the session (ngx_rtmp.h:373-379) and of `in_streams[0]`. `β`: the collected payload.
`flv_flags` and `flv_data_offset` are stored and never used. -/
structure P (β : Type) where
  st : St := .hF
  tagsize : Nat := 0      -- flv_tagsize, unsigned
  first : Bool := false   -- flv_first_pts
  type : Nat := 0
  mlen : Nat := 0
  ts : Nat := 0
  msid : Nat := 0
  len : Nat := 0
  inp : β
deriving DecidableEq, Repr

/-- `((u_char *) &n)[i] = b` on a 32-bit unsigned n, little-endian. -/
def setByte (n i : Nat) (b : UInt8) : Nat := n % 256 ^ i + b.toNat * 256 ^ i + n % 2 ^ 32 / 256 ^ (i + 1) * 256 ^ (i + 1)

/-- One byte in a state other than flv_data (ngx_live_relay_httpflv.c:76-305). `none`: NGX_ERROR. -/
def hdrStep {β : Type} (p : P β) (ch : UInt8) : Option (P β) :=
  match p.st with
  | .hF => if ch = 0x46 then some { p with st := .hFL } else none
  | .hFL => if ch = 0x4c then some { p with st := .hFLV } else none
  | .hFLV => if ch = 0x56 then some { p with st := .hVersion } else none
  | .hVersion => if ch ≠ 1 then none else some { p with st := .hFlags }
  | .hFlags => some { p with st := .hOff0 }
  | .hOff0 => some { p with st := .hOff1 }
  | .hOff1 => some { p with st := .hOff2 }
  | .hOff2 => some { p with st := .hOff3 }
  | .hOff3 => some { p with st := .tagsize0 }
  | .tagsize0 => some { p with tagsize := setByte 0 3 ch, st := .tagsize1 }
  | .tagsize1 => some { p with tagsize := setByte p.tagsize 2 ch, st := .tagsize2 }
  | .tagsize2 => some { p with tagsize := setByte p.tagsize 1 ch, st := .tagsize3 }
  | .tagsize3 =>
    let t := setByte p.tagsize 0 ch
    if p.mlen = 0 ∧ p.first = false then
      if t ≠ 0 then none else some { p with tagsize := t, first := true, st := .tagtype }
    else if p.mlen + 11 ≠ t then none
    else some { p with tagsize := t, st := .tagtype }
  | .tagtype =>
    if ch ≠ 18 ∧ ch ≠ 8 ∧ ch ≠ 9 then none else some { p with type := ch.toNat, st := .datasize0 }
  | .datasize0 => some { p with mlen := setByte 0 2 ch, st := .datasize1 }
  | .datasize1 => some { p with mlen := setByte p.mlen 1 ch, st := .datasize2 }
  | .datasize2 => some { p with mlen := setByte p.mlen 0 ch, len := setByte p.mlen 0 ch, st := .ts0 }
  | .ts0 => some { p with ts := setByte p.ts 2 ch, st := .ts1 }
  | .ts1 => some { p with ts := setByte p.ts 1 ch, st := .ts2 }
  | .ts2 => some { p with ts := setByte p.ts 0 ch, st := .tsExt }
  | .tsExt => some { p with ts := setByte p.ts 3 ch, st := .sid0 }
  | .sid0 => some { p with msid := setByte 0 2 ch, st := .sid1 }
  | .sid1 => some { p with msid := setByte p.msid 1 ch, st := .sid2 }
  | .sid2 => some { p with msid := setByte p.msid 0 ch, st := .data }
  | .data => some p     -- not used

/-- Copy loop of state flv_data (ngx_live_relay_httpflv.c:313-333): `done` are the buffers before `*ll`, `rest` those from `*ll` on,
`d` the bytes [p, p + min(st->len, b->last - p)). `none`: more turns than fuel (with chunk size 0 the loop does not end). -/
def fillLoop (chunk : Nat) : Nat → List Bytes → List Bytes → Bytes → Option (List Bytes)
  | 0, _, _, _ => none
  | n + 1, done, rest, d =>
    let b := rest.head?.elim [] id      -- an existing buffer, or a new one
    if chunk - b.length ≥ d.length then some (done ++ [b ++ d] ++ rest.tail)
    else fillLoop chunk n (done ++ [b ++ d.take (chunk - b.length)]) rest.tail (d.drop (chunk - b.length))

/-- Walk to the first buffer which is not full, then copy (ngx_live_relay_httpflv.c:310-333). -/
def fill (chunk : Nat) (inp : List Bytes) (d : Bytes) : Option (List Bytes) :=
  fillLoop chunk (d.length + inp.length + 1) (inp.takeWhile fun b => b.length == chunk) (inp.dropWhile fun b => b.length == chunk) d

inductive Rc where
  | again | ok | error
deriving DecidableEq, Repr

/-- `ngx_live_relay_httpflv_parse` (ngx_live_relay_httpflv.c:30-351) on the unread bytes of a buffer; also returns what is still unread.
On NGX_ERROR the fields written by the failing byte are not recorded (the session ends). `none`: the copy loop does not end. -/
def parse (chunk : Nat) : P (List Bytes) → Bytes → Option (P (List Bytes) × Rc × Bytes)
  | p, [] => some (p, .again, [])
  | p, c :: cs =>
    if p.st = .data then
      let n := min p.len (c :: cs).length
      (fill chunk p.inp ((c :: cs).take n)).map fun inp =>
        if p.len - n ≠ 0 then ({ p with inp := inp, len := p.len - n }, .again, (c :: cs).drop n)
        else ({ p with inp := inp, len := p.len - n, st := .tagsize0 }, .ok, (c :: cs).drop n)
    else
      match hdrStep p c with
      | none => some (p, .error, c :: cs)
      | some p' => parse chunk p' cs

/-- A message given to `ngx_rtmp_receive_message`: header and chain. -/
structure Msg where
  type : Nat
  ts : Nat
  msid : Nat
  mlen : Nat
  bufs : List Bytes
deriving DecidableEq, Repr

/-- Outcome of a run of the receiver. -/
inductive Res (β : Type) where
  | idle (p : P β) (log : List Msg)   -- waiting for more
  | bad (log : List Msg)              -- parse error: request finalized
  | failed (log : List Msg)           -- `ngx_rtmp_receive_message` failed: session finalized
  | stuck
deriving DecidableEq, Repr

/-- Turns of `ngx_live_relay_httpflv_recv_body` (ngx_live_relay_httpflv.c:377-418) on one buffer. `fails log`: the handler does not return NGX_OK
for the last message of `log` (any handler, its state is a function of what it was given). -/
def recvBuf (chunk : Nat) (fails : List Msg → Bool) : Nat → P (List Bytes) → List Msg → Bytes → Res (List Bytes)
  | 0, _, _, _ => .stuck
  | n + 1, p, log, b =>
    match parse chunk p b with
    | none => .stuck
    | some (_, .error, _) => .bad log
    | some (p, .again, _) => .idle p log
    | some (p, .ok, rest) =>
      let log := log ++ [⟨p.type, p.ts, p.msid, p.mlen, p.inp⟩]
      if fails log then .failed log
      else
        let p := { p with inp := [] }
        if rest = [] then .idle p log else recvBuf chunk fails n p log rest

/-- The same over a chain of buffers, and over any number of calls: nothing depends on which call a buffer belongs to. (The `if` at
:378 steps over one exhausted buffer only, but parsing an empty buffer changes nothing.) -/
def recvBufs (chunk : Nat) (fails : List Msg → Bool) : P (List Bytes) → List Msg → List Bytes → Res (List Bytes)
  | p, log, [] => .idle p log
  | p, log, b :: bs =>
    match recvBuf chunk fails (b.length + 2) p log b with
    | .idle p log => recvBufs chunk fails p log bs
    | r => r

/-- A new session (zeroed). -/
def P.init : P (List Bytes) := { inp := [] }

end Verif.Flv
