import Verif.Base.Bytes
/-
Model of the RTMP chunk receiver `ngx_rtmp_recv` (ngx_rtmp_handler.c:193-508), of `ngx_rtmp_alloc_in_buf` (:104-128)
and `ngx_rtmp_set_chunk_size` / `ngx_rtmp_finalize_set_chunk_size` (:889-966).

Representation.
* The input buffer being filled is the byte string `buf` = [b->start, b->last) and the offset `pos` = b->pos - b->start.
  Its capacity is `chunk + 18` (`ngx_rtmp_alloc_in_buf`): buffers on the free chain of stream #0 come from the current pool,
  `ngx_rtmp_set_chunk_size` empties that chain when it switches pools.
* The circular chain `st->in` of a stream holds the payloads of the complete chunks of the unfinished message:
  `frags`, oldest first.
* The message handlers are an arbitrary function on an arbitrary state σ; besides failing they may ask for a
  new incoming chunk size. A message is given to them as header and concatenated payload (the chain boundaries
  seen by handlers are the subject of C13 and C18).
* Not modelled here: allocation failure, byte counters and acknowledgements (AckModel), ping flag (PingModel), `fast_reload`.
-/
namespace Verif.Chunk

/-- `ngx_rtmp_header_t` (ngx_rtmp.h:165-171) -/
structure Hdr where
  csid : Nat := 0
  ts : Nat := 0      -- uint32_t
  mlen : Nat := 0    -- uint32_t
  type : Nat := 0    -- uint8_t
  msid : Nat := 0    -- uint32_t
deriving DecidableEq, Repr

/-- `ngx_rtmp_stream_t` (ngx_rtmp.h:174-181) -/
structure Stream where
  hdr : Hdr := {}
  dtime : Nat := 0      -- uint32_t
  len : Nat := 0        -- uint32_t
  ext : Bool := false
  lastExt : Nat := 0    -- uint32_t
  frags : List Bytes := []
deriving DecidableEq, Repr

/-- Settings of `ngx_rtmp_core_srv_conf_t` used by the receiver. -/
structure Cfg where
  maxStreams : Nat
  maxMessage : Nat
  publishTimeFix : Bool
deriving DecidableEq, Repr

/-- `NGX_RTMP_MAX_CHUNK_HEADER` (ngx_rtmp.h:127) -/
def MAX_HEADER : Nat := 18

/-- Receiver state. -/
structure Sess where
  chunk : Nat
  streams : Nat → Stream
  inCsid : Nat
  buf : Bytes
  pos : Nat

/-- `ngx_rtmp_create_session` (ngx_rtmp_init.c:700-787) with `ngx_rtmp_set_chunk_size(s, NGX_RTMP_DEFAULT_CHUNK_SIZE)`. -/
def Sess.init (chunk : Nat := 128) : Sess := ⟨chunk, fun _ => {}, 0, [], 0⟩

def Sess.setStream (s : Sess) (i : Nat) (st : Stream) : Sess :=
  { s with streams := fun j => if j = i then st else s.streams j }

/-- Chunk basic header (ngx_rtmp_handler.c:312-330): format, chunk stream id and the bytes after it;
`none` = not enough bytes. -/
def parseBasic : Bytes → Option (Nat × Nat × Bytes)
  | [] => none
  | b0 :: r =>
    let fmt := b0.toNat / 64
    let c := b0.toNat % 64
    if c = 0 then
      match r with
      | b1 :: r => some (fmt, 64 + b1.toNat, r)
      | _ => none
    else if c = 1 then
      match r with
      | b1 :: b2 :: r => some (fmt, 64 + b1.toNat + 256 * b2.toNat, r)
      | _ => none
    else some (fmt, c, r)

/-- Message header (ngx_rtmp_handler.c:369-411): the header structure is updated as far as bytes are available;
the second component is the 24-bit timestamp field (or the stored delta for format 3), the extended flag and the bytes after it. -/
def parseMsgHdr (fmt : Nat) (st : Stream) (r : Bytes) : Hdr × Option (Nat × Bool × Bytes) :=
  if fmt ≤ 2 then
    match r with
    | t2 :: t1 :: t0 :: r =>
      let ts := beDec [t2, t1, t0]
      let ext := ts == 0xffffff
      if fmt ≤ 1 then
        match r with
        | m2 :: m1 :: m0 :: ty :: r =>
          let h := { st.hdr with mlen := beDec [m2, m1, m0], type := ty.toNat }
          if fmt = 0 then
            match r with
            | s0 :: s1 :: s2 :: s3 :: r => ({ h with msid := leDec [s0, s1, s2, s3] }, some (ts, ext, r))
            | _ => (h, none)
          else (h, some (ts, ext, r))
        | _ => (st.hdr, none)
      else (st.hdr, some (ts, ext, r))
    | _ => (st.hdr, none)
  else (st.hdr, some (st.dtime, st.ext, r))

/-- Extended timestamp (ngx_rtmp_handler.c:413-431): resulting timestamp, flag, last_extimestamp and remaining bytes. -/
def parseExt (fmt lastExt : Nat) (ts : Nat) (ext : Bool) (r : Bytes) : Option (Nat × Bool × Nat × Bytes) :=
  if ext then
    match r with
    | e3 :: e2 :: e1 :: e0 :: r' =>
      let v := beDec [e3, e2, e1, e0]
      if v ≠ lastExt ∧ fmt = 3 then some (ts, false, lastExt, r)
      else some (v, true, v, r')
    | _ => none
  else some (ts, false, lastExt, r)

/-- ngx_rtmp_handler.c:433-446 -/
def applyTime (cfg : Cfg) (fmt ts : Nat) (ext : Bool) (st : Stream) : Stream :=
  if st.len = 0 then
    let st := { st with ext := ext && cfg.publishTimeFix }
    if fmt ≠ 0 then { st with dtime := ts }
    else { st with hdr := { st.hdr with ts := ts }, dtime := 0 }
  else st

/-- Result of the header stage. -/
inductive HdrRes where
  | more (s : Sess)    -- `continue`: wait for more bytes
  | bad                -- session finalized
  | done (s : Sess)    -- header complete, `pos` set

/-- "link orphan" (ngx_rtmp_handler.c:346-364) -/
def link (s : Sess) (csid : Nat) : Sess :=
  if s.inCsid = 0 then
    let st := s.streams csid
    { s with inCsid := csid }.setStream csid { st with hdr := { st.hdr with csid := csid } }
  else s

/-- Header stage of `ngx_rtmp_recv` (ngx_rtmp_handler.c:308-466). -/
def parseHeader (cfg : Cfg) (s : Sess) : HdrRes :=
  match parseBasic s.buf with
  | none => .more s
  | some (fmt, csid, r1) =>
    if csid ≥ cfg.maxStreams then .bad
    else
      let s := link s csid
      let st := s.streams s.inCsid
      match parseMsgHdr fmt st r1 with
      | (h, none) => .more (s.setStream s.inCsid { st with hdr := h })
      | (h, some (ts, ext, r2)) =>
        let st := { st with hdr := h }
        match parseExt fmt st.lastExt ts ext r2 with
        | none => .more (s.setStream s.inCsid st)
        | some (ts, ext, lastExt, r3) =>
          let st := applyTime cfg fmt ts ext { st with lastExt := lastExt }
          if st.hdr.mlen > cfg.maxMessage then .bad
          else .done { s.setStream s.inCsid st with pos := s.buf.length - r3.length }

/-- A delivered message. -/
structure Msg where
  hdr : Hdr
  payload : Bytes
deriving DecidableEq, Repr

/-- What the message handlers answer. -/
inductive HRc where
  | fail
  | ok
  | newChunk (size : Nat)   -- OK, and `ngx_rtmp_set_chunk_size` was called
deriving DecidableEq, Repr

/-- Copy loop of `ngx_rtmp_set_chunk_size` for one stream (ngx_rtmp_handler.c:925-950): `bo` are the bytes
counted in the output buffer being filled. In the branch for a fragment that does not fit, the bytes that fit are copied
and skipped in the input, but `bo->last` is not advanced, so they are not part of the output (lines 944-945).
`fuel` bounds the loop: every turn consumes input bytes or a fragment. -/
def copyFrags (cap : Nat) : Nat → Bytes → List Bytes → List Bytes
  | 0, bo, _ => [bo]
  | _ + 1, bo, [] => [bo]
  | n + 1, bo, bi :: rest =>
    if cap - bo.length ≥ bi.length then copyFrags cap n (bo ++ bi) rest
    else bo :: copyFrags cap n [] (bi.drop (cap - bo.length) :: rest)

/-- Enough turns for the loop above. -/
def copyFuel (frags : List Bytes) : Nat := frags.length + frags.flatten.length + 1

/-- `ngx_rtmp_set_chunk_size` (ngx_rtmp_handler.c:889-954) as called from the message handler; the stream that
delivered the message has an empty chain by then. -/
def setChunkSize (s : Sess) (size : Nat) : Sess :=
  { s with
    chunk := size
    streams := fun i =>
      let st := s.streams i
      if st.frags = [] then st
      else { st with frags := copyFrags (size + MAX_HEADER) (copyFuel st.frags) [] st.frags } }

/-- Result of one turn of the loop. -/
inductive Res (σ : Type) where
  | more (x : σ) (s : Sess)   -- wait for more bytes, buffer kept
  | err (x : σ)               -- session finalized
  | next (x : σ) (s : Sess)   -- chunk finished; `buf` are the bytes after it
  | ub                        -- undefined behaviour

variable {σ : Type}

/-- `uint32_t` addition. -/
@[irreducible] def add32 (a b : Nat) : Nat := (a + b) % 2 ^ 32

/-- Bytes of the message still missing: `h->mlen - st->len` in `uint32_t` arithmetic (ngx_rtmp_handler.c:462). -/
@[irreducible] def remain (st : Stream) : Nat := (st.hdr.mlen + 2 ^ 32 - st.len) % 2 ^ 32

/-- Payload stage of `ngx_rtmp_recv` (ngx_rtmp_handler.c:462-506). -/
def payloadStage (h : σ → Msg → σ × HRc) (x : σ) (s : Sess) : Res σ :=
  let st := s.streams s.inCsid
  let size := s.buf.length - s.pos
  let fsize := remain st
  if size < min fsize s.chunk then .more x s
  else if fsize > s.chunk then
    let st := { st with
      len := add32 st.len s.chunk
      frags := st.frags ++ [(s.buf.drop s.pos).take s.chunk] }
    .next x { s.setStream s.inCsid st with
      inCsid := 0, buf := s.buf.drop (s.pos + s.chunk), pos := 0 }
  else
    let payload := st.frags.flatten ++ (s.buf.drop s.pos).take fsize
    let hdr := { st.hdr with ts := add32 st.hdr.ts st.dtime }
    let st := { st with hdr := hdr, len := 0, frags := [] }
    let s' := { s.setStream s.inCsid st with
      inCsid := 0, buf := s.buf.drop (s.pos + fsize), pos := 0 }
    match h x ⟨hdr, payload⟩ with
    | (x, .fail) => .err x
    | (x, .ok) => .next x s'
    | (x, .newChunk c) => .next x (setChunkSize s' c)

/-- One turn of the loop after bytes are in the buffer (ngx_rtmp_handler.c:305-506). -/
def process (cfg : Cfg) (h : σ → Msg → σ × HRc) (x : σ) (s : Sess) : Res σ :=
  if s.pos = 0 then
    match parseHeader cfg s with
    | .more s => .more x s
    | .bad => .err x
    | .done s => payloadStage h x s
  else payloadStage h x s

/-- State of the connection between two reads. -/
inductive Out (σ : Type) where
  | idle (x : σ) (s : Sess)   -- waiting for data
  | err (x : σ)               -- finalized because of an error
  | ub                        -- bytes were written past the end of a buffer
  | stuck (x : σ)             -- recv() called with zero room, taken for end of file

/-- "reusing formerly read data" (ngx_rtmp_handler.c:244-254): the bytes after a chunk are moved to the next
buffer, whose capacity is not checked; then the loop processes them without reading. `fuel`: every turn consumes at least
one byte, so the buffer length is enough. -/
def settle (cfg : Cfg) (h : σ → Msg → σ × HRc) : Nat → σ → Sess → Out σ
  | 0, x, s => .idle x s
  | n + 1, x, s =>
    if s.buf = [] then .idle x s
    else
      match process cfg h x s with
      | .more x s => .idle x s
      | .err x => .err x
      | .ub => .ub
      | .next x s =>
        if s.buf.length > s.chunk + MAX_HEADER then .ub
        else settle cfg h n x s

/-- The read loop: `segs` are the byte strings that become available at the socket in turn; each `recv` call takes at most
the free room of the buffer (ngx_rtmp_handler.c:256-303). Ends when the input is exhausted (NGX_AGAIN).
`fuel`: every turn takes at least one byte or one exhausted segment. -/
def recvLoop (cfg : Cfg) (h : σ → Msg → σ × HRc) : Nat → σ → Sess → List Bytes → Out σ
  | 0, x, s, _ => .idle x s
  | _ + 1, x, s, [] => .idle x s
  | n + 1, x, s, seg :: segs =>
    if seg = [] then recvLoop cfg h n x s segs
    else
      let room := s.chunk + MAX_HEADER - s.buf.length
      if room = 0 then .stuck x
      else
        let s := { s with buf := s.buf ++ seg.take room }
        match settle cfg h s.buf.length x s with
        | .idle x s => recvLoop cfg h n x s (seg.drop room :: segs)
        | r => r

/-- Enough turns. -/
def recvFuel (segs : List Bytes) : Nat := 2 * segs.flatten.length + segs.length + 1

/-- The whole connection from the initial state. -/
def recvAll (cfg : Cfg) (h : σ → Msg → σ × HRc) (x : σ) (s : Sess) (segs : List Bytes) : Out σ :=
  recvLoop cfg h (recvFuel segs) x s segs

end Verif.Chunk
