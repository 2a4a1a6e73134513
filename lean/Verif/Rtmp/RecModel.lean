import Verif.Base.Bytes
/-
Model of the FLV recorder, ngx_rtmp_record_module.c: `node_open` (433-585), `node_close` (783-849), `write_header` (241-263),
`write_frame` (870-978), `node_av` (1018-1182), `start`/`stop` (642-698) and the manual `open`/`close` (288-341), for one recorder.
Files are byte strings named by numbers: `make_path` (366-413) is not modelled, the path it gives is an input. `ngx_write_file` is nginx core: it writes
at an explicit offset and advances `file.offset` by what it wrote. Not modelled: notifications, locks, failing `lseek`/`close`.
-/
namespace Verif.Rec
open Verif

/-- The members of `ngx_rtmp_record_app_conf_t` used here; `flags` as Booleans (ngx_rtmp_record_module.h:16-40). -/
structure Conf where
  off : Bool := false
  audio : Bool
  video : Bool
  keyframes : Bool := false
  manual : Bool := false
  maxSize : Nat := 0
  maxFrames : Nat := 0
  interval : Option Nat := none    -- none: NGX_CONF_UNSET
  append : Bool := false
deriving DecidableEq, Repr

/-- `file.fd`: NGX_INVALID_FILE, an open descriptor, or a number that was closed already. -/
inductive Fd where
  | invalid
  | opened (path : Nat)
  | closed (path : Nat)
deriving DecidableEq, Repr

/-- `ngx_rtmp_record_rec_ctx_t` (ngx_rtmp_record_module.h:43-57) without `conf`. -/
structure Node where
  fd : Fd := .invalid
  offset : Nat := 0
  nframes : Nat := 0
  epoch : Nat := 0        -- uint32_t
  timeShift : Nat := 0    -- uint32_t
  last : Nat × Nat := (0, 0)
  failed : Bool := false
  initialized : Bool := false
  aacSent : Bool := false
  avcSent : Bool := false
  keySent : Bool := false
  audio : Bool := false
  video : Bool := false
deriving DecidableEq, Repr

/-- Recorder, file contents (an absent file is empty), number of writes so far. -/
structure S where
  node : Node := {}
  fs : Nat → Bytes := fun _ => []
  writes : Nat := 0

/-- Contents after writing `d` at `off`; a gap is filled with zeros. -/
def put (c : Bytes) (off : Nat) (d : Bytes) : Bytes := c.take off ++ List.replicate (off - c.length) 0 ++ d ++ c.drop (off + d.length)

def setFile (fs : Nat → Bytes) (p : Nat) (c : Bytes) : Nat → Bytes := fun q => if q = p then c else fs q

/-- Outcome of the n-th write: all of it, or an error after some bytes. -/
abbrev Disk := Nat → Option Nat

/-- `ngx_write_file`; `none`: the descriptor was closed before (it may be another file by now). -/
def write (W : Disk) (s : S) (off : Nat) (d : Bytes) : Option (S × Bool) :=
  match s.node.fd with
  | .closed _ => none
  | .invalid => some (s, false)
  | .opened p =>
    let (d, ok) := match W s.writes with
      | none => (d, true)
      | some k => (d.take k, false)
    some ({ node := { s.node with offset := s.node.offset + d.length }, fs := setFile s.fs p (put (s.fs p) off d), writes := s.writes + 1 }, ok)

/-- Header of 13 bytes (ngx_rtmp_record_module.c:244-258). -/
def flvHeader : Bytes := [0x46, 0x4c, 0x56, 0x01, 0x05, 0x00, 0x00, 0x00, 0x09, 0x00, 0x00, 0x00, 0x00]

/-- The av mask (ngx_rtmp_record_module.c:801-809). -/
def avMask (n : Node) : UInt8 := (if n.video then 1 else 0) ||| (if n.audio then 4 else 0)

/-- `ngx_rtmp_record_node_close` (ngx_rtmp_record_module.c:783-849). -/
def nodeClose (W : Disk) (s : S) : Option S :=
  match s.node.fd with
  | .invalid => some s
  | .closed _ => none
  | .opened _ =>
    if s.node.initialized then
      (write W s 4 [avMask s.node]).map fun (s, _) => { s with node := { s.node with fd := .invalid } }
    else some { s with node := { s.node with fd := .invalid } }

/-- `buf[i]` of the append branch, big-endian 32-bit (ngx_rtmp_record_module.c:538-542). -/
def be32 (b : Bytes) : Nat := beDec b

/-- Where to append, and the time of the last tag (ngx_rtmp_record_module.c:504-577). `ngx_read_file` gives fewer bytes at the end and an error for a
negative offset. -/
def appendAt (c : Bytes) : Nat × Nat :=
  let size := c.length
  if size < 4 then (size, 0)
  else
    let tagSize := be32 (c.drop (size - 4))
    if tagSize = 0 ∨ (tagSize + 4) % 2 ^ 32 > size then (0, 0)
    else if tagSize + 4 > size then (size, 0)        -- negative offset
    else
      let buf := (c.drop (size - tagSize - 4)).take 8
      if buf.length ≠ 8 then (size, 0)
      else if tagSize ≠ beDec ((buf.drop 1).take 3) + 11 then (size, 0)
      else (size, beDec (buf.drop 7) * 2 ^ 24 + beDec ((buf.drop 4).take 3))

/-- Environment of an open: path, success, cached time (sec, msec). -/
structure Env where
  path : Nat
  ok : Bool := true
  now : Nat × Nat := (0, 0)
deriving DecidableEq, Repr

/-- `ngx_rtmp_record_node_open` (ngx_rtmp_record_module.c:433-585). -/
def nodeOpen (c : Conf) (e : Env) (s : S) : S :=
  match s.node.fd with
  | .opened _ | .closed _ => s
  | .invalid =>
    if !e.ok then { s with node := { last := e.now, failed := true } }
    else if c.append then
      { s with node := { last := e.now, fd := .opened e.path, offset := (appendAt (s.fs e.path)).1, timeShift := (appendAt (s.fs e.path)).2 } }
    else
      { s with node := { last := e.now, fd := .opened e.path }, fs := setFile s.fs e.path [] }

/-- `((u_char *) &n)[i]`, little-endian machine. -/
def byteAt (n i : Nat) : UInt8 := UInt8.ofNat (n / 256 ^ i)

/-- Time in the file (ngx_rtmp_record_module.c:892-899). -/
def fileTime (epoch ts : Nat) : Nat :=
  let t := (ts + 2 ^ 32 - epoch) % 2 ^ 32
  if t ≥ 2 ^ 31 then 0 else t

/-- The eleven bytes before the payload (ngx_rtmp_record_module.c:902-919). -/
def tagHeader (type mlen ts : Nat) : Bytes :=
  [UInt8.ofNat type, byteAt mlen 2, byteAt mlen 1, byteAt mlen 0, byteAt ts 2, byteAt ts 1, byteAt ts 0, byteAt ts 3, 0, 0, 0]

/-- Payload loop (ngx_rtmp_record_module.c:939-950). -/
def writeBody (W : Disk) : S → List Bytes → Option (S × Bool)
  | s, [] => some (s, true)
  | s, b :: bs =>
    if b = [] then writeBody W s bs
    else
      (write W s s.node.offset b).bind fun (s, ok) => if ok then writeBody W s bs else some (s, false)

/-- `ngx_rtmp_record_write_frame` (ngx_rtmp_record_module.c:870-978). `type`, `ts`, `mlen` are those of the header. -/
def writeFrame (W : Disk) (c : Conf) (s : S) (type ts mlen : Nat) (bufs : List Bytes) (inc : Nat) : Option (S × Bool) :=
  let s := if type = 9 then { s with node := { s.node with video := true } } else { s with node := { s.node with audio := true } }
  let tagSize := (11 + mlen) % 2 ^ 32
  (write W s s.node.offset (tagHeader type mlen (fileTime s.node.epoch ts))).bind fun (s, ok) =>
    if !ok then
      -- the descriptor is closed but stays in the structure
      some ({ s with node := { s.node with failed := true, fd := match s.node.fd with | .opened p => .closed p | fd => fd } }, false)
    else
      (writeBody W s bufs).bind fun (s, ok) =>
        if !ok then some (s, false)
        else
          (write W s s.node.offset [byteAt tagSize 3, byteAt tagSize 2, byteAt tagSize 1, byteAt tagSize 0]).bind fun (s, ok) =>
            if !ok then some (s, false)
            else
              let s := { s with node := { s.node with nframes := s.node.nframes + inc } }
              if (c.maxSize ≠ 0 ∧ s.node.offset ≥ c.maxSize) ∨ (c.maxFrames ≠ 0 ∧ s.node.nframes ≥ c.maxFrames) then
                (nodeClose W s).map fun s => (s, true)
              else some (s, true)

/-- What the recorder reads of the codec context. -/
structure Codec where
  aacHeader : Option (List Bytes) := none
  avcHeader : Option (List Bytes) := none
  h264 : Bool := false     -- video_codec_id == NGX_RTMP_VIDEO_H264
  aac : Bool := false      -- audio_codec_id == NGX_RTMP_AUDIO_AAC
deriving DecidableEq, Repr

/-- An audio or video message. `stale`: the byte at `pos` of an empty first buffer. `env`: what an open would meet now. -/
structure Av where
  type : Nat
  ts : Nat
  mlen : Nat
  bufs : List Bytes
  stale : UInt8 := 0
  codec : Option Codec := none
  env : Env
deriving DecidableEq, Repr

/-- `ngx_rtmp_get_video_frame_type` (ngx_rtmp.h:994-998). -/
def frameType (e : Av) : Nat :=
  match e.bufs with
  | (b :: _) :: _ => b.toNat / 16
  | _ => e.stale.toNat / 16

/-- `ngx_rtmp_is_codec_header` (ngx_rtmp.h:1001-1005). -/
def isCodecHeader (e : Av) : Bool :=
  match e.bufs with
  | (_ :: b :: _) :: _ => b = 0
  | _ => false

def keyframe (e : Av) : Bool := e.type = 9 && frameType e = 1

/-- Interval over (ngx_rtmp_record_module.c:1047-1054). -/
def elapsed (last now : Nat × Nat) (interval : Nat) : Bool :=
  let sec := last.1 + (last.2 + interval) / 1000
  let msec := (last.2 + interval) % 1000
  now.1 > sec || (now.1 = sec && now.2 > msec)

/-- Opening and closing of files by `node_av` (ngx_rtmp_record_module.c:1035-1063). -/
def breakFile (W : Disk) (c : Conf) (e : Av) (s : S) : Option S :=
  let brk := if e.type = 9 then keyframe e else !c.video
  if brk && !c.manual then
    match c.interval with
    | some i => if elapsed s.node.last e.env.now i then (nodeClose W s).map (nodeOpen c e.env) else some s
    | none => if !s.node.failed then some (nodeOpen c e.env s) else some s
  else some s

/-- AAC header (ngx_rtmp_record_module.c:1105-1124); false: return. -/
def writeAac (W : Disk) (c : Conf) (e : Av) (s : S) : Option (S × Bool) :=
  match e.codec.bind Codec.aacHeader with
  | some h =>
    if !s.node.aacSent && c.audio then
      (writeFrame W c s 8 e.ts (h.map List.length).sum h 0).map fun (s, ok) =>
        if ok then ({ s with node := { s.node with aacSent := true } }, true) else (s, false)
    else some (s, true)
  | none => some (s, true)

/-- AVC header (ngx_rtmp_record_module.c:1126-1146). -/
def writeAvc (W : Disk) (c : Conf) (e : Av) (s : S) : Option (S × Bool) :=
  match e.codec.bind Codec.avcHeader with
  | some h =>
    if !s.node.avcSent && (c.video || c.keyframes) then
      (writeFrame W c s 9 e.ts (h.map List.length).sum h 0).map fun (s, ok) =>
        if ok then ({ s with node := { s.node with avcSent := true } }, true) else (s, false)
    else some (s, true)
  | none => some (s, true)

/-- The codec id tests. Without a codec context they fail. -/
def h264 (e : Av) : Bool := e.codec.elim false Codec.h264
def aac (e : Av) : Bool := e.codec.elim false Codec.aac

/-- The frame itself (ngx_rtmp_record_module.c:1149-1181). -/
def writeAv (W : Disk) (c : Conf) (e : Av) (s : S) : Option S :=
  if e.type = 9 then
    if h264 e && !s.node.avcSent then some s
    else
      let s := if frameType e = 1 && ((e.codec.isSome && !h264 e) || !isCodecHeader e) then
        { s with node := { s.node with keySent := true } } else s
      if !s.node.keySent then some s
      else (writeFrame W c s e.type e.ts e.mlen e.bufs 1).map Prod.fst
  else
    if aac e && !s.node.aacSent then some s
    else (writeFrame W c s e.type e.ts e.mlen e.bufs 1).map Prod.fst

/-- `h->timestamp - rctx->time_shift`, 32 bits (ngx_rtmp_record_module.c:1093). -/
def epochOf (ts shift : Nat) : Nat := (ts + 2 ^ 32 - shift) % 2 ^ 32

/-- First message of a file (ngx_rtmp_record_module.c:1090-1101); false: the header could not be written. -/
def beginFile (W : Disk) (e : Av) (s : S) : Option (S × Bool) :=
  if s.node.initialized then some (s, true)
  else
    let s := { s with node := { s.node with initialized := true, epoch := epochOf e.ts s.node.timeShift } }
    if s.node.offset = 0 then write W s 0 flvHeader else some (s, true)

/-- `ngx_rtmp_record_node_av` (ngx_rtmp_record_module.c:1018-1182). -/
def nodeAv (W : Disk) (c : Conf) (e : Av) (s : S) : Option S :=
  if c.off then nodeClose W s
  else
    (breakFile W c e s).bind fun s =>
      let brk := if e.type = 9 then keyframe e else !c.video
      if c.manual && !brk && s.node.nframes = 0 then some s
      else if s.node.fd = .invalid then some s
      else if e.type = 8 && !c.audio then some s
      else if e.type = 9 && !c.video && (!c.keyframes || !keyframe e) then some s
      else
        (beginFile W e s).bind fun (s, ok) =>
          if !ok then nodeClose W s
          else
            (writeAac W c e s).bind fun (s, ok) =>
              if !ok then some s
              else (writeAvc W c e s).bind fun (s, ok) => if !ok then some s else writeAv W c e s

/-- Life of a recorder: publish or stream begin (`start`), audio/video, end of stream (`stop`), and the control interface. -/
inductive Op where
  | start (e : Env)
  | stop
  | open (e : Env)
  | av (e : Av)

def step (W : Disk) (c : Conf) (s : S) : Op → Option S
  | .start e => if c.off || c.manual then some s else some (nodeOpen c e s)
  | .stop => nodeClose W s
  | .open e => some (nodeOpen c e s)
  | .av e => nodeAv W c e s

def run (W : Disk) (c : Conf) (s : S) : List Op → Option S
  | [] => some s
  | o :: os => (step W c s o).bind fun s => run W c s os

end Verif.Rec
