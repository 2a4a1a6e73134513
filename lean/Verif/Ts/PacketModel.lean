import Verif.Base.Bytes
/-
Model of the MPEG-TS packetiser: `ngx_rtmp_mpegts_write_frame` (hls/ngx_rtmp_mpegts.c:358-482) and its copy
`ngx_mpegts_live_shared_append_chain` (mpegts/ngx_mpegts_live_module.c:224-367), with the PTS and PCR writers
(hls/ngx_rtmp_mpegts.c:324-355, identical in mpegts/ngx_mpegts_live_module.c:192-222), and the callers' continuity counters.

The 188-byte array `packet` is represented by the list of its bytes before the write pointer `p`; `ngx_movemem` and
`ngx_memset` in the stuffing code become insertion of bytes. Not modelled here: the file writes (see `Ts.File`), allocation
failure of the chain buffers.
-/
namespace Verif.Ts
open Verif

/-- `ngx_rtmp_mpegts_frame_t` (hls/ngx_rtmp_mpegts.h:39-46) without the counter. `pts`, `dts` are uint64_t. -/
structure Frame where
  pts : Nat
  dts : Nat
  pid : Nat
  sid : Nat
  key : Bool
deriving DecidableEq, Repr

/-- NGX_RTMP_HLS_DELAY (hls/ngx_rtmp_mpegts.c:73), NGX_RTMP_MEGPTS_DELAY (mpegts/ngx_mpegts_live_module.c:26) -/
def delay : Nat := 63000

/-- `ngx_rtmp_mpegts_write_pcr` (hls/ngx_rtmp_mpegts.c:324-335); the shift to the left is in uint64_t, only the low byte is
kept. -/
def writePcr (pcr : Nat) : Bytes :=
  [UInt8.ofNat (pcr >>> 25), UInt8.ofNat (pcr >>> 17), UInt8.ofNat (pcr >>> 9), UInt8.ofNat (pcr >>> 1),
   UInt8.ofNat (pcr <<< 7 ||| 0x7e), 0]

/-- `ngx_rtmp_mpegts_write_pts` (hls/ngx_rtmp_mpegts.c:338-355) -/
def writePts (fb pts : Nat) : Bytes :=
  let val0 := fb <<< 4 ||| ((pts >>> 30) &&& 0x07) <<< 1 ||| 1
  let val1 := ((pts >>> 15) &&& 0x7fff) <<< 1 ||| 1
  let val2 := (pts &&& 0x7fff) <<< 1 ||| 1
  [UInt8.ofNat val0, UInt8.ofNat (val1 >>> 8), UInt8.ofNat val1, UInt8.ofNat (val2 >>> 8), UInt8.ofNat val2]

/-- PCR given to `write_pcr`: the file writer uses `f->dts - NGX_RTMP_HLS_DELAY` in uint64_t (hls/ngx_rtmp_mpegts.c:402), the
live one `f->dts`, or 0 before the delay (mpegts/ngx_mpegts_live_module.c:282-287). -/
def pcrOf (live : Bool) (dts : Nat) : Nat :=
  if live then (if dts < delay then 0 else dts) else (dts + 2 ^ 64 - delay) % 2 ^ 64

/-- `header_size` and `flags` (hls/ngx_rtmp_mpegts.c:412-418) -/
def hasDts (f : Frame) : Bool := f.dts != f.pts
def headerSize (f : Frame) : Nat := if hasDts f then 10 else 5
def flagsOf (f : Frame) : Nat := if hasDts f then 0xc0 else 0x80

/-- `pes_size` (hls/ngx_rtmp_mpegts.c:420-423) -/
def pesSize (f : Frame) (len : Nat) : Nat :=
  let n := len + headerSize f + 3
  if n > 0xffff then 0 else n

/-- PES header (hls/ngx_rtmp_mpegts.c:405-438); `len` is `b->last - b->pos`. -/
def pesHeader (f : Frame) (len : Nat) : Bytes :=
  [0x00, 0x00, 0x01, UInt8.ofNat f.sid, UInt8.ofNat (pesSize f len >>> 8), UInt8.ofNat (pesSize f len), 0x80,
   UInt8.ofNat (flagsOf f), UInt8.ofNat (headerSize f)]
  ++ writePts (flagsOf f >>> 6) ((f.pts + delay) % 2 ^ 64)
  ++ (if hasDts f then writePts 1 ((f.dts + delay) % 2 ^ 64) else [])

/-- Bytes in front of the body: TS header, adaptation field with PCR and PES header on the first packet
(hls/ngx_rtmp_mpegts.c:378-441). `cc` is the counter after `f->cc++`. -/
def packetHead (live : Bool) (f : Frame) (cc : Nat) (first : Bool) (len : Nat) : Bytes :=
  ([0x47, (if first then UInt8.ofNat (f.pid >>> 8) ||| 0x40 else UInt8.ofNat (f.pid >>> 8)), UInt8.ofNat f.pid,
   (if first && f.key then UInt8.ofNat (0x10 ||| (cc &&& 0x0f)) ||| 0x20 else UInt8.ofNat (0x10 ||| (cc &&& 0x0f)))] : Bytes)
  ++ (if first then
        (if f.key then [7, 0x50] ++ writePcr (pcrOf live f.dts) else []) ++ pesHeader f len
      else [])

/-- The stuffing bytes inserted when there is no adaptation field yet (hls/ngx_rtmp_mpegts.c:467-471). -/
def stuffing (n : Nat) : Bytes :=
  UInt8.ofNat (n - 1) :: (if n ≥ 2 then 0 :: List.replicate (n - 2) 0xff else [])

/-- Stuffing of the last packet by `n` bytes (hls/ngx_rtmp_mpegts.c:449-472). The `[]` cases cannot happen: a head has at
least four bytes and five with the adaptation flag. -/
def stuff (packet : Bytes) (n : Nat) : Bytes :=
  match packet with
  | a :: b :: c :: d :: rest =>
    if d &&& 0x20 ≠ 0 then
      match rest with
      | l :: r => a :: b :: c :: d :: (l + UInt8.ofNat n) :: (r.take l.toNat ++ List.replicate n 0xff ++ r.drop l.toNat)
      | [] => packet
    else a :: b :: c :: (d ||| 0x20) :: (stuffing n ++ rest)
  | _ => packet

theorem packetHead_length (live f cc first len) : (packetHead live f cc first len).length ≤ 31 := by
  unfold packetHead pesHeader writePts writePcr
  cases first <;> cases f.key <;> cases hasDts f <;> simp

/-- The packet loop (hls/ngx_rtmp_mpegts.c:373-480): the packets written and the final value of `f->cc`. -/
def packets (live : Bool) (f : Frame) (cc : Nat) (first : Bool) (data : Bytes) : List Bytes × Nat :=
  if h : data = [] then ([], cc)
  else
    let head := packetHead live f (cc + 1) first data.length
    let body := 188 - head.length
    if body ≤ data.length then
      let r := packets live f (cc + 1) false (data.drop body)
      ((head ++ data.take body) :: r.1, r.2)
    else ([stuff head (body - data.length) ++ data], cc + 1)
termination_by data.length
decreasing_by
  have := packetHead_length live f (cc + 1) first data.length
  have : 0 < data.length := List.length_pos_iff.2 h
  simp only [List.length_drop]; omega

/-- `ngx_rtmp_mpegts_write_frame`: the loop starts with `first = 1` (hls/ngx_rtmp_mpegts.c:371). -/
def writeFrame (live : Bool) (f : Frame) (cc : Nat) (data : Bytes) : List Bytes × Nat := packets live f cc true data

/-! ### Callers -/

/-- `ctx->video_cc`, `ctx->audio_cc` of the muxers. -/
structure Mux where
  videoCc : Nat
  audioCc : Nat
deriving DecidableEq, Repr

/-- A frame given to a muxer. -/
inductive Op where
  | video (pts dts : Nat) (key : Bool) (data : Bytes)
  | audio (pts : Nat) (data : Bytes)
deriving DecidableEq, Repr

/-- The frame description of an operation: PID 0x100, stream id 0xe0 for video (hls/ngx_rtmp_hls_module.c:2261-2266,
mpegts/ngx_mpegts_live_module.c:1357-1362), PID 0x101, stream id 0xc0 and DTS = PTS for audio
(hls/ngx_rtmp_hls_module.c:1800-1804, mpegts/ngx_mpegts_live_module.c:661-666). -/
def Op.frame : Op → Frame
  | .video pts dts key _ => ⟨pts, dts, 0x100, 0xe0, key⟩
  | .audio pts _ => ⟨pts, pts, 0x101, 0xc0, false⟩

def Op.data : Op → Bytes
  | .video _ _ _ d => d
  | .audio _ d => d

/-- Writing one frame: the counter of its stream goes in and comes back (hls/ngx_rtmp_hls_module.c:1802, :1816, :2260, :2298,
mpegts/ngx_mpegts_live_module.c:663, :678, :1356, :1380). -/
def Mux.step (live : Bool) (m : Mux) (o : Op) : Mux × List Bytes :=
  match o with
  | .video .. => let r := writeFrame live o.frame m.videoCc o.data; ({ m with videoCc := r.2 }, r.1)
  | .audio .. => let r := writeFrame live o.frame m.audioCc o.data; ({ m with audioCc := r.2 }, r.1)

/-- All packets written for a sequence of frames. -/
def Mux.run (live : Bool) : Mux → List Op → Mux × List Bytes
  | m, [] => (m, [])
  | m, o :: os =>
    let r := m.step live o
    let q := r.1.run live os
    (q.1, r.2 ++ q.2)

/-- Where the live muxer stores a packet (mpegts/ngx_mpegts_live_module.c:246-256, :362-363): the chain buffers hold
NGX_MPEGTS_BUF_SIZE = 1316 bytes (:24); a packet goes to the last buffer when it has 188 bytes left, else to a new one. -/
def chainAppend (bufs : List Bytes) (packet : Bytes) : List Bytes :=
  match bufs.getLast? with
  | some b => if 1316 - b.length < 188 then bufs ++ [packet] else bufs.dropLast ++ [b ++ packet]
  | none => [packet]

/-- The chain of a new frame (`f->chain == NULL`) after `ngx_mpegts_live_shared_append_chain`; a frame without data gets one
empty buffer (mpegts/ngx_mpegts_live_module.c:237-241, `mandatory` is 1 in all calls). -/
def liveChain (packets : List Bytes) : List Bytes :=
  if packets = [] then [[]] else packets.foldl chainAppend []

end Verif.Ts
