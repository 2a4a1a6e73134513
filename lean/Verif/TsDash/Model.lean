import Verif.Dash.Mp4Model
import Verif.Codec.Model
import Verif.TsIn.ReadModel
/-
Model of DASH output of nginx-ts-module: src/ngx_ts_dash.c (how units become samples, segments and the ring of segments) and src/ngx_ts_dash_mp4.c (media segments).

A writer has a buffer of some size and the bytes that are in it; what does not fit is left out. Media segments are chains of buffers of 1024 bytes; that of the meta data is a list of buffers, as
durations are written into it later by way of pointers; that of the data is its bytes, as it is only ever added to (and its first four bytes are set). Files can be written, memory can be had.
Counters of type `ngx_uint_t` do not overflow. `none` is a crash (null pointer, outside of a buffer, division by zero, undefined shift) or an endless loop.
-/
namespace Verif.TsDash
open Verif Verif.TsIn
open Verif.Mp4 (tag overwrite)

/-! ### Writers (ngx_ts_dash_mp4.c) -/

/-- `ngx_ts_dash_subs_t` (ngx_ts_dash.h:35-48): offsets in the first buffer of the meta data, or (`mdat`) of the data; `sampleDuration` is a buffer and an offset in it. -/
structure Subs where
  dts : Nat := 0
  pts : Nat := 0
  seq : Nat := 0
  duration : Nat := 0
  sampleDuration : Option (Nat × Nat) := none
  nsamples : Nat := 0
  traf : Nat := 0
  trun : Nat := 0
  moof : Nat := 0
  moofMdat : Nat := 0
  moofData : Nat := 0
  mdat : Nat := 0
  deriving DecidableEq

/-- What is in the buffer and the pointers that were noted -/
structure Out where
  b : Bytes := []
  subs : Subs := {}
  deriving DecidableEq

/-- A writer knows the size of the buffer. -/
abbrev W := Nat → Out → Out

def W.seq (a b : W) : W := fun cap o => b cap (a cap o)
infixl:65 " ;; " => W.seq

def nop : W := fun _ o => o

/-- `ngx_ts_dash_cpymem` (:1138-1146), `ngx_ts_dash_write64`, `32`, `24`, `16`, `8` (:1149-1199): up to the end of the buffer -/
def data (x : Bytes) : W := fun cap o => { o with b := o.b ++ x.take (cap - o.b.length) }

def f64 (n : Nat) : W := data (beEnc 8 n)
def f32 (n : Nat) : W := data (beEnc 4 n)
def f24 (n : Nat) : W := data (beEnc 3 n)
def f16 (n : Nat) : W := data (beEnc 2 n)
def f8 (n : Nat) : W := data (beEnc 1 n)

/-- `ngx_ts_dash_set_sub` (:1299-1303) -/
def sub (f : Nat → Subs → Subs) : W := fun _ o => { o with subs := f o.b.length o.subs }

/-- `ngx_ts_dash_box` (:933-953), what is inside, `ngx_ts_dash_box_update` (:980-995) -/
def box (t : Bytes) (body : W) : W := fun cap o =>
  let o' := (f32 0 ;; data t ;; body) cap o
  if o.b.length + 4 > cap then o' else { o' with b := overwrite o'.b o.b.length (beEnc 4 (o'.b.length - o.b.length)) }

/-- `ngx_ts_dash_box_full` (:956-977) -/
def full (t : Bytes) (version flags : Nat) (body : W) : W := box t (f8 version ;; f24 flags ;; body)

/-- `ngx_ts_dash_box_styp` (:97-123) -/
def styp : W := box (tag "styp") (data (tag "iso6") ;; f32 1 ;; data (tag "isom") ;; data (tag "iso6") ;; data (tag "dash"))

/-- `ngx_ts_dash_box_sidx` (:126-166) -/
def sidx : W := full (tag "sidx") 1 0 (f32 1 ;; f32 90000 ;; sub (fun p s => { s with pts := p }) ;; f64 0 ;; f64 0 ;; f32 1 ;; sub (fun p s => { s with moofMdat := p }) ;; f32 0 ;;
  sub (fun p s => { s with duration := p }) ;; f32 0 ;; f32 0x80000000)

/-- `ngx_ts_dash_box_mfhd` (:185-197) -/
def mfhd : W := full (tag "mfhd") 0 0 (sub (fun p s => { s with seq := p }) ;; f32 0)

/-- `ngx_ts_dash_box_tfhd` (:217-228) -/
def tfhd : W := full (tag "tfhd") 0 0 (f32 1)

/-- `ngx_ts_dash_box_tfdt` (:231-248) -/
def tfdt : W := full (tag "tfdt") 1 0 (sub (fun p s => { s with dts := p }) ;; f64 0)

/-- `ngx_ts_dash_box_trun` (:251-279) -/
def trun (video : Bool) : W := sub (fun p s => { s with trun := p }) ;; full (tag "trun") 0 (if video then 0xf01 else 0x301)
  (sub (fun p s => { s with nsamples := p }) ;; f32 0 ;; sub (fun p s => { s with moofData := p }) ;; f32 0)

/-- `ngx_ts_dash_box_traf` (:200-214) -/
def traf (video : Bool) : W := sub (fun p s => { s with traf := p }) ;; box (tag "traf") (tfhd ;; tfdt ;; trun video)

/-- `ngx_ts_dash_box_moof` (:169-182) -/
def moof (video : Bool) : W := sub (fun p s => { s with moof := p }) ;; box (tag "moof") (mfhd ;; traf video)

/-- `ngx_ts_dash_box_mdat` (:282-292) -/
def mdat : W := sub (fun p s => { s with mdat := p }) ;; box (tag "mdat") nop

/-- NGX_TS_DASH_BUFFER_SIZE (:12) -/
def bufSize : Nat := 1024

/-! ### A representation (ngx_ts_dash.h:51-87) -/

/-- `ngx_ts_dash_conf_t` (ngx_ts_dash.h:19-26): times in milliseconds; 0 is no limit of the size. Defaults from ngx_ts_dash.c:1267-1273, 1407 -/
structure Conf where
  minSeg : Nat := 5000
  maxSeg : Nat := 10000
  analyze : Nat := 5000
  maxSize : Nat := 16 * 1024 * 1024
  nsegs : Nat := 6

/-- `ngx_ts_dash_segment_t` (ngx_ts_dash.h:29-32) -/
structure Seg where
  start : Nat := 0
  duration : Nat := 0
  deriving DecidableEq

/-- `ngx_ts_dash_rep_t`. `buf` is the chain `meta`, `none` if there is none. `files` are all segments that were written: the number in the name, and what is in it. -/
structure Rep where
  type : Nat
  video : Bool
  segs : List Seg
  seg : Nat := 0
  segPts : Nat := 0
  segDts : Nat := 0
  dts : Nat := 0
  bandwidth : Nat := 0
  bwBytes : Nat := 0
  bwDts : Nat := 0
  sps : Option Bytes := none
  pps : Option Bytes := none
  avc : Option Codec.Avc := none
  aac : Option Codec.Aac := none
  buf : Option (List Bytes) := none
  data : Bytes := []
  nsamples : Nat := 0
  nmeta : Nat := 0
  ndata : Nat := 0
  subs : Subs := {}
  files : List (Nat × Bytes) := []
  deriving DecidableEq

/-- A number minus a number, as an unsigned of `k` bits -/
def diffU (k a b : Nat) : Nat := (((a : Int) - b) % (2 ^ k : Nat)).toNat

/-- `ngx_ts_dash_start_segment` (ngx_ts_dash_mp4.c:1202-1246); false is NGX_ERROR -/
def startSegment (r : Rep) : Rep × Bool :=
  let m := (styp ;; sidx ;; moof r.video) bufSize {}
  let d := mdat bufSize { b := [], subs := m.subs }
  ({ r with nsamples := 0, nmeta := 0, ndata := 0, buf := some [m.b], data := d.b, subs := d.subs }, m.b.length ≠ bufSize && d.b.length ≠ bufSize)

/-- `ngx_ts_dash_put32` (:1320-1327) by way of a pointer into the chain -/
def put (chain : List Bytes) (p : Nat × Nat) (x : Bytes) : Option (List Bytes) :=
  match chain[p.1]? with
  | none => none
  | some b => if p.2 + x.length ≤ b.length then some (chain.set p.1 (overwrite b p.2 x)) else none

/-- The same by way of a pointer that may be NULL, and then is not used -/
def putIf (chain : List Bytes) (p : Option (Nat × Nat)) (x : Bytes) : Option (List Bytes) :=
  match p with
  | none => some chain
  | some p => put chain p x

/-- What is written for a sample (:1394-1412), up to the end of the buffer -/
def sampleFields (video : Bool) (e : Es) (size : Nat) : Bytes :=
  beEnc 4 0 ++ beEnc 4 size ++ (if video then beEnc 4 (if e.rand then 0 else 0x10000) ++ beEnc 4 (diffU 32 e.pts e.dts) else [])

/-- `ngx_ts_dash_append_meta` (:1357-1417) -/
def appendMeta (r : Rep) (e : Es) (size dts : Nat) : Option Rep :=
  match r.buf with
  | none => none
  | some chain =>
    match chain.getLast? with
    | none => none
    | some last =>
      let n := if r.video then 16 else 8
      let fresh : Bool := bufSize - last.length < n
      let chain := if fresh then chain ++ [[]] else chain
      let last := if fresh then [] else last
      (putIf chain r.subs.sampleDuration (beEnc 4 (diffU 32 dts r.dts))).bind fun chain =>
        match chain.getLast? with
        | none => none
        | some b =>
          some { r with ndata := r.ndata + size, nsamples := r.nsamples + 1, nmeta := r.nmeta + n, dts := dts,
                        subs := { r.subs with sampleDuration := some (chain.length - 1, last.length) },
                        buf := some (chain.dropLast ++ [b ++ (sampleFields r.video e size).take (bufSize - b.length)]) }

/-- `ngx_ts_dash_append_data` (:1420-1449) -/
def appendData (r : Rep) (x : Bytes) : Rep := { r with data := r.data ++ x }

/-! ### Units become samples (ngx_ts_dash.c) -/

/-- What the loop over the bytes of a unit of a byte stream knows (:417-455): zeros, length, type -/
structure Scan where
  z : Nat := 0
  len : Nat := 0
  type : Nat := 0

/-- What comes of it -/
inductive Found where
  /-- the end of the buffer -/
  | more (s : Scan)
  /-- a start code, and what is left of the buffer -/
  | start (s : Scan) (rest : Bytes)
  | failed

/-- The loop (:424-455) in one buffer -/
def scanBuf : Bytes → Scan → Found
  | [], s => .more s
  | c :: b, s =>
    if c = 0 then scanBuf b { s with z := s.z + 1 }
    else if c = 1 ∧ 2 ≤ s.z then .start s b
    else if 3 ≤ s.z then .failed
    else scanBuf b { z := 0, len := s.len + s.z + 1, type := if s.len = 0 then (if s.z = 0 then c.toNat % 32 else 0) else s.type }

/-- The loop over all buffers: where it goes on (`[]` is NULL), length and type; `none` is `goto failed`. A place in a chain is what is left of a buffer and those after it. -/
def scan : List Bytes → Scan → Option (List Bytes × Nat × Nat)
  | [], s => some ([], s.len, s.type)
  | b :: r, s =>
    match scanBuf b s with
    | .more s => scan r s
    | .start s rest => some (rest :: r, s.len, s.type)
    | .failed => none

/-- The loops that copy (:485-496, :522-537) from a place in a chain -/
def grab : List Bytes → Nat → Option Bytes
  | _, 0 => some []
  | [], _ + 1 => none
  | b :: r, n + 1 => if n + 1 ≤ b.length then some (b.take (n + 1)) else (grab r (n + 1 - b.length)).map (b ++ ·)

/-- With both parameter sets they are decoded (:498-505). False is NGX_ERROR. -/
def decodeParams (r : Rep) : Option (Rep × Bool) :=
  match r.sps, r.pps with
  | some s, some _ => (Codec.parse Codec.tsAvc s).map fun a => ({ r with avc := a.1 }, a.1.isSome)
  | _, _ => some (r, true)

/-- A parameter set is kept (:461-508): the first of its type. False is NGX_ERROR. -/
def keepParams (r : Rep) (cur : List Bytes) (len type : Nat) : Option (Rep × Bool) :=
  if (type = 7 ∧ r.sps.isSome) ∨ (type = 8 ∧ r.pps.isSome) then some (r, true)
  else if len > 0xffff then some (r, false)
  else
    (grab cur len).bind fun x => decodeParams (if type = 7 then { r with sps := some x } else { r with pps := some x })

/-- The loop over units (:416-538); the number is the size of the sample, `none` is NGX_ERROR. -/
def avcLoop : Nat → List Bytes → Nat → Rep → Option (Rep × Option Nat)
  | 0, _, _, _ => none
  | n + 1, cur, size, r =>
    if cur = [] then some (r, some size)
    else
      match scan cur {} with
      | none => some (r, none)
      | some (cur', len, type) =>
        if len = 0 then avcLoop n cur' size r
        else if type = 7 ∨ type = 8 then (keepParams r cur len type).bind fun x => if x.2 then avcLoop n cur' size x.1 else some (x.1, none)
        else (grab cur len).bind fun x => avcLoop n cur' (size + 4 + len) (appendData r (beEnc 4 len ++ x))

/-- Bytes and buffers, and one more: turns of a loop over a chain -/
def turns (bufs : List Bytes) : Nat := bufs.flatten.length + bufs.length + 1

/-- `ngx_ts_dash_copy_avc` (:390-551) -/
def copyAvc (r : Rep) (e : Es) (bufs : List Bytes) : Option (Rep × Bool) :=
  if bufs = [] then some (r, true)
  else
    (avcLoop (turns bufs) bufs 0 r).bind fun x =>
      match x.2 with
      | none => some (x.1, false)
      | some size => (appendMeta x.1 e size e.dts).map fun r => (r, true)

/-- The next byte of a chain -/
def pop : List Bytes → Option (UInt8 × List Bytes)
  | [] => none
  | [] :: r => pop r
  | (c :: b) :: r => some (c, b :: r)

/-- A header of ADTS -/
inductive Head where
  /-- the end of the unit, before its first byte -/
  | over
  | failed
  | head (adts : Bytes) (rest : List Bytes)

/-- Reading it (:581-603), from what is there of it; `protection_absent` is 0 until it is read. -/
def adtsHead : Nat → Bytes → List Bytes → Head
  | 0, adts, cur => .head adts cur
  | n + 1, adts, cur =>
    if adts.length < (if (adts[1]?.map fun b => b.toNat % 2) = some 1 then 7 else 9) then
      match pop cur with
      | none => if adts = [] then .over else .failed
      | some (c, cur) => adtsHead n (adts ++ [c]) cur
    else .head adts cur

/-- `len` (:612-614) -/
def adtsLen (adts : Bytes) : Option Nat :=
  match adts with
  | _ :: _ :: _ :: b3 :: b4 :: b5 :: _ => some (b3.toNat % 4 * 2048 + b4.toNat * 8 + b5.toNat / 32)
  | _ => none

/-- The loop that copies (:631-649): what is copied, how much is missing, the place after it -/
def grabMost : List Bytes → Nat → Bytes × Nat × List Bytes
  | cur, 0 => ([], 0, cur)
  | [], n + 1 => ([], n + 1, [])
  | b :: r, n + 1 =>
    if n + 1 ≤ b.length then (b.take (n + 1), 0, b.drop (n + 1) :: r)
    else
      let x := grabMost r (n + 1 - b.length)
      (b ++ x.1, x.2)

/-- The parameters (:605-610): those of the first frame -/
def aacParams (r : Rep) (adts : Bytes) : Option (Option Codec.Aac) :=
  match r.aac with
  | some a => some (some a)
  | none => Codec.tsAac (adts.take 7)

/-- One frame (:605-649) behind its header. False is NGX_ERROR. -/
def aacFrame (r : Rep) (e : Es) (i : Nat) (adts : Bytes) (cur : List Bytes) : Option (Rep × Bool × List Bytes) :=
  (aacParams r adts).bind fun a =>
    match a with
    | none => some (r, false, cur)
    | some a =>
      let r := { r with aac := some a }
      (adtsLen adts).bind fun len =>
        if len < adts.length then some (r, false, cur)
        else if a.freq = 0 then none
        else
          (appendMeta r e (len - adts.length) (e.dts + 90000 * 1024 * i / a.freq)).map fun r =>
            let x := grabMost cur (len - adts.length)
            (appendData r x.1, x.2.1 = 0, x.2.2)

/-- The loop over frames (:580-650) -/
def aacLoop : Nat → List Bytes → Nat → Rep → Es → Option (Rep × Bool)
  | 0, _, _, _, _ => none
  | n + 1, cur, i, r, e =>
    match adtsHead 9 [] cur with
    | .over => some (r, true)
    | .failed => some (r, false)
    | .head adts cur => (aacFrame r e i adts cur).bind fun x => if x.2.1 then aacLoop n x.2.2 (i + 1) x.1 e else some (x.1, false)

/-- `ngx_ts_dash_copy_aac` (:554-657) -/
def copyAac (r : Rep) (e : Es) (bufs : List Bytes) : Option (Rep × Bool) :=
  if bufs = [] then some (r, true) else aacLoop (turns bufs) bufs 0 r e

/-- `ngx_ts_dash_copy_default` (:660-677) -/
def copyDefault (r : Rep) (e : Es) (bufs : List Bytes) : Option (Rep × Bool) :=
  (appendMeta (appendData r bufs.flatten) e bufs.flatten.length e.dts).map fun r => (r, true)

/-- NGX_TS_VIDEO_AVC, NGX_TS_AUDIO_AAC (ngx_ts_stream.h:23-30) -/
def avcType : Nat := 0x1b
def aacType : Nat := 0x0f

/-- Which of them (:340-354) -/
def copy (r : Rep) (e : Es) (bufs : List Bytes) : Option (Rep × Bool) :=
  if r.type = avcType then copyAvc r e bufs else if r.type = aacType then copyAac r e bufs else copyDefault r e bufs

/-! ### Segments (ngx_ts_dash.c) -/

/-- `ngx_ts_dash_get32` (ngx_ts_dash_mp4.c:1306-1317) -/
def get32 (b : Bytes) (p : Nat) : Option Nat := if p + 4 ≤ b.length then some (beDec ((b.drop p).take 4)) else none

/-- `ngx_ts_dash_put32`, `ngx_ts_dash_put64` (ngx_ts_dash_mp4.c:1320-1341) -/
def putAt (p : Nat) (x : Bytes) (b : Bytes) : Option Bytes := if p + x.length ≤ b.length then some (overwrite b p x) else none

/-- A size in a box grows by a number (ngx_ts_dash_mp4.c:1272-1282) -/
def grow (p n : Nat) (b : Bytes) : Option (Bytes × Nat) := (get32 b p).bind fun v => (putAt p (beEnc 4 (v + n)) b).map fun b => (b, (v + n) % 2 ^ 32)

/-- A difference as `int32_t` is more than 0 (ngx_ts_dash_mp4.c:1266-1270) -/
def positive32 (d : Nat) : Bool := 0 < d && d < 2 ^ 31

/-- What is set in the first buffer (ngx_ts_dash_mp4.c:1259-1285) -/
def patches (r : Rep) (e : Es) (mdat : Nat) (b : Bytes) : Option Bytes :=
  (putAt r.subs.pts (beEnc 8 r.segPts) b).bind fun b =>
  (putAt r.subs.dts (beEnc 8 r.segDts) b).bind fun b =>
  (putAt r.subs.seq (beEnc 4 r.seg) b).bind fun b =>
  (putAt r.subs.nsamples (beEnc 4 r.nsamples) b).bind fun b =>
  (putAt r.subs.duration (beEnc 4 (diffU 32 e.dts r.segDts)) b).bind fun b =>
  (grow r.subs.traf r.nmeta b).bind fun x =>
  (grow r.subs.trun r.nmeta x.1).bind fun x =>
  (grow r.subs.moof r.nmeta x.1).bind fun x =>
  (putAt r.subs.moofMdat (beEnc 4 (x.2 + mdat)) x.1).bind fun b =>
  putAt r.subs.moofData (beEnc 4 (x.2 + 8)) b

/-- `ngx_ts_dash_end_segment` (ngx_ts_dash_mp4.c:1249-1296): what is in the chain that it returns -/
def endSegment (r : Rep) (e : Es) : Option Bytes :=
  r.buf.bind fun chain =>
  (putIf chain (if positive32 (diffU 32 e.dts r.dts) then r.subs.sampleDuration else none) (beEnc 4 (diffU 32 e.dts r.dts))).bind fun chain =>
  (grow r.subs.mdat r.ndata r.data).bind fun d =>
  match chain with
  | [] => none
  | b :: rest => (patches r e d.2 b).map fun b => b ++ rest.flatten ++ d.1

/-- Whether the segment goes on with this unit (:709-719) -/
def goesOn (c : Conf) (r : Rep) (e : Es) (d : Int) : Bool :=
  (d < (c.minSeg * 90 : Nat) || (d < (c.maxSeg * 90 : Nat) && r.video && !e.rand)) && (c.maxSize = 0 || r.nmeta + r.ndata < c.maxSize)

/-- `ngx_ts_dash_close_segment` (:680-791) up to the playlist; the second value says whether a segment was closed. -/
def closeSegment (c : Conf) (flush : Bool) (r : Rep) (e : Es) : Option (Rep × Bool) :=
  if r.buf = none then some (r, false)
  else
    let d : Int := (e.dts : Int) - r.segDts
    if !flush && goesOn c r e d then some (r, false)
    else
      (endSegment r e).bind fun file =>
        if r.segs.length = 0 then none
        else some ({ r with buf := none, data := [], files := r.files ++ [(r.segDts, file)], segs := r.segs.set (r.seg % r.segs.length) { start := r.segDts, duration := diffU 64 e.dts r.segDts }, seg := r.seg + 1 }, true)

/-- `ngx_ts_dash_open_segment` (:1120-1139); false is NGX_ERROR -/
def openSegment (r : Rep) (e : Es) : Rep × Bool := if r.buf = none then startSegment { r with segPts := e.pts, segDts := e.dts } else (r, true)

/-- `ngx_ts_dash_update_bandwidth` (:358-387) -/
def updateBandwidth (c : Conf) (r : Rep) (bufs : List Bytes) (dts : Nat) : Option Rep :=
  if r.bandwidth ≠ 0 then some r
  else
    let start := if r.bwBytes = 0 then dts else r.bwDts
    let bytes := r.bwBytes + bufs.flatten.length
    let d : Int := (dts : Int) - start
    if (c.analyze * 90 : Nat) ≤ d then
      if d = 0 then none else some { r with bwDts := start, bwBytes := bytes, bandwidth := bytes * 8 * 90000 / d.toNat }
    else some { r with bwDts := start, bwBytes := bytes }

/-- `ngx_ts_dash_pes_handler` (:296-355) for a unit with times, in its representation. The first Bool says whether a segment was closed, the second is false for NGX_ERROR. -/
def unit (c : Conf) (r : Rep) (e : Es) (bufs : List Bytes) : Option (Rep × Bool × Bool) :=
  (updateBandwidth c r bufs e.dts).bind fun r =>
    (closeSegment c false r e).bind fun x =>
      let o := openSegment x.1 e
      if o.2 then (copy o.1 e bufs).map fun y => (y.1, x.2, y.2) else some (o.1, x.2, false)

/-- `ngx_ts_dash_cleanup` (:116-140) for a representation; `e` is its stream as it is then. -/
def finish (c : Conf) (r : Rep) (e : Es) : Option Rep := (closeSegment c true r e).map (·.1)

/-- A representation at first (:244-253) -/
def newRep (c : Conf) (type : Nat) (video : Bool) : Rep := { type := type, video := video, segs := List.replicate c.nsegs {} }

/-- Units one after the other; the reader stops at the first error (ngx_ts_stream.c:155-170). -/
def run (c : Conf) (r : Rep) : List (Es × List Bytes) → Option (Rep × Bool)
  | [] => some (r, true)
  | u :: us => (unit c r u.1 u.2).bind fun x => if x.2.2 then run c x.1 us else some (x.1, false)

end Verif.TsDash
