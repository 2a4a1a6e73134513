import Verif.Dash.Mp4Model
/-
The initialization segments of DASH: modules/nginx-rtmp-module/dash/ngx_rtmp_mp4.c:83-90 (descriptors), 159-206 (matrix, ftyp), 233-948 (moov);
dash/ngx_rtmp_dash_module.c:448-521 (the two files).
-/
namespace Verif.Mp4
open Verif

/-- What `ngx_rtmp_codec_ctx_t` says of the stream: the buffers of the headers, `none` if there is none. -/
structure Codec where
  width : Nat
  height : Nat
  channels : Nat
  sampleSize : Nat
  rate : Nat
  avc : Option (List Bytes)
  aac : Option (List Bytes)
  deriving DecidableEq

/-- `ngx_rtmp_mp4_write_matrix` (:159-182) with 1, 0, 0, 1, 0, 0 -/
def matrix : W := f32 0x10000 ;; f32 0 ;; f32 0 ;; f32 0 ;; f32 0x10000 ;; f32 0 ;; f32 0 ;; f32 0 ;; f32 0x40000000

/-- `ngx_rtmp_mp4_write_ftyp` (:185-206) -/
def ftyp : W := box (tag "ftyp") (data (tag "iso6") ;; f32 1 ;; data (tag "isom") ;; data (tag "iso6") ;; data (tag "dash"))

/-- `ngx_rtmp_mp4_write_mvhd` (:233-278) -/
def mvhd : W := box (tag "mvhd") (f32 0 ;; f32 0 ;; f32 0 ;; f32 1000 ;; f32 0 ;; f32 0x10000 ;; f16 0x0100 ;; f16 0 ;; f32 0 ;; f32 0 ;; matrix ;;
  f32 0 ;; f32 0 ;; f32 0 ;; f32 0 ;; f32 0 ;; f32 0 ;; f32 1)

/-- `ngx_rtmp_mp4_write_tkhd` (:281-337) -/
def tkhd (c : Codec) (video : Bool) : W := box (tag "tkhd") (f8 0 ;; f24 0xf ;; f32 0 ;; f32 0 ;; f32 1 ;; f32 0 ;; f32 0 ;; f32 0 ;; f32 0 ;; f32 0 ;;
  f16 (if video then 0 else 0x0100) ;; f16 0 ;; matrix ;; f32 (if video then c.width * 65536 else 0) ;; f32 (if video then c.height * 65536 else 0))

/-- `ngx_rtmp_mp4_write_mdhd` (:340-371) -/
def mdhd : W := box (tag "mdhd") (f32 0 ;; f32 0 ;; f32 0 ;; f32 1000 ;; f32 0 ;; f16 0x15C7 ;; f16 0)

/-- `ngx_rtmp_mp4_write_hdlr` (:374-409) -/
def hdlr (video : Bool) : W := box (tag "hdlr") (f32 0 ;; f32 0 ;; data (if video then tag "vide" else tag "soun") ;; f32 0 ;; f32 0 ;; f32 0 ;;
  data ((if video then tag "VideoHandler" else tag "SoundHandler") ++ [0]))

/-- `ngx_rtmp_mp4_write_vmhd` (:412-428), `write_smhd` (:431-447) -/
def xmhd (video : Bool) : W :=
  if video then f32 20 ;; data (tag "vmhd") ;; f32 1 ;; f32 0 ;; f32 0 else f32 16 ;; data (tag "smhd") ;; f32 0 ;; f16 0 ;; f16 0

/-- `ngx_rtmp_mp4_write_dref` (:450-474), `write_dinf` (:477-489) -/
def dinf : W := box (tag "dinf") (box (tag "dref") (f32 0 ;; f32 1 ;; f32 0xc ;; data (tag "url ") ;; f32 1))

/-- `ngx_rtmp_mp4_write_avcc` (:492-535): without a header a NULL pointer is read (:505). -/
def avcc (c : Codec) : W := fun b =>
  match c.avc with
  | none => none
  | some [] => some b
  | some (x :: _) => box (tag "avcC") (if 5 < x.length then data (x.drop 5) else nop) b

/-- `ngx_rtmp_mp4_write_video` (:538-597) -/
def avc1 (c : Codec) : W := box (tag "avc1") (f32 0 ;; f16 0 ;; f16 1 ;; f16 0 ;; f16 0 ;; f32 0 ;; f32 0 ;; f32 0 ;; f16 c.width ;; f16 c.height ;;
  f32 0x480000 ;; f32 0x480000 ;; f32 0 ;; f16 1 ;; f32 0 ;; f32 0 ;; f32 0 ;; f32 0 ;; f32 0 ;; f32 0 ;; f32 0 ;; f32 0 ;; f16 0x18 ;; f16 0xffff ;; avcc c)

/-- `ngx_rtmp_mp4_put_descr` (:83-90) -/
def descr (t n : Nat) : W := f8 t ;; f8 (n % 128)

/-- `ngx_rtmp_mp4_write_esds` (:600-677) -/
def esds (c : Codec) : W := fun b =>
  match c.aac with
  | some (x :: _) =>
    if x.length < 2 then some b
    else
      let n := x.length - 2
      box (tag "esds") (f32 0 ;; descr 3 (23 + n) ;; f16 1 ;; f8 0 ;; descr 4 (15 + n) ;; f8 0x40 ;; f8 0x15 ;; f24 0 ;; f32 0x1F151 ;; f32 0x1F14D ;;
        descr 5 n ;; data (x.drop 2) ;; descr 6 1 ;; f8 2) b
  | _ => some b

/-- `ngx_rtmp_mp4_write_audio` (:680-727) -/
def mp4a (c : Codec) : W := box (tag "mp4a") (f32 0 ;; f16 0 ;; f16 1 ;; f32 0 ;; f32 0 ;; f16 c.channels ;; f16 (c.sampleSize * 8) ;; f32 0 ;; f16 1000 ;;
  f16 c.rate ;; esds c)

/-- `ngx_rtmp_mp4_write_stsd` (:730-753) -/
def stsd (c : Codec) (video : Bool) : W := box (tag "stsd") (f32 0 ;; f32 1 ;; (if video then avc1 c else mp4a c))

/-- `ngx_rtmp_mp4_write_stbl` (:821-838) with `stts`, `stsc`, `stsz`, `stco` (:756-818) -/
def stbl (c : Codec) (video : Bool) : W := box (tag "stbl") (stsd c video ;; box (tag "stts") (f32 0 ;; f32 0) ;; box (tag "stsc") (f32 0 ;; f32 0) ;;
  box (tag "stsz") (f32 0 ;; f32 0 ;; f32 0) ;; box (tag "stco") (f32 0 ;; f32 0))

/-- `ngx_rtmp_mp4_write_minf` (:841-861) -/
def minf (c : Codec) (video : Bool) : W := box (tag "minf") (xmhd video ;; dinf ;; stbl c video)

/-- `ngx_rtmp_mp4_write_mdia` (:864-879) -/
def mdia (c : Codec) (video : Bool) : W := box (tag "mdia") (mdhd ;; hdlr video ;; minf c video)

/-- `ngx_rtmp_mp4_write_trak` (:881-895) -/
def trak (c : Codec) (video : Bool) : W := box (tag "trak") (tkhd c video ;; mdia c video)

/-- `ngx_rtmp_mp4_write_mvex` (:898-930) -/
def mvex : W := box (tag "mvex") (f32 0x20 ;; data (tag "trex") ;; f32 0 ;; f32 1 ;; f32 1 ;; f32 0 ;; f32 0 ;; f32 0)

/-- `ngx_rtmp_mp4_write_moov` (:933-948) -/
def moov (c : Codec) (video : Bool) : W := box (tag "moov") (mvhd ;; mvex ;; trak c video)

/-- One of the files of `ngx_rtmp_dash_write_init_segments` (ngx_rtmp_dash_module.c:448-521) -/
def initFile (c : Codec) (video : Bool) : Option Bytes := (ftyp ;; moov c video) []

/-- Both: that of video is always written first; `none` is the crash. -/
def initSegments (c : Codec) : Option (Bytes × Bytes) := (initFile c true).bind fun v => (initFile c false).map fun a => (v, a)

end Verif.Mp4
