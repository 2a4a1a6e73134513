import Verif.TsDash.Model
/-
Model of initialization segments of nginx-ts-module (src/ngx_ts_dash_mp4.c:89-94, 295-930, 998-1135), of how their buffer is found (src/ngx_ts_dash.c:1054-1117) and of
`ngx_ts_dash_get_oti` (src/ngx_ts_stream.c:1462-1496). `now` is `ngx_time()`.
-/
namespace Verif.TsDash
open Verif Verif.TsIn
open Verif.Mp4 (tag overwrite)

/-- What is written more than once -/
def f32s : List Nat → W
  | [] => nop
  | n :: l => f32 n ;; f32s l

/-- The size of a descriptor (:1129-1134): seven bits in a byte -/
def descSize (n : Nat) : Bytes := [UInt8.ofNat (n >>> 21 ||| 0x80), UInt8.ofNat (n >>> 14 ||| 0x80), UInt8.ofNat (n >>> 7 ||| 0x80), UInt8.ofNat (n &&& 0x7f)]

/-- `ngx_ts_dash_desc` (:1099-1117), what is inside, `ngx_ts_dash_desc_update` (:1120-1135) -/
def desc (t : Nat) (body : W) : W := fun cap o =>
  let o1 := f8 t cap o
  let o' := (f32 0 ;; body) cap o1
  if o1.b.length + 4 > cap then o' else { o' with b := overwrite o'.b o1.b.length (descSize (o'.b.length - o1.b.length - 4)) }

/-- `ngx_ts_dash_box_ftyp` (:295-320) -/
def ftyp : W := box (tag "ftyp") (data (tag "iso6") ;; f32 1 ;; data (tag "isom") ;; data (tag "iso6") ;; data (tag "dash"))

/-- The matrix (:368-377, 484-493) -/
def matrix : W := f32s [0x10000, 0, 0, 0, 0x10000, 0, 0, 0, 0x40000000]

/-- `ngx_ts_dash_box_mvhd` (:338-392) -/
def mvhd (now : Nat) : W := full (tag "mvhd") 0 0 (f32s [now, now, 90000, 0, 0x10000, 0x1000000] ;; f64 0 ;; matrix ;; f32s [0, 0, 0, 0, 0, 0] ;; f32 1)

/-- `ngx_ts_dash_box_trex` (:408-431) -/
def trex : W := full (tag "trex") 0 0 (f32s [1, 1, 0, 0, 0])

/-- `ngx_ts_dash_box_mvex` (:395-405) -/
def mvex : W := box (tag "mvex") trex

/-- NGX_TS_DASH_DEFAULT_WIDTH, NGX_TS_DASH_DEFAULT_HEIGHT (:15-16) if nothing is known -/
def widthOf (r : Rep) : Nat := match r.avc with | some a => a.width | none => 400
def heightOf (r : Rep) : Nat := match r.avc with | some a => a.height | none => 400

/-- `ngx_ts_dash_box_tkhd` (:448-502) -/
def tkhd (now : Nat) (r : Rep) : W := full (tag "tkhd") 0 3 (f32s [now, now, 1, 0, 0xffffffff, 0, 0, 0] ;; f32 (if r.video then 0 else 0x1000000) ;; matrix ;;
  f32 (widthOf r * 65536) ;; f32 (heightOf r * 65536))

/-- `ngx_ts_dash_box_mdhd` (:520-547) -/
def mdhd (now : Nat) : W := full (tag "mdhd") 0 0 (f32s [now, now, 90000, 0, 0x55c40000])

/-- `ngx_ts_dash_box_hdlr` (:550-572) -/
def hdlr (video : Bool) : W := full (tag "hdlr") 0 0 (f32 0 ;; data (if video then tag "vide" else tag "soun") ;; f32s [0, 0, 0] ;; data ((if video then tag "video" else tag "audio") ++ [0]))

/-- `ngx_ts_dash_box_vmhd` (:596-608), `ngx_ts_dash_box_smhd` (:611-622) -/
def xmhd (video : Bool) : W := if video then full (tag "vmhd") 0 1 (f32s [0, 0]) else full (tag "smhd") 0 0 (f32 0)

/-- `ngx_ts_dash_box_dinf` (:625-635), `ngx_ts_dash_box_dref` (:638-651), `ngx_ts_dash_box_url` (:654-662) -/
def dinf : W := box (tag "dinf") (full (tag "dref") 0 0 (f32 1 ;; full (tag "url ") 0 1 nop))

/-- `ngx_ts_dash_get_oti` (ngx_ts_stream.c:1462-1496); types of ngx_ts_stream.h:23-30 -/
def oti (type : Nat) : Nat :=
  if type = 0x01 then 0x6a else if type = 0x02 then 0x61 else if type = 0x10 then 0x20 else if type = 0x1b then 0x21
  else if type = 0x03 then 0x6b else if type = 0x04 then 0x69 else if type = 0x0f then 0x40 else 0

/-- `ngx_ts_dash_desc_dec_spec` (:1056-1077) -/
def decSpec (r : Rep) : W :=
  match r.aac with
  | none => nop
  | some a => desc 5 (f8 (a.profile * 8 + a.freqIndex / 2) ;; f8 (a.freqIndex * 128 + a.chan * 8))

/-- `ngx_ts_dash_desc_dec_conf` (:1023-1053) -/
def decConf (r : Rep) : W := desc 4 (f8 (oti r.type) ;; f8 ((if r.video then 4 else 5) * 4) ;; f24 0 ;; f32 (r.bandwidth * 2) ;; f32 r.bandwidth ;; decSpec r)

/-- `ngx_ts_dash_box_esds` (:920-930), `ngx_ts_dash_desc_es` (:998-1020), `ngx_ts_dash_desc_sl_conf` (:1080-1096) -/
def esds (r : Rep) : W := full (tag "esds") 0 0 (desc 3 (f16 1 ;; f8 0 ;; decConf r ;; desc 6 (f8 2)))

/-- `ngx_ts_dash_box_avcc` (:866-917) -/
def avcc (r : Rep) : W :=
  match r.sps, r.pps with
  | some s, some p =>
    if s.length < 4 ∨ p.length = 0 then nop
    else box (tag "avcC") (f8 1 ;; data ((s.drop 1).take 3) ;; f8 0xff ;; f8 0xe1 ;; f16 s.length ;; data s ;; f8 1 ;; f16 p.length ;; data p)
  | _, _ => nop

/-- `ngx_ts_dash_box_video` (:762-827) -/
def videoBox (r : Rep) : W := box (if r.type = avcType then tag "avc1" else tag "mp4v") (f32 0 ;; f16 0 ;; f16 1 ;; f32s [0, 0, 0, 0] ;; f16 (widthOf r) ;; f16 (heightOf r) ;; f32 0x480000 ;; f32 0x480000 ;;
  f32 0 ;; f16 1 ;; f32s [0, 0, 0, 0, 0, 0, 0, 0] ;; f16 0x18 ;; f16 0xffff ;; (if r.type = avcType then avcc r else esds r))

/-- `ngx_ts_dash_box_audio` (:830-863) -/
def audioBox (r : Rep) : W := box (tag "mp4a") (f32 0 ;; f16 0 ;; f16 1 ;; f32s [0, 0] ;; f16 2 ;; f16 16 ;; f32 0 ;; f32 90000 ;; esds r)

/-- `ngx_ts_dash_box_stsd` (:741-759) -/
def stsd (r : Rep) : W := full (tag "stsd") 0 0 (f32 1 ;; (if r.video then videoBox r else audioBox r))

/-- `ngx_ts_dash_box_stbl` (:665-679), `stts`, `stsc`, `stsz`, `stco` (:682-738) -/
def stbl (r : Rep) : W := box (tag "stbl") (stsd r ;; full (tag "stts") 0 0 (f32 0) ;; full (tag "stsc") 0 0 (f32 0) ;; full (tag "stsz") 0 0 (f32s [0, 0]) ;; full (tag "stco") 0 0 (f32 0))

/-- `ngx_ts_dash_box_minf` (:575-593) -/
def minf (r : Rep) : W := box (tag "minf") (xmhd r.video ;; dinf ;; stbl r)

/-- `ngx_ts_dash_box_mdia` (:505-517) -/
def mdia (now : Nat) (r : Rep) : W := box (tag "mdia") (mdhd now ;; hdlr r.video ;; minf r)

/-- `ngx_ts_dash_box_trak` (:434-445) -/
def trak (now : Nat) (r : Rep) : W := box (tag "trak") (tkhd now r ;; mdia now r)

/-- `ngx_ts_dash_box_moov` (:323-335) -/
def moov (now : Nat) (r : Rep) : W := box (tag "moov") (mvhd now ;; mvex ;; trak now r)

/-- `ngx_ts_dash_write_init_segment` (:89-94) -/
def initSegment (now : Nat) (r : Rep) : W := ftyp ;; moov now r

/-- The loop that finds a buffer large enough (ngx_ts_dash.c:1075-1104): the file, and the size for the next time. The number is how often it may be doubled; `none` is that it is not enough. -/
def initFile (now : Nat) (r : Rep) : Nat → Nat → Option (Bytes × Nat)
  | 0, _ => none
  | n + 1, cap =>
    let o := initSegment now r cap {}
    if o.b.length < cap then some (o.b, cap) else initFile now r n (cap * 2)

end Verif.TsDash
