import Verif.Base.Bytes
/-
The boxes of DASH media segments: modules/nginx-rtmp-module/dash/ngx_rtmp_mp4.c:9-156 (fields and boxes), 209-231 (styp), 951-1167 (moof, sidx, mdat);
dash/ngx_rtmp_dash_module.c:36-47 (tracks), 524-627 (closing a fragment), 657-702 (opening one), 1044-1102 (appending a frame).

The buffer is the list of bytes written so far (`b->last` is its end), of at most 1 MiB. A write that does not fit is left out, as its result is not looked
at. Numbers are natural numbers, stored with the bytes a C store keeps. `none` is arithmetic with the NULL that a box without room returns.
-/
namespace Verif.Mp4
open Verif

/-- NGX_RTMP_DASH_BUFSIZE (ngx_rtmp_dash_module.c:24) -/
def cap : Nat := 1048576

/-- Four letters of a box. -/
def tag (s : String) : Bytes := s.toList.map fun c => UInt8.ofNat c.toNat

/-- A writer changes the buffer. -/
abbrev W := Bytes → Option Bytes

/-- One after the other. -/
def W.seq (a b : W) : W := fun s => (a s).bind b
infixl:65 " ;; " => W.seq

def nop : W := some

/-- `ngx_rtmp_mp4_data`, `ngx_rtmp_mp4_box` (:93-116) -/
def data (x : Bytes) : W := fun b => some (if b.length + x.length > cap then b else b ++ x)

/-- `ngx_rtmp_mp4_field_32` (:9-26), `_24` (:29-45), `_16` (:48-63), `_8` (:66-80) -/
def f32 (n : Nat) : W := data (beEnc 4 n)
def f24 (n : Nat) : W := data (beEnc 3 n)
def f16 (n : Nat) : W := data (beEnc 2 n)
def f8 (n : Nat) : W := data (beEnc 1 n)

/-- Writing over what is there from offset `p`. -/
def overwrite (b : Bytes) (p : Nat) (x : Bytes) : Bytes := b.take p ++ x ++ b.drop (p + x.length)

/-- `ngx_rtmp_mp4_start_box` (:119-135); the second component is the result, `none` is NULL. -/
def startBox (t : Bytes) (b : Bytes) : Bytes × Option Nat :=
  if b.length + 4 > cap then (b, none)
  else
    let b1 := b ++ beEnc 4 0
    if b1.length + 4 > cap then (b1, none) else (b1 ++ t, some b.length)

/-- `ngx_rtmp_mp4_update_box_size` (:138-156) -/
def updateSize (b : Bytes) : Option Nat → Bytes
  | none => b
  | some p => overwrite b p (beEnc 4 (b.length - p))

/-- The pattern `pos = start_box(..); ...; update_box_size(b, pos)`; the inside gets `pos`. -/
def boxP (t : Bytes) (body : Option Nat → W) : W := fun b =>
  let r := startBox t b
  (body r.2 r.1).map fun b2 => updateSize b2 r.2

def box (t : Bytes) (body : W) : W := boxP t fun _ => body

/-- `ngx_rtmp_mp4_write_styp` (:209-231) -/
def styp : W := box (tag "styp") (data (tag "iso6") ;; f32 1 ;; data (tag "isom") ;; data (tag "iso6") ;; data (tag "dash"))

/-- `ngx_rtmp_mp4_sample_t` (ngx_rtmp_mp4.h:18-24) -/
structure Sample where
  size : Nat
  duration : Nat
  delay : Nat
  timestamp : Nat
  key : Bool
  deriving DecidableEq

/-- `sample_mask & bit` (ngx_rtmp_mp4.h:12-15) -/
def hasSize (m : Nat) : Bool := m.testBit 0
def hasDuration (m : Nat) : Bool := m.testBit 1
def hasDelay (m : Nat) : Bool := m.testBit 2
def hasKey (m : Nat) : Bool := m.testBit 3

def bit (b : Bool) (v : Nat) : Nat := if b then v else 0

/-- One turn of the loop of `write_trun` (:1027-1044) -/
def sampleFields (m : Nat) (s : Sample) : W :=
  (if hasDuration m then f32 s.duration else nop) ;; (if hasSize m then f32 s.size else nop) ;;
    (if hasKey m then f32 (if s.key then 0 else 0x10000) else nop) ;; (if hasDelay m then f32 s.delay else nop)

def sampleLoop (m : Nat) : List Sample → W
  | [] => nop
  | s :: l => sampleFields m s ;; sampleLoop m l

/-- `ngx_rtmp_mp4_write_trun` (:987-1049) -/
def trun (samples : List Sample) (m : Nat) (moof : Option Nat) : W :=
  boxP (tag "trun") fun pos => fun b =>
    match pos, moof with
    | some pos, some moof =>
      let nitems := bit (hasDuration m) 1 + bit (hasSize m) 1 + bit (hasKey m) 1 + bit (hasDelay m) 1
      let flags := 1 + bit (hasDuration m) 0x100 + bit (hasSize m) 0x200 + bit (hasKey m) 0x400 + bit (hasDelay m) 0x800
      let offset := (pos - moof) + 20 + samples.length * nitems * 4 + 8
      (f32 flags ;; f32 samples.length ;; f32 offset ;; sampleLoop m samples) b
    | _, _ => none

/-- `ngx_rtmp_mp4_write_tfhd` (:951-967) -/
def tfhd : W := box (tag "tfhd") (f32 0x20000 ;; f32 1)

/-- `ngx_rtmp_mp4_write_tfdt` (:970-984) -/
def tfdt (time : Nat) : W := box (tag "tfdt") (f32 0 ;; f32 time)

/-- `ngx_rtmp_mp4_write_traf` (:1052-1068) -/
def traf (time : Nat) (samples : List Sample) (m : Nat) (moof : Option Nat) : W := box (tag "traf") (tfhd ;; tfdt time ;; trun samples m moof)

/-- `ngx_rtmp_mp4_write_mfhd` (:1071-1087) -/
def mfhd (index : Nat) : W := box (tag "mfhd") (f32 0 ;; f32 index)

/-- `ngx_rtmp_mp4_write_moof` (:1140-1156) -/
def moof (time : Nat) (samples : List Sample) (m : Nat) (index : Nat) : W := boxP (tag "moof") fun pos => mfhd index ;; traf time samples m pos

/-- `ngx_rtmp_mp4_write_sidx` (:1090-1137); the subtraction is the one of `uint32_t` -/
def sidx (refSize earliest latest : Nat) : W :=
  let duration := (latest + 2 ^ 32 - earliest) % 2 ^ 32
  box (tag "sidx") (f32 0 ;; f32 1 ;; f32 1000 ;; f32 earliest ;; f32 duration ;; f16 0 ;; f16 1 ;; f32 refSize ;; f32 duration ;; f8 0x90 ;; f24 0)

/-- `ngx_rtmp_mp4_write_mdat` (:1159-1167) -/
def mdat (size : Nat) : W := f32 size ;; data (tag "mdat")

/-- `ngx_rtmp_dash_track_t` (ngx_rtmp_dash_module.c:36-47); `raw` is the file behind `fd`. -/
structure Track where
  id : Nat
  mask : Nat
  mdatSize : Nat := 0
  earliest : Nat := 0
  latest : Nat := 0
  samples : List Sample := []
  raw : Bytes := []
  deriving DecidableEq

/-- `ngx_rtmp_dash_open_fragment` (ngx_rtmp_dash_module.c:657-702) -/
def openTrack (id : Nat) (video : Bool) : Track := { id := id, mask := if video then 15 else 3 }

/-- NGX_RTMP_DASH_MAX_SAMPLES (ngx_rtmp_dash_module.c:26) -/
def maxSamples : Nat := 1024

/-- A frame as it comes to `ngx_rtmp_dash_append`. -/
structure Frame where
  bytes : Bytes
  key : Bool
  timestamp : Nat
  delay : Nat
  deriving DecidableEq

/-- The length of the sample before is known when the next one comes (:1092-1095). -/
def setLast (l : List Sample) (ts : Nat) : List Sample :=
  match l.getLast? with
  | none => l
  | some s => l.dropLast ++ [{ s with duration := (ts + 2 ^ 32 - s.timestamp) % 2 ^ 32 }]

/-- `ngx_rtmp_dash_append` (ngx_rtmp_dash_module.c:1044-1102) behind `update_fragments`; `wrote` is the result of the write, `none` an error. -/
def append (t : Track) (f : Frame) (wrote : Option Nat) : Track :=
  let buffer := f.bytes.take cap
  let t := { t with earliest := if t.samples.length = 0 then f.timestamp else t.earliest, latest := f.timestamp }
  if t.samples.length < maxSamples then
    match wrote with
    | none => t
    | some n =>
      { t with raw := t.raw ++ buffer.take n, mdatSize := t.mdatSize + buffer.length,
               samples := setLast t.samples f.timestamp ++ [⟨buffer.length, 0, f.delay, f.timestamp, f.key⟩] }
  else t

/-- The loop that copies the data (ngx_rtmp_dash_module.c:602-615): at the end of a file that is too short `ngx_read_fd` gives 0 for ever. -/
def copyLoop (raw : Bytes) (left : Nat) : Option Bytes :=
  if left = 0 then some []
  else if h : min (min cap left) raw.length = 0 then none
  else (copyLoop (raw.drop (min (min cap left) raw.length)) (left - min (min cap left) raw.length)).map (raw.take (min (min cap left) raw.length) ++ ·)
termination_by left
decreasing_by omega

/-- The headers (ngx_rtmp_dash_module.c:547-564); `junk` are the 44 bytes of the static buffer that are left out for `sidx`. -/
def headers (t : Track) (junk : Bytes) : Option Bytes :=
  (styp []).bind fun b =>
  let pos := b.length
  (moof t.earliest t.samples t.mask t.id (b ++ junk)).bind fun b1 =>
  let pos1 := b1.length
  (sidx (t.mdatSize + 8 + (pos1 - (pos + 44))) t.earliest t.latest (b1.take pos)).bind fun b2 =>
  mdat (t.mdatSize + 8) (b2 ++ b1.drop b2.length)

/-- `ngx_rtmp_dash_close_fragment` (ngx_rtmp_dash_module.c:524-627) on a disk that takes every write: the file, `none` if it never returns. -/
def segment (t : Track) (junk : Bytes) : Option Bytes :=
  (headers t junk).bind fun h => (copyLoop t.raw t.mdatSize).map (h ++ ·)

/-- `ngx_rtmp_dash_video` (ngx_rtmp_dash_module.c:1153-1208) with an AVC header: the frame of a message, whose first five bytes are in one buffer. -/
def videoFrame (msg : Bytes) (ts : Nat) : Option Frame :=
  match msg with
  | b0 :: b1 :: b2 :: b3 :: b4 :: rest =>
    if b1 ≠ 1 then none
    else some ⟨rest, b0.toNat / 16 == 1, ts, b4.toNat + b3.toNat * 256 + b2.toNat * 65536⟩
  | _ => none

/-- `ngx_rtmp_dash_audio` (ngx_rtmp_dash_module.c:1105-1150) with an AAC header -/
def audioFrame (msg : Bytes) (ts : Nat) : Option Frame :=
  match msg with
  | _ :: b1 :: rest => if b1 ≠ 1 then none else some ⟨rest, false, ts, 0⟩
  | _ => none

/-- What the handlers after this one find in the message: `in->buf->pos += 2` (:1147), `+= 5` (:1204). -/
def leftOver (video : Bool) (msg : Bytes) : Bytes :=
  if video then (match videoFrame msg 0 with | some _ => msg.drop 5 | none => msg)
  else (match audioFrame msg 0 with | some _ => msg.drop 2 | none => msg)

end Verif.Mp4
