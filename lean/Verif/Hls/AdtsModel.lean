import Verif.Hls.AnnexModel
/-
AAC messages collected into PES packets: hls/ngx_rtmp_hls_module.c, mpegts/ngx_mpegts_live_module.c; one by one: ngx_live_record.c (all under modules/nginx-rtmp-module).
-/
namespace Verif.Adts
open Verif Annex

/-- hls/ngx_rtmp_hls_module.c:1646-1703 (ngx_live_record.c:533-590): `parse_aac_header`: object type, index of the sample rate, channels. -/
def aacHeader (hdr : Cur) : Option (Nat × Nat × Nat) :=
  match copy 2 hdr with
  | (_, none) => none
  | (_, some c1) =>
    match copy 1 c1 with
    | (_, none) => none
    | (x0, some c2) =>
      match copy 1 c2 with
      | (_, none) => none
      | (x1, some _) =>
        let b0 := beDec x0
        let b1 := beDec x1
        let obj := b0 >>> 3
        if obj = 0 ∨ obj = 0x1f then none
        else
          let sr := ((b0 <<< 1) &&& 0x0f) ||| ((b1 &&& 0x80) >>> 7)
          if sr = 0x0f then none
          else some (if obj > 4 then 2 else obj, sr, (b1 >>> 3) &&& 0x0f)

/-- hls/ngx_rtmp_hls_module.c:1944-1951 (mpegts/ngx_mpegts_live_module.c:1564-1571, ngx_live_record.c:810-817): the ADTS header; `(u_char)` keeps the low 8 bits. -/
def adts (obj sr ch size : Nat) : Bytes :=
  [0xff, 0xf1, UInt8.ofNat (((obj - 1) <<< 6) ||| (sr <<< 2) ||| ((ch &&& 4) >>> 2)), UInt8.ofNat (((ch &&& 3) <<< 6) ||| ((size >>> 11) &&& 3)),
    UInt8.ofNat (size >>> 3), UInt8.ofNat ((size <<< 5) ||| 0x1f), 0xfc]

/-- hls/ngx_rtmp_hls_module.c:1922-1930: the payload is copied while there is room. -/
def fill : Nat → Cur → Bytes
  | _, [] => []
  | room, b :: bs => if room = 0 then [] else b.take room ++ fill (room - b.length) bs

/-- ngx_rtmp.h:1001-1005: `ngx_rtmp_is_codec_header`; it looks at the first buffer only. -/
def isHeader : Cur → Bool
  | (_ :: 0 :: _) :: _ => true
  | _ => false

/-- `cap`: audio_buffer_size; `delay`: max_audio_delay; `rate`: sample_rate of the codec context; `hdr`: its aac_header. -/
structure Cfg where
  cap : Nat
  delay : Nat
  sync : Nat
  rate : Nat
  hdr : Cur

/-- `buf`: aframe; `pts`, `num`, `base`: aframe_pts, aframe_num, aframe_base (64 bits); `opened`: a fragment is open (always, in mpegts/ngx_mpegts_live_module.c); `out`: the
PES packets written so far. -/
structure St where
  buf : Bytes := []
  pts : Nat := 0
  num : Nat := 0
  base : Nat := 0
  opened : Bool := false
  out : List (Nat × Bytes) := []

/-- `eof`: hls/ngx_rtmp_hls_module.c:2314, flush without anything else; `junk`: what the five bytes in front of the payload happen to contain. -/
inductive Ev where
  | opens
  | closes
  | eof
  | video (ts : Nat)
  | audio (ts : Nat) (msg : Cur) (junk : Bytes)

/-- hls/ngx_rtmp_hls_module.c:1778-1820 (mpegts/ngx_mpegts_live_module.c:639-686): `flush_audio`; the file system is not part of the model. -/
def flush (st : St) : St :=
  if st.opened = false ∨ st.buf = [] then st else { st with out := st.out ++ [(st.pts, st.buf)], buf := [] }

/-- hls/ngx_rtmp_hls_module.c:1768-1774 (mpegts/ngx_mpegts_live_module.c:1366-1370, :1518-1522): audio that has waited is flushed; uint64_t. -/
def due (cfg : Cfg) (rate : Nat) (now : Nat) (st : St) : St :=
  if st.opened = true ∧ st.buf ≠ [] ∧ (st.pts + cfg.delay * 90 / rate) % 2 ^ 64 < now then flush st else st

/-- `(int64_t)` of an uint64_t. -/
def signed (n : Nat) : Int := if n % 2 ^ 64 < 2 ^ 63 then (n % 2 ^ 64 : Nat) else ((n % 2 ^ 64 : Nat) : Int) - 2 ^ 64

/-- hls/ngx_rtmp_hls_module.c:1979-2018 (mpegts/ngx_mpegts_live_module.c:1573-1612): the time of the packet, set by its first frame. `sync` times 90 is taken not to overflow. -/
def align (cfg : Cfg) (now : Nat) (first : Bool) (st : St) : St :=
  if first = false then { st with num := (st.num + 1) % 2 ^ 64 }
  else if cfg.sync = 0 ∨ cfg.rate = 0 then { st with pts := now }
  else
    let est := (st.base + st.num * 90000 * 1024 % 2 ^ 64 / cfg.rate) % 2 ^ 64
    let d := signed (est + (2 ^ 64 - now % 2 ^ 64))
    if d ≤ cfg.sync * 90 ∧ (cfg.sync : Int) * -90 ≤ d then { st with num := (st.num + 1) % 2 ^ 64, pts := est }
    else { st with pts := now, base := now, num := 1 }

/-- hls/ngx_rtmp_hls_module.c:1910-1951 (mpegts/ngx_mpegts_live_module.c:1531-1571): the frame behind what is in the buffer. The first two bytes of the payload make room for
the header. -/
def append (cfg : Cfg) (now : Nat) (msg : Cur) (junk : Bytes) (st : St) : St :=
  if cfg.cap < st.buf.length + 7 then st
  else
    let data := fill (cfg.cap - (st.buf.length + 5)) msg
    match aacHeader cfg.hdr with
    | none => { st with buf := st.buf ++ (junk.take 5 ++ data) }
    | some (obj, sr, ch) =>
      align cfg now st.buf.isEmpty { st with buf := st.buf ++ (adts obj sr ch (msg.flatten.length - 2 + 7) ++ data.drop 2) }

/-- hls/ngx_rtmp_hls_module.c:1823-2019 for AAC (mpegts/ngx_mpegts_live_module.c:1453-1612): an audio message. What happens to the fragment in between (`update_fragment`) are the
events `opens` and `closes` in front of this one. -/
def audio (cfg : Cfg) (ts : Nat) (msg : Cur) (junk : Bytes) (st : St) : St :=
  if msg.flatten.length < 2 ∨ isHeader msg = true then st
  else
    let size := msg.flatten.length - 2 + 7
    if cfg.cap < size then st
    else
      let st1 := due cfg 2 (ts * 90) st
      append cfg (ts * 90) msg junk (if cfg.cap < st1.buf.length + size then flush st1 else st1)

/-- hls/ngx_rtmp_hls_module.c:976 (fragment closed), :1098-1113 (opened: buffered audio first), :2280-2284 (video). -/
def step (cfg : Cfg) (st : St) : Ev → St
  | .opens => if st.opened = true then st else flush { st with opened := true }
  | .closes => { st with opened := false }
  | .eof => flush st
  | .video ts => due cfg 1 (ts * 90) st
  | .audio ts msg junk => audio cfg ts msg junk st

def run (cfg : Cfg) (st : St) (evs : List Ev) : St := evs.foldl (step cfg) st

/-- ngx_live_record.c:785-829: one message, one PES packet; `none`: the frame buffer (`cap` bytes) overflows; `some none`: nothing is written. -/
def recordAac (cap : Nat) (hdr msg : Cur) : Option (Option Bytes) :=
  if msg.flatten.length < 2 then some none
  else
    match copy 2 msg with
    | (_, none) => some none
    | (_, some c) =>
      match aacHeader hdr with
      | none => some none
      | some (obj, sr, ch) =>
        (put cap [] (adts obj sr ch (msg.flatten.length - 2 + 7) ++ c.flatten)).map some

/-- hls/ngx_rtmp_hls_module.c:1961-1976: MP3, the first byte of the first buffer left out; `none`: the length of an empty first buffer minus 1 (size_t) is copied. -/
def mp3Fill (room : Nat) : Cur → Option Bytes
  | [] => some []
  | b :: bs =>
    if room = 0 then some []
    else if (b.take room).length = 0 then none
    else some ((b.take room).drop 1 ++ fill (room - ((b.take room).length - 1)) bs)

end Verif.Adts
