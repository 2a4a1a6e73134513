import Verif.Rtmp.BitOpModel
/-
Model of how codec headers are read: ngx_rtmp_codec_module.c (RTMP) and nginx-ts-module/src/ngx_ts_avc.c, ngx_ts_aac.c (transport streams).

`ngx_uint_t` has 64 bits. A reader has, beside the bits, the number of calls to read from it, to tell how long it takes. `none` is undefined behaviour.
-/
namespace Verif.Codec
open Verif Verif.BitOp

structure St where
  br : Reader
  calls : Nat := 0

/-- A reader of something. -/
abbrev Rd := StateT St Option

/-- `ngx_rtmp_bit_read` (ngx_rtmp_bitop.c:22-52) -/
def u (n : Nat) : Rd Nat := fun s => let r := read s.br n; some (r.1, { br := r.2, calls := s.calls + 1 })

/-- `ngx_rtmp_bit_read_golomb` (ngx_rtmp_bitop.c:55-63) -/
def ue : Rd Nat := fun s => (readGolomb s.br).map fun r => (r.1, { br := r.2, calls := s.calls + 1 })

/-- `if (c) p` -/
def onlyIf {α : Type} (c : Bool) (p : Rd α) (d : α) : Rd α := if c then p else pure d

/-- `for (n = 0; n < k; n++) p` -/
def times (p : Rd Nat) : Nat → Rd Unit
  | 0 => pure ()
  | k + 1 => do
    let _ ← p
    times p k

/-! ### RTMP -/

/-- `ngx_rtmp_codec_ctx_t` (ngx_rtmp_codec_module.h:51-81), without metadata -/
structure Ctx where
  width : Nat := 0
  height : Nat := 0
  videoCodec : Nat := 0
  audioCodec : Nat := 0
  aacProfile : Nat := 0
  chanConf : Nat := 0
  sbr : Bool := false
  ps : Bool := false
  profile : Nat := 0
  compat : Nat := 0
  level : Nat := 0
  nalBytes : Nat := 0
  refFrames : Nat := 0
  sampleRate : Nat := 0
  sampleSize : Nat := 0
  channels : Nat := 0
  avcHeader : Option Bytes := none
  aacHeader : Option Bytes := none
  deriving DecidableEq

/-- `aac_sample_rates` (ngx_rtmp_codec_module.c:307-311), `freq` (ngx_ts_aac.c:22-25) -/
def rates : List Nat := [96000, 88200, 64000, 48000, 44100, 32000, 24000, 22050, 16000, 12000, 11025, 8000, 7350, 0, 0, 0]

/-- Object type (ngx_rtmp_codec_module.c:323-326, :352-355) -/
def objectType : Rd Nat := do
  let t ← u 5
  if t = 31 then do
    let x ← u 6
    pure (x + 32)
  else pure t

/-- Sampling rate (:328-333, :345-350) -/
def rate : Rd Nat := do
  let i ← u 4
  if i = 15 then u 24
  else
    match rates[i]? with
    | some r => pure r
    | none => fun _ => none

/-- `ngx_rtmp_codec_parse_aac_header` (:300-383) -/
def aacHeader (c : Ctx) : Rd Ctx := do
  let _ ← u 16
  let t ← objectType
  let r ← rate
  let ch ← u 4
  if t = 5 ∨ t = 29 then do
    let r' ← rate
    let t' ← objectType
    pure { c with aacProfile := t', sampleRate := r', chanConf := ch, sbr := true, ps := c.ps || t == 29 }
  else pure { c with aacProfile := t, sampleRate := r, chanConf := ch }

/-- Profiles with a chroma format (ngx_rtmp_codec_module.c:844-846) -/
def rtmpHigh : List Nat := [100, 110, 122, 244, 44, 83, 86, 118]

/-- What only high profiles have (:848-881) -/
def rtmpChroma : Rd Unit := do
  let cf ← ue
  let _ ← onlyIf (cf == 3) (u 1) 0
  let _ ← ue
  let _ ← ue
  let _ ← u 1
  let m ← u 1
  if m = 0 then pure () else times (u 1) (if cf = 3 then 12 else 8)

/-- `pic order cnt type` (:887-914) -/
def rtmpPoc : Rd Unit := do
  let t ← ue
  if t = 0 then do
    let _ ← ue
    pure ()
  else if t = 1 then do
    let _ ← u 1
    let _ ← ue
    let _ ← ue
    let k ← ue
    times ue k
  else pure ()

/-- Frame cropping (:940-954): left, right, top, bottom -/
def rtmpCrop : Rd (Nat × Nat × Nat × Nat) := do
  let f ← u 1
  if f = 0 then pure (0, 0, 0, 0)
  else do
    let l ← ue
    let r ← ue
    let t ← ue
    let b ← ue
    pure (l, r, t, b)

/-- `w * 16 - c * 2` of `ngx_uint_t` -/
def size64 (w c : Nat) : Nat := ((w * 16 : Nat) - (c * 2 : Nat) : Int) % (2 ^ 64 : Nat) |>.toNat

/-- The SPS in `ngx_rtmp_codec_parse_avc_header` (:830-958) -/
def rtmpSps (c : Ctx) : Rd Ctx := do
  let p ← u 8
  let _ ← u 8
  let _ ← u 8
  let _ ← ue
  let _ ← onlyIf (rtmpHigh.contains p) rtmpChroma ()
  let _ ← ue
  let _ ← rtmpPoc
  let rf ← ue
  let _ ← u 1
  let w ← ue
  let h ← ue
  let fmo ← u 1
  let _ ← onlyIf (fmo == 0) (u 1) 0
  let _ ← u 1
  let x ← rtmpCrop
  pure { c with refFrames := rf, width := size64 (w + 1) (x.1 + x.2.1), height := size64 ((2 - fmo) * (h + 1)) (x.2.2.1 + x.2.2.2) }

/-- `ngx_rtmp_codec_parse_avc_header` (:791-968) -/
def avcHeader (c : Ctx) : Rd Ctx := do
  let _ ← u 48
  let p ← u 8
  let co ← u 8
  let l ← u 8
  let nb ← u 8
  let nn ← u 8
  let c := { c with profile := p, compat := co, level := l, nalBytes := nb % 4 + 1 }
  if nn % 32 = 0 then pure c
  else do
    let _ ← u 16
    let t ← u 8
    if t % 32 ≠ 7 then pure c else rtmpSps c

/-- Runs a reader from the start of some bytes. -/
def parse {α : Type} (p : Rd α) (d : Bytes) : Option (α × St) := p { br := init d }

/-- `ngx_rtmp_is_codec_header` (ngx_rtmp.h:1001-1005) -/
def isHeader (b : Bytes) : Bool := b[1]? == some 0

/-- `sample_rates` (ngx_rtmp_codec_module.c:214-215) -/
def flvRates : List Nat := [5512, 11025, 22050, 44100]

/-- The codec of a message, from its first byte (:242-257) -/
def saveCodec (type fmt : Nat) (c : Ctx) : Option Ctx :=
  if type = 8 then
    match flvRates[(fmt &&& 0x0c) >>> 2]? with
    | none => none
    | some r => some { c with audioCodec := (fmt &&& 0xf0) >>> 4, channels := (fmt &&& 0x01) + 1, sampleSize := if fmt &&& 0x02 ≠ 0 then 2 else 1, sampleRate := if c.sampleRate = 0 then r else c.sampleRate }
  else some { c with videoCodec := fmt &&& 0x0f }

/-- The header of a message (:259-296): `first` is its first buffer, `body` all of it -/
def saveHeader (hevcId : Nat) (hevc : Ctx → Bytes → Option Ctx) (type : Nat) (first body : Bytes) (c : Ctx) : Option Ctx :=
  if first.length < 3 then some c
  else if isHeader first = false then some c
  else if type = 8 then
    if c.audioCodec = 10 then (parse (aacHeader c) first).map fun r => { r.1 with aacHeader := some body } else some c
  else if c.videoCodec = 7 then (parse (avcHeader c) first).map fun r => { r.1 with avcHeader := some body }
  else if c.videoCodec = hevcId then (hevc c first).map fun c => { c with avcHeader := some body }
  else some c

/-- `ngx_rtmp_codec_av` (:204-297): the message as a chain of buffers; the context is none before the first message. `hevc` is `ngx_rtmp_codec_parse_hevc_header`.
`none` if a byte is read that is not there. -/
def av (hevcId : Nat) (hevc : Ctx → Bytes → Option Ctx) (type : Nat) (bufs : List Bytes) (c : Option Ctx) : Option (Option Ctx) :=
  match bufs with
  | [] => none
  | first :: _ =>
    if type ≠ 8 ∧ type ≠ 9 then some c
    else
      match first with
      | [] => if type = 9 then none else some (some (c.getD {}))
      | x :: _ =>
        if type = 9 ∧ x.toNat &&& 0xf0 ≠ 0x10 ∧ x.toNat &&& 0xf0 ≠ 0x20 then some c
        else ((saveCodec type x.toNat (c.getD {})).bind (saveHeader hevcId hevc type first bufs.flatten)).map some

/-! ### Transport streams -/

/-- `ngx_ts_avc_read` (ngx_ts_avc.c:40-84), the loop: on the end of the data what was read so far stays -/
def tsLoop (br : Reader) (v n : Nat) : Nat × Reader :=
  if _hn : n = 0 then (v, br) else
  match br.data with
  | [] => (v, { br with err := true })
  | b :: rest =>
    let k := min (8 - br.offs.val) n
    let v' := ((v <<< k) ||| ((b.toNat &&& (0xff >>> br.offs.val)) >>> (8 - br.offs.val - k))) % 2 ^ 64
    if br.offs.val + k = 8 then
      tsLoop { br with data := rest, offs := 0 } v' (n - k)
    else
      tsLoop { br with offs := Fin.ofNat 8 (br.offs.val + k) } v' (n - k)
termination_by n
decreasing_by
  all_goals
    have := br.offs.isLt
    omega

def tsRead (br : Reader) (n : Nat) : Nat × Reader := if br.err then (0, br) else tsLoop br 0 n

/-- The loop of `ngx_ts_avc_read_golomb` (:102-110): `none` in place of the number if it returns 0 -/
def tsZeros : Nat → Reader → Nat → Option Nat × Reader
  | 0, br, _ => (none, br)
  | fuel + 1, br, n =>
    let r := tsRead br 1
    if r.1 = 0 then (if r.2.err then (none, r.2) else tsZeros fuel r.2 (n + 1)) else (some n, r.2)

/-- `ngx_ts_avc_read_golomb` (:87-118); `none`: shift by 64 or more -/
def tsGolomb (br : Reader) : Option (Nat × Reader) :=
  if br.err then some (0, br)
  else
    match tsZeros (8 * br.data.length + 1) br 0 with
    | (none, br) => some (0, br)
    | (some n, br) =>
      if 64 ≤ n then none
      else
        let r := tsRead br n
        some ((2 ^ n - 1 + r.1) % 2 ^ 64, r.2)

def tu (n : Nat) : Rd Nat := fun s => let r := tsRead s.br n; some (r.1, { br := r.2, calls := s.calls + 1 })
def tue : Rd Nat := fun s => (tsGolomb s.br).map fun r => (r.1, { br := r.2, calls := s.calls + 1 })

/-- `ngx_ts_avc_params_t` (ngx_ts_avc.h:17-51), what is used, and what the size is from -/
structure Avc where
  profile : Nat
  constraints : Nat
  level : Nat
  refFrames : Nat
  widthMbs : Nat
  heightUnits : Nat
  frameMbsOnly : Nat
  crop : Nat × Nat × Nat × Nat
  width : Nat
  height : Nat
  deriving DecidableEq

/-- Profiles with a chroma format (ngx_ts_avc.c:159-170) -/
def tsHigh : List Nat := [100, 110, 122, 244, 44, 83, 86, 118, 128, 138, 139, 134]

/-- `for (i = 0; i < n; i++)` over flags of scaling lists (:197-202): false if there is one, and it fails -/
def noLists : Nat → Rd Bool
  | 0 => pure true
  | k + 1 => do
    let f ← tu 1
    if f = 0 then noLists k else pure false

/-- What only high profiles have (:172-203) -/
def tsChroma : Rd Bool := do
  let cf ← tue
  let _ ← onlyIf (cf == 3) (tu 1) 0
  let _ ← tue
  let _ ← tue
  let _ ← tu 1
  let m ← tu 1
  if m = 0 then pure true else noLists (if cf = 3 then 12 else 8)

/-- `1 << (ngx_ts_avc_read_golomb(&br) + 4)` (:207, :214): an `int` -/
def shiftInt : Rd Unit := do
  let k ← tue
  if 31 ≤ (k + 4) % 2 ^ 64 then (fun _ => none) else pure ()

/-- `pic_order_cnt_type` (:209-233) -/
def tsPoc : Rd Unit := do
  let t ← tue
  if t = 0 then shiftInt
  else if t = 1 then do
    let _ ← tu 1
    let _ ← tue
    let _ ← tue
    let k ← tue
    times tue k
  else pure ()

/-- Frame cropping (:258-273) -/
def tsCrop : Rd (Nat × Nat × Nat × Nat) := do
  let f ← tu 1
  if f = 0 then pure (0, 0, 0, 0)
  else do
    let l ← tue
    let r ← tue
    let t ← tue
    let b ← tue
    pure (l, r, t, b)

/-- From `log2_max_frame_num_minus4` on (:206-297); `none` in the result is NULL -/
def tsRest (p co l : Nat) : Rd (Option Avc) := do
  let _ ← shiftInt
  let _ ← tsPoc
  let rf ← tue
  let _ ← tu 1
  let w ← tue
  let h ← tue
  let fmo ← tu 1
  let _ ← onlyIf (fmo == 0) (tu 1) 0
  let _ ← tu 1
  let x ← tsCrop
  let s ← get
  if s.br.err then pure none
  else pure (some { profile := p, constraints := co, level := l, refFrames := rf, widthMbs := w + 1, heightUnits := h + 1, frameMbsOnly := fmo, crop := x, width := size64 (w + 1) (x.1 + x.2.1), height := size64 ((2 - fmo) * (h + 1)) (x.2.2.1 + x.2.2.2) })

/-- `ngx_ts_avc_decode_params` (:121-298) -/
def tsAvc : Rd (Option Avc) := do
  let t ← tu 8
  if t % 32 ≠ 7 then pure none
  else do
    let p ← tu 8
    let co ← tu 8
    let l ← tu 8
    let _ ← tue
    let ok ← onlyIf (tsHigh.contains p) tsChroma true
    if ok then tsRest p co l else pure none

/-- `ngx_ts_aac_params_t` (ngx_ts_aac.h:18-24) -/
structure Aac where
  version : Nat
  profile : Nat
  freqIndex : Nat
  freq : Nat
  chan : Nat
  deriving DecidableEq

/-- `ngx_ts_aac_decode_params` (ngx_ts_aac.c:12-69); the outer `none` is an access outside the table, of which there is none -/
def tsAac : Bytes → Option (Option Aac)
  | _ :: b1 :: b2 :: b3 :: _ :: _ :: _ :: _ =>
    let i := b2.toNat >>> 2 &&& 0x0f
    match rates[i]? with
    | none => none
    | some 0 => some none
    | some f => some (some { version := if b1.toNat &&& 0x08 ≠ 0 then 1 else 0, profile := (b2.toNat >>> 6) + 1, freqIndex := i, freq := f, chan := (b2.toNat &&& 0x01) <<< 2 ||| b3.toNat >>> 6 })
  | _ => some none

end Verif.Codec
