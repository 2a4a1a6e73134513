import Verif.StatXml.Spec
import Verif.Json.Model
/-
Model of modules/nginx-rtmp-module/ngx_rtmp_stat_module.c. Line numbers without a file are those of that file.

What is written is a list of pieces in the order of the calls of `ngx_rtmp_stat_output`; each piece goes into a chain of buffers. `ngx_escape_html` and the conversions of `ngx_snprintf` are nginx core:
`<`, `>`, `&`, `"` become references; `%ui`, `%uL`, `%i`, `%D`, `%T` are decimal; no more than the room given is written. Texts of fractions (`%f`, `%.1f`) and names of codecs are given. Memory can be had.
`NGX_RTMP_POOL_DEBUG` is not defined; the macros of versions are.
-/
namespace Verif.StatXml

open Verif.Json (dec cstr)

/-- `data`, `len`, `escape` of a call -/
structure Write where
  data : Bytes
  esc : Bool

/-- A buffer: what is in it (`pos` to `last`), and its room (`pos` to `end`) -/
structure Buf where
  data : Bytes
  cap : Nat

/-- The chain, and which link `ll` points to (the one behind the last if there is none) -/
structure Chain where
  bufs : List Buf
  k : Nat

/-- `ngx_rtmp_stat_escape` (:128-158) -/
def clean (l : Bytes) : Bytes := if l.all fun b => !(b < 0x20 || 0x7f ≤ b) then l else l.map fun b => if b < 0x20 || 0x7f ≤ b then 0x20 else b

/-- `ngx_escape_html` (nginx core) of a byte -/
def html (b : UInt8) : Bytes :=
  if b = 0x3c then [0x26, 0x6c, 0x74, 0x3b] else if b = 0x3e then [0x26, 0x67, 0x74, 0x3b] else if b = 0x26 then [0x26, 0x61, 0x6d, 0x70, 0x3b]
  else if b = 0x22 then [0x26, 0x71, 0x75, 0x6f, 0x74, 0x3b] else [b]

/-- The same without a destination: what is needed beyond the length -/
def htmlMore (b : UInt8) : Nat := if b = 0x3c then 3 else if b = 0x3e then 3 else if b = 0x26 then 4 else if b = 0x22 then 5 else 0

/-- `ngx_rtmp_stat_output` (:168-215); `none`: written outside of a buffer -/
def output (c : Chain) (w : Write) : Option Chain :=
  if w.data.length = 0 then some c
  else
    let data := if w.esc then clean w.data else w.data
    let real := if w.esc then data.length + (data.map htmlMore).sum else data.length
    let k := match c.bufs[c.k]? with
      | some b => if b.cap < b.data.length + real then c.k + 1 else c.k
      | none => c.k
    let bufs : List Buf := match c.bufs[k]? with
      | some _ => c.bufs
      | none => c.bufs ++ [⟨[], max 256 real⟩]
    match bufs[k]? with
    | none => none
    | some b =>
      let d := b.data ++ (if w.esc then data.flatMap html else data)
      if b.cap < d.length then none else some ⟨bufs.set k { b with data := d }, k⟩

/-- `NGX_RTMP_STAT_L`, `_S`, `_CS` (:224-236) -/
def lit (l : Bytes) : Write := ⟨l, false⟩

/-- `NGX_RTMP_STAT_ES` (:239) -/
def esc (l : Bytes) : Write := ⟨l, true⟩

/-- `NGX_RTMP_STAT_ECS` (:245): up to the zero -/
def escC (l : Bytes) : Write := ⟨cstr l, true⟩

/-- `NGX_RTMP_STAT(buf, ngx_snprintf(buf, sizeof(buf), ...) - buf)` -/
def num (size : Nat) (t : Bytes) : Write := ⟨t.take size, false⟩

/-- `<name>`, `</name>`, `<name/>` and the end of a line, as they stand in literals -/
def o (n : Bytes) : Bytes := 0x3c :: n ++ [0x3e]
def c (n : Bytes) : Bytes := 0x3c :: 0x2f :: n ++ [0x3e]
def e (n : Bytes) : Bytes := 0x3c :: n ++ [0x2f, 0x3e]
def nl : Bytes := [0x0d, 0x0a]

/-- `%i`, `%D`, `%T` -/
def decI (n : Int) : Bytes := if n < 0 then 0x2d :: dec n.natAbs else dec n.natAbs

/-- A number of 64 bits as a signed one -/
def signed (n : Nat) : Int := if n % 2 ^ 64 < 2 ^ 63 then (n % 2 ^ 64 : Nat) else (n % 2 ^ 64 : Nat) - 2 ^ 64

/-- The difference of two unsigned numbers, cast to a signed one -/
def diff (a b : Nat) : Int := signed (a % 2 ^ 64 + 2 ^ 64 - b % 2 ^ 64)

/-- A number of 32 bits as a signed one (`%D`) -/
def signed32 (n : UInt32) : Int := if n.toNat < 2 ^ 31 then n.toNat else (n.toNat : Int) - 2 ^ 32

/-- `NGX_INT_T_LEN`, `NGX_TIME_T_LEN`; `NGX_INT32_LEN` (nginx core, 64 bits) -/
def INT_LEN : Nat := 20
def INT32_LEN : Nat := 11

/-- `ngx_rtmp_stat_bw` (:253-282); `bytes` is NGX_RTMP_STAT_BW_BYTES. -/
def statBw (sec : Nat) (b : Bandwidth.Bw) (name : Bytes) (bytes : Bool) : List Write :=
  let b := Bandwidth.update b sec 0
  [lit [0x3c, 0x62, 0x77, 0x5f], lit name, num (20 + 9) (0x3e :: dec (b.bandwidth * 8 % 2 ^ 64) ++ [0x3c, 0x2f, 0x62, 0x77, 0x5f]), lit name, lit (0x3e :: nl)] ++
  if bytes then
    [lit [0x3c, 0x62, 0x79, 0x74, 0x65, 0x73, 0x5f], lit name, num (20 + 9) (0x3e :: dec b.bytes ++ [0x3c, 0x2f, 0x62, 0x79, 0x74, 0x65, 0x73, 0x5f]), lit name, lit (0x3e :: nl)]
  else []

/-- `"in"`, `"out"`, `"audio"`, `"video"` -/
def sIn : Bytes := [0x69, 0x6e]
def sOut : Bytes := [0x6f, 0x75, 0x74]
def sAudio : Bytes := [0x61, 0x75, 0x64, 0x69, 0x6f]
def sVideo : Bytes := [0x76, 0x69, 0x64, 0x65, 0x6f]

/-- `ngx_rtmp_stat_client` (:326-370) -/
def statClient (w : World) (x : Client) : List Write :=
  [lit (o nId), num INT_LEN (dec x.number), lit (c nId), lit (o nAddress), esc x.addr, lit (c nAddress), lit (o nRemoteAddress), esc x.remote, lit (c nRemoteAddress),
    lit (o nTime), num INT_LEN (decI (diff w.msec x.epoch)), lit (c nTime)] ++
  (if x.flashver.length ≠ 0 then [lit (o nFlashver), esc x.flashver, lit (c nFlashver)] else []) ++
  (if x.pageUrl.length ≠ 0 then [lit (o nPageurl), esc x.pageUrl, lit (c nPageurl)] else []) ++
  (if x.swfUrl.length ≠ 0 then [lit (o nSwfurl), esc x.swfUrl, lit (c nSwfurl)] else [])

/-- What is written of a session (:472-504) -/
def clientWrites (w : World) (x : Client) : List Write :=
  lit (o nClient) :: statClient w x ++
  [lit (o nDropped), num INT_LEN (dec x.dropped), lit (c nDropped), lit (o nAvsync), num INT32_LEN (decI (signed32 (x.audioTs - x.videoTs))), lit (c nAvsync),
    lit (o nTimestamp), num INT32_LEN (decI (signed32 x.currentTime)), lit (c nTimestamp)] ++
  (if x.publishing then [lit (e nPublishing)] else []) ++ (if x.active then [lit (e nActive)] else []) ++ [lit (c nClient ++ nl)]

/-- The loop over sessions (:470-508): what is written, how many, the codecs -/
def clientLoop (listed : Bool) (w : World) : List Client → List Write × Nat × Option Codec → List Write × Nat × Option Codec
  | [], s => s
  | x :: l, (ws, n, codec) => clientLoop listed w l (ws ++ (if listed then clientWrites w x else []), n + 1, if x.publishing then x.codec else codec)

/-- `ngx_rtmp_stat_get_aac_profile` (:373-395) -/
def aacProfile (p : Nat) (sbr ps : Bool) : Bytes :=
  match p with
  | 1 => [0x4d, 0x61, 0x69, 0x6e]
  | 2 => if ps then [0x48, 0x45, 0x76, 0x32] else if sbr then [0x48, 0x45] else [0x4c, 0x43]
  | 3 => [0x53, 0x53, 0x52]
  | 4 => [0x4c, 0x54, 0x50]
  | 5 => [0x53, 0x42, 0x52]
  | _ => []

/-- `ngx_rtmp_stat_get_avc_profile` (:398-410) -/
def avcProfile (p : Nat) : Bytes :=
  match p with
  | 66 => [0x42, 0x61, 0x73, 0x65, 0x6c, 0x69, 0x6e, 0x65]
  | 77 => [0x4d, 0x61, 0x69, 0x6e]
  | 100 => [0x48, 0x69, 0x67, 0x68]
  | _ => []

/-- `video` of `meta` (:514-553) -/
def videoWrites (x : Codec) : List Write :=
  [lit (o nVideo), lit (o nWidth), num INT_LEN (dec x.width), lit (c nWidth ++ o nHeight), num INT_LEN (dec x.height), lit (c nHeight ++ o nFrameRate), num INT_LEN x.rate, lit (c nFrameRate)] ++
  (if x.videoName ≠ [] then [lit (o nCodec), escC x.videoName, lit (c nCodec)] else []) ++
  (if x.avcProfile ≠ 0 then [lit (o nProfile), lit (avcProfile x.avcProfile), lit (c nProfile)] else []) ++
  (if x.avcLevel ≠ 0 then [lit (o nCompat), num INT_LEN (dec x.avcCompat), lit (c nCompat)] else []) ++
  (if x.avcLevel ≠ 0 then [lit (o nLevel), num INT_LEN x.level, lit (c nLevel)] else []) ++ [lit (c nVideo)]

/-- `audio` of `meta` (:555-587) -/
def audioWrites (x : Codec) : List Write :=
  [lit (o nAudio)] ++
  (if x.audioName ≠ [] then [lit (o nCodec), escC x.audioName, lit (c nCodec)] else []) ++
  (if x.aacProfile ≠ 0 then [lit (o nProfile), lit (aacProfile x.aacProfile x.sbr x.ps), lit (c nProfile)] else []) ++
  (if x.chanConf ≠ 0 then [lit (o nChannels), num INT_LEN (dec x.chanConf), lit (c nChannels)]
    else if x.channels ≠ 0 then [lit (o nChannels), num INT_LEN (dec x.channels), lit (c nChannels)] else []) ++
  (if x.sampleRate ≠ 0 then [lit (o nSampleRate), num INT_LEN (dec x.sampleRate), lit (c nSampleRate)] else []) ++ [lit (c nAudio)]

/-- `meta` (:511-590) -/
def metaWrites (x : Codec) : List Write := [lit (o nMeta)] ++ videoWrites x ++ audioWrites x ++ [lit (c nMeta ++ nl)]

/-- The loop that looks for the name (:441-449): back from the zero to a slash or to the first byte. `n` is the place of `p`. -/
def nameLoop (s : Bytes) : Nat → Nat
  | 0 => 0
  | n + 1 => if s[n + 1]? = some 0x2f then n + 1 else nameLoop s n

/-- What is shown as name (:440-451) -/
def streamName (s : Bytes) : Bytes :=
  let s := cstr s
  let p := nameLoop s s.length
  s.drop (if p ≠ 0 then p + 1 else p)

/-- What is written of a stream (:436-607), and its number of sessions -/
def streamWrites (listed : Bool) (w : World) (s : Stream) : List Write × Nat :=
  let x := clientLoop listed w s.clients ([], 0, none)
  ([lit (o nStream ++ nl), lit (o nName), esc (streamName s.name), lit (c nName ++ nl), lit (o nTime), num INT_LEN (decI (diff w.msec s.epoch)), lit (c nTime)] ++
    statBw w.sec s.bwIn sIn true ++ statBw w.sec s.bwOut sOut true ++ statBw w.sec s.bwAudio sAudio false ++ statBw w.sec s.bwVideo sVideo false ++ x.1 ++
    (match x.2.2 with
      | some y => metaWrites y
      | none => []) ++
    [lit (o nNclients), num INT_LEN (dec x.2.1), lit (c nNclients ++ nl)] ++ (if s.publishing then [lit (e nPublishing ++ nl)] else []) ++ (if s.active then [lit (e nActive ++ nl)] else []) ++
    [lit (c nStream ++ nl)], x.2.1)

/-- The loop over the streams of a bucket (:435-608) -/
def streamLoop (listed : Bool) (w : World) : List Stream → List Write × Nat → List Write × Nat
  | [], x => x
  | s :: l, (ws, total) => streamLoop listed w l (ws ++ (streamWrites listed w s).1, total + (streamWrites listed w s).2)

/-- The loop over buckets (:434-609) -/
def bucketLoop (listed : Bool) (w : World) : List (List Stream) → List Write × Nat → List Write × Nat
  | [], x => x
  | b :: l, x => bucketLoop listed w l (streamLoop listed w b x)

/-- `ngx_rtmp_stat_live` (:413-617) -/
def statLive (listed : Bool) (w : World) (s : Server) : List Write :=
  let x := bucketLoop listed w s.streams ([], 0)
  [lit (o nLive ++ nl)] ++ x.1 ++ [lit (o nNclients), num INT_LEN (dec x.2), lit (c nNclients ++ nl), lit (c nLive ++ nl)]

/-- What is written of a server (:687-694): its id is not escaped. -/
def serverWrites (listed : Bool) (w : World) (s : Server) : List Write :=
  [lit (o nServer ++ nl), lit (o nServerid), lit (cstr s.id), lit (c nServerid ++ nl)] ++ statLive listed w s ++ [lit (c nServer ++ nl)]

/-- The loops over servers (:685-696) -/
def serverLoop (listed : Bool) (w : World) : List (List Server) → List Write → List Write
  | [], ws => ws
  | b :: l, ws => serverLoop listed w l (b.foldl (fun ws s => ws ++ serverWrites listed w s) ws)

/-- `<?xml version="1.0" encoding="utf-8" ?>` -/
def xmlDecl : Bytes :=
  [0x3c, 0x3f, 0x78, 0x6d, 0x6c, 0x20, 0x76, 0x65, 0x72, 0x73, 0x69, 0x6f, 0x6e, 0x3d, 0x22, 0x31, 0x2e, 0x30, 0x22, 0x20, 0x65, 0x6e, 0x63, 0x6f, 0x64, 0x69, 0x6e, 0x67, 0x3d, 0x22, 0x75, 0x74, 0x66, 0x2d,
    0x38, 0x22, 0x20, 0x3f, 0x3e]

/-- `<?xml-stylesheet type="text/xsl" href="` -/
def sheetDecl : Bytes :=
  [0x3c, 0x3f, 0x78, 0x6d, 0x6c, 0x2d, 0x73, 0x74, 0x79, 0x6c, 0x65, 0x73, 0x68, 0x65, 0x65, 0x74, 0x20, 0x74, 0x79, 0x70, 0x65, 0x3d, 0x22, 0x74, 0x65, 0x78, 0x74, 0x2f, 0x78, 0x73, 0x6c, 0x22, 0x20, 0x68,
    0x72, 0x65, 0x66, 0x3d, 0x22]

/-- Everything that is written (:639-698) -/
def writes (listed : Bool) (sheet : Bytes) (w : World) : List Write :=
  [lit (xmlDecl ++ nl)] ++ (if sheet.length ≠ 0 then [lit sheetDecl, esc sheet, lit ([0x22, 0x20, 0x3f, 0x3e] ++ nl)] else []) ++
  [lit (o nRtmp ++ nl), lit (o nNginxVersion ++ w.version ++ c nNginxVersion ++ nl), lit (o nNginxRtmpVersion ++ w.rtmpVersion ++ c nNginxRtmpVersion ++ nl),
    lit (o nCompiler ++ w.compiler ++ c nCompiler ++ nl), lit (o nBuilt ++ w.built ++ c nBuilt ++ nl), lit (o nPid), num INT_LEN (dec w.pid), lit (c nPid ++ nl),
    lit (o nUptime), num INT_LEN (decI (diff w.sec w.start)), lit (c nUptime ++ nl), lit (o nNaccepted), num INT_LEN (dec w.naccepted), lit (c nNaccepted ++ nl)] ++
  statBw w.sec w.bwIn sIn true ++ statBw w.sec w.bwOut sOut true ++ serverLoop listed w w.servers [] ++ [lit (c nRtmp ++ nl)]

def outputAll : Chain → List Write → Option Chain
  | c, [] => some c
  | c, x :: l => (output c x).bind fun c => outputAll c l

/-- What is answered: `content_length_n`, the buffers, and which of them has `last_buf` -/
structure Answer where
  length : Nat
  bufs : List Buf
  last : Nat

/-- `ngx_rtmp_stat_handler` (:620-709), with statistics switched on; `none`: written outside of a buffer. `listed` is NGX_RTMP_STAT_CLIENTS. -/
def handler (listed : Bool) (sheet : Bytes) (w : World) : Option Answer :=
  (outputAll ⟨[], 0⟩ (writes listed sheet w)).bind fun c => match c.bufs[c.k]? with
    | none => none
    | some _ => some ⟨(c.bufs.map (·.data.length)).sum, c.bufs, c.k⟩

end Verif.StatXml
