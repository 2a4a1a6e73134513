import Verif.Json.StatSpec
import Verif.Json.Model
/-
Model of the statistics as JSON: modules/nginx-rtmp-module/ngx_live_stat.c and the handler of ngx_rtmp_sys_stat_module.c. Line numbers without a file are those of ngx_live_stat.c.

Objects of cJSON are lists of members, in the order they are added; `cJSON_AddStringToObject` copies a C string. Memory for them can be had.
-/
namespace Verif.Json

/-- `cJSON_CreateString` (json/cJSON.c:2444-2459): strdup -/
def mkStr (s : Bytes) : Val := .str (cstr s)

def mkNum (n : Nat) : Val := .num n

/-- `ngx_live_stat_bw` (:16-29) with NGX_LIVE_STAT_BW_BYTES -/
def statBw (sec : Nat) (b : Bandwidth.Bw) : Val :=
  let b := Bandwidth.update b sec 0
  .obj [(kBw, mkNum (b.bandwidth * 8 % 2 ^ 64)), (kBytes, mkNum b.bytes)]

/-- `CONVERT_CSTRING` (:32-42): `ngx_snprintf` with 1023 bytes of room, and a zero -/
def convert (s : Bytes) : Bytes := if s.length = 0 then [0] else s.take 1023 ++ [0]

/-- `ngx_live_stat_client` (:51-74); the difference of times is cast to a signed number. -/
def statClient (w : World) (c : Client) : List (Bytes × Val) :=
  [(kId, mkNum c.number), (kAddress, mkStr (convert c.addr)), (kRemoteAddress, mkStr (convert c.remote)), (kTime, .num ((w.msec : Int) - c.epoch))] ++
  (if c.flashver.length ≠ 0 then [(kFlashver, mkStr (convert c.flashver))] else []) ++
  (if c.pageUrl.length ≠ 0 then [(kPageurl, mkStr (convert c.pageUrl))] else []) ++
  (if c.swfUrl.length ≠ 0 then [(kSwfurl, mkStr (convert c.swfUrl))] else [])

/-- `ngx_live_protocol_string` (ngx_rtmp.c:14-19) -/
def protocolString : Kind → Bytes
  | .rtmp => [0x72, 0x74, 0x6d, 0x70]
  | .flv => [0x68, 0x74, 0x74, 0x70, 0x2d, 0x66, 0x6c, 0x76]
  | .hls => [0x68, 0x6c, 0x73, 0x2b]
  | .ts => [0x68, 0x74, 0x74, 0x70, 0x2d, 0x74, 0x73]

/-- The item of a client (:181-200); `avsync` is a difference of 32 bits. -/
def clientItem (w : World) (c : Client) : Val :=
  .obj (statClient w c ++ [(kDropped, mkNum c.dropped), (kAvsync, mkNum (c.audioTs - c.videoTs).toNat), (kTimestamp, mkNum c.currentTime.toNat), (kActive, .bool c.active),
    (kPublishing, .bool c.publishing), (kRelay, .bool c.relay), (kInterprocess, .bool c.interprocess), (kProtocol, mkStr (protocolString c.kind))])

/-- Counters of a stream (:173-177) -/
structure Counts where
  rtmp : Nat := 0
  flv : Nat := 0
  hls : Nat := 0
  ts : Nat := 0

/-- The loop over clients (:179-228): items, codecs, counters -/
def clientLoop (w : World) : List Client → List Val × Option Codec × Counts → List Val × Option Codec × Counts
  | [], x => x
  | c :: l, (items, codec, n) =>
    let items := items ++ [clientItem w c]
    if c.joinedAsPublisher then clientLoop w l (items, c.codec, n)
    else if c.relay || c.interprocess then clientLoop w l (items, codec, n)
    else clientLoop w l (items, codec, match c.kind with
      | .rtmp => { n with rtmp := n.rtmp + 1 }
      | .flv => { n with flv := n.flv + 1 }
      | .hls => { n with hls := n.hls + 1 }
      | .ts => { n with ts := n.ts + 1 })

/-- `ngx_live_stat_get_aac_profile` (:77-99) -/
def aacProfile (p : Nat) (sbr ps : Bool) : Bytes :=
  match p with
  | 1 => [0x4d, 0x61, 0x69, 0x6e]
  | 2 => if ps then [0x48, 0x45, 0x76, 0x32] else if sbr then [0x48, 0x45] else [0x4c, 0x43]
  | 3 => [0x53, 0x53, 0x52]
  | 4 => [0x4c, 0x54, 0x50]
  | 5 => [0x53, 0x42, 0x52]
  | _ => []

/-- `ngx_live_stat_get_avc_profile` (:102-114) -/
def avcProfile (p : Nat) : Bytes :=
  match p with
  | 66 => [0x42, 0x61, 0x73, 0x65, 0x6c, 0x69, 0x6e, 0x65]
  | 77 => [0x4d, 0x61, 0x69, 0x6e]
  | 100 => [0x48, 0x69, 0x67, 0x68]
  | _ => []

/-- `meta` (:230-272) -/
def statMeta (c : Codec) : Val :=
  .obj [
    (kVideo, .obj (
      [(kWidth, mkNum c.width), (kHeight, mkNum c.height), (kFrameRate, mkStr c.rate)] ++
      (if c.videoName ≠ [] then [(kCodec, mkStr c.videoName)] else []) ++
      (if c.avcProfile ≠ 0 then [(kProfile, mkStr (avcProfile c.avcProfile))] else []) ++
      (if c.avcLevel ≠ 0 then [(kCompat, mkStr c.compat)] else []))),
    (kAudio, .obj (
      (if c.audioName ≠ [] then [(kCodec, mkStr c.audioName)] else []) ++
      (if c.aacProfile ≠ 0 then [(kProfile, mkStr (aacProfile c.aacProfile c.sbr c.ps))] else []) ++
      (if c.chanConf ≠ 0 then [(kChannels, mkNum c.chanConf)] else if c.channels ≠ 0 then [(kChannels, mkNum c.channels)] else []) ++
      (if c.sampleRate ≠ 0 then [(kSampleRate, mkNum c.sampleRate)] else [])))]

/-- Members with counters (:285-289, 295-299) -/
def statCounts (total : Nat) (n : Counts) : List (Bytes × Val) :=
  [(kTotalClients, mkNum total), (kRtmpClients, mkNum n.rtmp), (kFlvClients, mkNum n.flv), (kHlsClients, mkNum n.hls), (kTsClients, mkNum n.ts)]

/-- Clients of all kinds (:274-277) -/
def Counts.sum (n : Counts) : Nat := n.rtmp + n.flv + n.hls + n.ts

/-- The item of a stream (:150-291), and its counters; the difference of times is unsigned. -/
def streamItem (w : World) (s : Stream) : Val × Counts :=
  let x := clientLoop w s.clients ([], none, {})
  (.obj ([(kName, mkStr s.name), (kTime, mkNum ((w.msec + 2 ^ 64 - s.epoch) % 2 ^ 64)), (kIn, statBw w.sec s.bwIn), (kVideoIn, statBw w.sec s.bwVideo), (kAudioIn, statBw w.sec s.bwAudio),
      (kOut, statBw w.sec s.bwOut), (kClientArray, .arr x.1)] ++
    (match x.2.1 with
      | some c => [(kMeta, statMeta c)]
      | none => []) ++
    statCounts x.2.2.sum x.2.2 ++ [(kActive, .bool s.active)]), x.2.2)

/-- The loop over the streams of a bucket (:149-292): items, totals (:279-283) -/
def streamLoop (w : World) : List Stream → List Val × Nat × Counts → List Val × Nat × Counts
  | [], x => x
  | s :: l, (items, total, t) =>
    let y := streamItem w s
    streamLoop w l (items ++ [y.1], total + y.2.sum, ⟨t.rtmp + y.2.rtmp, t.flv + y.2.flv, t.hls + y.2.hls, t.ts + y.2.ts⟩)

/-- The loop over buckets (:148-293) -/
def bucketLoop (w : World) : List (List Stream) → List Val × Nat × Counts → List Val × Nat × Counts
  | [], x => x
  | b :: l, x => bucketLoop w l (streamLoop w b x)

/-- The item of a server (:332-335) with `ngx_live_stream_stat` (:116-300) -/
def serverItem (w : World) (s : Server) : Val :=
  let x := bucketLoop w s.streams ([], 0, {})
  .obj ([(kServerid, mkStr s.id), (kStreamArray, .arr x.1)] ++ statCounts x.2.1 x.2.2)

/-- The loops over servers (:330-338) -/
def serverLoop (w : World) : List (List Server) → List Val → List Val
  | [], x => x
  | b :: l, x => serverLoop w l (b.foldl (fun y s => y ++ [serverItem w s]) x)

/-- `ngx_live_stat` (:303-341) -/
def liveStat (w : World) : Val :=
  .obj [(kServerVersion, mkStr w.version), (kCompiler, mkStr w.compiler), (kBuilt, mkStr w.built), (kPid, mkNum w.pid), (kTimestamp, mkNum w.sec), (kNaccepted, mkNum w.naccepted),
    (kIn, statBw w.sec w.bwIn), (kOut, statBw w.sec w.bwOut), (kServerArray, .arr (serverLoop w w.servers []))]

/-- The tree of the handler (ngx_rtmp_sys_stat_module.c:176-182) -/
def root (w : World) : Val :=
  .obj [(kNgxWorker, mkNum w.worker), (kNgxProcessSlot, mkNum w.slot), (kNgxPid, mkNum w.pid), (kLiveStream, liveStat w)]

/-- `ngx_rtmp_sys_stat_handler` (ngx_rtmp_sys_stat_module.c:164-206): the body. `strlen` of NULL is undefined; the buffer has room for a space and the text. -/
def handler (big : Int → Bytes) (mem : Nat → UInt8) (w : World) : Res Bytes :=
  match print big true mem (root w) with
  | .bad => .bad
  | .null => .bad
  | .ok t => .ok ((0x20 :: t).take (t.length + 1))

/-! Who is in the list of a stream -/

/-- The three lists of a stream (ngx_rtmp.h:466-468) -/
structure Lists where
  ctx : List Client := []
  mpegts : List Client := []
  hls : List Client := []

inductive Op where
  | publish (c : Client)
  | play (c : Client)
  | close (i : Nat)

/-- `ngx_rtmp_live_publish`, `_play` (ngx_rtmp_live_module.c:1002, 1030-1043) with `join` (:502-506); `ngx_mpegts_live_play` (mpegts/ngx_mpegts_live_module.c:1806-1818) with `join` (:1789-1792);
`ngx_hls_live_play` (mpegts/ngx_hls_live_module.c:735-745) with `join` (:712-715). Sessions that leave are taken out of their list. -/
def listStep (l : Lists) : Op → Lists
  | .publish c => { l with ctx := { c with joinedAsPublisher := true } :: l.ctx }
  | .play c =>
    let l := if c.kind = .hls ∨ c.kind = .ts then l else { l with ctx := { c with joinedAsPublisher := false } :: l.ctx }
    let l := if c.kind ≠ .ts then l else { l with mpegts := c :: l.mpegts }
    if c.kind ≠ .hls then l else if c.interprocess ∨ c.kind ≠ .hls then l else { l with hls := c :: l.hls }
  | .close n => { ctx := l.ctx.filter (·.number != n), mpegts := l.mpegts.filter (·.number != n), hls := l.hls.filter (·.number != n) }

end Verif.Json
