import Verif.Json.Spec
import Verif.Rtmp.BandwidthModel
/-
What the statistics of a worker say: the state of live streams they are taken from, and what a reader of JSON has to find. Helper functions of the model are not used.
-/
namespace Verif.Json

/-! Names of members -/

def kBw : Bytes := [0x62, 0x77]  -- "bw"
def kBytes : Bytes := [0x62, 0x79, 0x74, 0x65, 0x73]  -- "bytes"
def kId : Bytes := [0x69, 0x64]  -- "id"
def kAddress : Bytes := [0x61, 0x64, 0x64, 0x72, 0x65, 0x73, 0x73]  -- "address"
def kRemoteAddress : Bytes := [0x72, 0x65, 0x6d, 0x6f, 0x74, 0x65, 0x5f, 0x61, 0x64, 0x64, 0x72, 0x65, 0x73, 0x73]  -- "remote_address"
def kTime : Bytes := [0x74, 0x69, 0x6d, 0x65]  -- "time"
def kFlashver : Bytes := [0x66, 0x6c, 0x61, 0x73, 0x68, 0x76, 0x65, 0x72]  -- "flashver"
def kPageurl : Bytes := [0x70, 0x61, 0x67, 0x65, 0x75, 0x72, 0x6c]  -- "pageurl"
def kSwfurl : Bytes := [0x73, 0x77, 0x66, 0x75, 0x72, 0x6c]  -- "swfurl"
def kDropped : Bytes := [0x64, 0x72, 0x6f, 0x70, 0x70, 0x65, 0x64]  -- "dropped"
def kAvsync : Bytes := [0x61, 0x76, 0x73, 0x79, 0x6e, 0x63]  -- "avsync"
def kTimestamp : Bytes := [0x74, 0x69, 0x6d, 0x65, 0x73, 0x74, 0x61, 0x6d, 0x70]  -- "timestamp"
def kActive : Bytes := [0x61, 0x63, 0x74, 0x69, 0x76, 0x65]  -- "active"
def kPublishing : Bytes := [0x70, 0x75, 0x62, 0x6c, 0x69, 0x73, 0x68, 0x69, 0x6e, 0x67]  -- "publishing"
def kRelay : Bytes := [0x72, 0x65, 0x6c, 0x61, 0x79]  -- "relay"
def kInterprocess : Bytes := [0x69, 0x6e, 0x74, 0x65, 0x72, 0x70, 0x72, 0x6f, 0x63, 0x65, 0x73, 0x73]  -- "interprocess"
def kProtocol : Bytes := [0x70, 0x72, 0x6f, 0x74, 0x6f, 0x63, 0x6f, 0x6c]  -- "protocol"
def kStreamArray : Bytes := [0x73, 0x74, 0x72, 0x65, 0x61, 0x6d, 0x5f, 0x61, 0x72, 0x72, 0x61, 0x79]  -- "stream_array"
def kName : Bytes := [0x6e, 0x61, 0x6d, 0x65]  -- "name"
def kIn : Bytes := [0x69, 0x6e]  -- "in"
def kVideoIn : Bytes := [0x76, 0x69, 0x64, 0x65, 0x6f, 0x5f, 0x69, 0x6e]  -- "video_in"
def kAudioIn : Bytes := [0x61, 0x75, 0x64, 0x69, 0x6f, 0x5f, 0x69, 0x6e]  -- "audio_in"
def kOut : Bytes := [0x6f, 0x75, 0x74]  -- "out"
def kClientArray : Bytes := [0x63, 0x6c, 0x69, 0x65, 0x6e, 0x74, 0x5f, 0x61, 0x72, 0x72, 0x61, 0x79]  -- "client_array"
def kMeta : Bytes := [0x6d, 0x65, 0x74, 0x61]  -- "meta"
def kVideo : Bytes := [0x76, 0x69, 0x64, 0x65, 0x6f]  -- "video"
def kAudio : Bytes := [0x61, 0x75, 0x64, 0x69, 0x6f]  -- "audio"
def kWidth : Bytes := [0x77, 0x69, 0x64, 0x74, 0x68]  -- "width"
def kHeight : Bytes := [0x68, 0x65, 0x69, 0x67, 0x68, 0x74]  -- "height"
def kFrameRate : Bytes := [0x66, 0x72, 0x61, 0x6d, 0x65, 0x5f, 0x72, 0x61, 0x74, 0x65]  -- "frame_rate"
def kCodec : Bytes := [0x63, 0x6f, 0x64, 0x65, 0x63]  -- "codec"
def kProfile : Bytes := [0x70, 0x72, 0x6f, 0x66, 0x69, 0x6c, 0x65]  -- "profile"
def kCompat : Bytes := [0x63, 0x6f, 0x6d, 0x70, 0x61, 0x74]  -- "compat"
def kChannels : Bytes := [0x63, 0x68, 0x61, 0x6e, 0x6e, 0x65, 0x6c, 0x73]  -- "channels"
def kSampleRate : Bytes := [0x73, 0x61, 0x6d, 0x70, 0x6c, 0x65, 0x5f, 0x72, 0x61, 0x74, 0x65]  -- "sample_rate"
def kTotalClients : Bytes := [0x74, 0x6f, 0x74, 0x61, 0x6c, 0x5f, 0x63, 0x6c, 0x69, 0x65, 0x6e, 0x74, 0x73]  -- "total_clients"
def kRtmpClients : Bytes := [0x72, 0x74, 0x6d, 0x70, 0x5f, 0x63, 0x6c, 0x69, 0x65, 0x6e, 0x74, 0x73]  -- "rtmp_clients"
def kFlvClients : Bytes := [0x66, 0x6c, 0x76, 0x5f, 0x63, 0x6c, 0x69, 0x65, 0x6e, 0x74, 0x73]  -- "flv_clients"
def kHlsClients : Bytes := [0x68, 0x6c, 0x73, 0x5f, 0x63, 0x6c, 0x69, 0x65, 0x6e, 0x74, 0x73]  -- "hls_clients"
def kTsClients : Bytes := [0x74, 0x73, 0x5f, 0x63, 0x6c, 0x69, 0x65, 0x6e, 0x74, 0x73]  -- "ts_clients"
def kServerVersion : Bytes := [0x73, 0x65, 0x72, 0x76, 0x65, 0x72, 0x5f, 0x76, 0x65, 0x72, 0x73, 0x69, 0x6f, 0x6e]  -- "server_version"
def kCompiler : Bytes := [0x63, 0x6f, 0x6d, 0x70, 0x69, 0x6c, 0x65, 0x72]  -- "compiler"
def kBuilt : Bytes := [0x62, 0x75, 0x69, 0x6c, 0x74]  -- "built"
def kPid : Bytes := [0x70, 0x69, 0x64]  -- "pid"
def kNaccepted : Bytes := [0x6e, 0x61, 0x63, 0x63, 0x65, 0x70, 0x74, 0x65, 0x64]  -- "naccepted"
def kServerArray : Bytes := [0x73, 0x65, 0x72, 0x76, 0x65, 0x72, 0x5f, 0x61, 0x72, 0x72, 0x61, 0x79]  -- "server_array"
def kServerid : Bytes := [0x73, 0x65, 0x72, 0x76, 0x65, 0x72, 0x69, 0x64]  -- "serverid"
def kNgxWorker : Bytes := [0x6e, 0x67, 0x78, 0x5f, 0x77, 0x6f, 0x72, 0x6b, 0x65, 0x72]  -- "ngx_worker"
def kNgxProcessSlot : Bytes := [0x6e, 0x67, 0x78, 0x5f, 0x70, 0x72, 0x6f, 0x63, 0x65, 0x73, 0x73, 0x5f, 0x73, 0x6c, 0x6f, 0x74]  -- "ngx_process_slot"
def kNgxPid : Bytes := [0x6e, 0x67, 0x78, 0x5f, 0x70, 0x69, 0x64]  -- "ngx_pid"
def kLiveStream : Bytes := [0x6c, 0x69, 0x76, 0x65, 0x5f, 0x73, 0x74, 0x72, 0x65, 0x61, 0x6d]  -- "live_stream"

/-- What is known of the codecs of a publisher; texts of fractions and names of codecs are given -/
structure Codec where
  width : Nat
  height : Nat
  rate : Bytes
  videoName : Bytes
  avcProfile : Nat
  avcLevel : Nat
  compat : Bytes
  audioName : Bytes
  aacProfile : Nat
  sbr : Bool
  ps : Bool
  chanConf : Nat
  channels : Nat
  sampleRate : Nat

inductive Kind where
  | rtmp
  | flv
  | hls
  | ts
deriving DecidableEq

/-- A session on a stream, publisher or viewer -/
structure Client where
  number : Nat
  addr : Bytes
  remote : Bytes
  epoch : Nat
  flashver : Bytes
  pageUrl : Bytes
  swfUrl : Bytes
  dropped : Nat
  videoTs : UInt32
  audioTs : UInt32
  currentTime : UInt32
  active : Bool
  joinedAsPublisher : Bool
  publishing : Bool
  relay : Bool
  interprocess : Bool
  kind : Kind
  codec : Option Codec

structure Stream where
  name : Bytes
  epoch : Nat
  bwIn : Bandwidth.Bw
  bwVideo : Bandwidth.Bw
  bwAudio : Bandwidth.Bw
  bwOut : Bandwidth.Bw
  clients : List Client
  active : Bool

/-- Streams and servers are in tables of buckets. -/
structure Server where
  id : Bytes
  streams : List (List Stream)

structure World where
  worker : Nat
  slot : Nat
  pid : Nat
  msec : Nat
  sec : Nat
  version : Bytes
  compiler : Bytes
  built : Bytes
  naccepted : Nat
  bwIn : Bandwidth.Bw
  bwOut : Bandwidth.Bw
  servers : List (List Server)

namespace Spec

/-- A session that watches: not one that publishes, that hands the stream on to another server, or to another worker -/
def viewer (c : Client) : Bool := !c.joinedAsPublisher && !c.relay && !c.interprocess

def viewers (l : List Client) : Nat := l.countP viewer
def ofKind (k : Kind) (l : List Client) : Nat := l.countP fun c => viewer c && c.kind == k

/-- Names of protocols -/
def protocol : Kind → Bytes
  | .rtmp => [0x72, 0x74, 0x6d, 0x70]  -- "rtmp"
  | .flv => [0x68, 0x74, 0x74, 0x70, 0x2d, 0x66, 0x6c, 0x76]  -- "http-flv"
  | .hls => [0x68, 0x6c, 0x73, 0x2b]  -- "hls+"
  | .ts => [0x68, 0x74, 0x74, 0x70, 0x2d, 0x74, 0x73]  -- "http-ts"

/-- A string in the state: up to its end, which a zero is, and at most so many bytes -/
def string (n : Nat) (s : Bytes) : Val := .str ((s.take n).takeWhile (· != 0))

def long (s : Bytes) : Val := .str (s.takeWhile (· != 0))

/-- Two lists go together. -/
def Each {α β : Type} (R : α → β → Prop) (l : List α) (m : List β) : Prop := l.length = m.length ∧ ∀ (i : Nat) (a : α) (b : β), l[i]? = some a → m[i]? = some b → R a b

/-- The rate in bits, and all bytes -/
structure SaysBw (sec : Nat) (v : Option Val) (b : Bandwidth.Bw) : Prop where
  bw : v.bind (Val.get kBw) = some (.num (8 * (Bandwidth.update b sec 0).bandwidth))
  bytes : v.bind (Val.get kBytes) = some (.num b.bytes)

/-- A member that is there only if there is something to say -/
def maybe (s : Bytes) : Option Val := if s = [] then none else some (string 1023 s)

structure SaysClient (w : World) (v : Val) (c : Client) : Prop where
  id : v.get kId = some (.num c.number)
  address : v.get kAddress = some (string 1023 c.addr)
  remote : v.get kRemoteAddress = some (string 1023 c.remote)
  time : v.get kTime = some (.num ((w.msec : Int) - c.epoch))
  flashver : v.get kFlashver = maybe c.flashver
  pageUrl : v.get kPageurl = maybe c.pageUrl
  swfUrl : v.get kSwfurl = maybe c.swfUrl
  dropped : v.get kDropped = some (.num c.dropped)
  timestamp : v.get kTimestamp = some (.num c.currentTime.toNat)
  active : v.get kActive = some (.bool c.active)
  publishing : v.get kPublishing = some (.bool c.publishing)
  relay : v.get kRelay = some (.bool c.relay)
  interprocess : v.get kInterprocess = some (.bool c.interprocess)
  protocol : v.get kProtocol = some (.str (protocol c.kind))
  /-- Sound is ahead of the picture, or not. -/
  avsync : c.videoTs.toNat ≤ c.audioTs.toNat → v.get kAvsync = some (.num (c.audioTs.toNat - c.videoTs.toNat : Nat))

/-- Numbers of viewers -/
structure SaysViewers (v : Val) (l : List Client) : Prop where
  total : v.get kTotalClients = some (.num (viewers l))
  rtmp : v.get kRtmpClients = some (.num (ofKind .rtmp l))
  flv : v.get kFlvClients = some (.num (ofKind .flv l))
  hls : v.get kHlsClients = some (.num (ofKind .hls l))
  ts : v.get kTsClients = some (.num (ofKind .ts l))

/-- Object types of AAC, profiles of H.264 by their names -/
def aacName (c : Codec) : Bytes :=
  if c.aacProfile = 1 then [0x4d, 0x61, 0x69, 0x6e] else if c.aacProfile = 2 then (if c.ps then [0x48, 0x45, 0x76, 0x32] else if c.sbr then [0x48, 0x45] else [0x4c, 0x43]) else if c.aacProfile = 3 then [0x53, 0x53, 0x52]
  else if c.aacProfile = 4 then [0x4c, 0x54, 0x50] else if c.aacProfile = 5 then [0x53, 0x42, 0x52] else []

def avcName (c : Codec) : Bytes := if c.avcProfile = 66 then [0x42, 0x61, 0x73, 0x65, 0x6c, 0x69, 0x6e, 0x65] else if c.avcProfile = 77 then [0x4d, 0x61, 0x69, 0x6e] else if c.avcProfile = 100 then [0x48, 0x69, 0x67, 0x68] else []

def nonzero (n : Nat) (v : Val) : Option Val := if n = 0 then none else some v

structure SaysCodec (v : Option Val) (c : Codec) : Prop where
  width : (v.bind (Val.get kVideo)).bind (Val.get kWidth) = some (.num c.width)
  height : (v.bind (Val.get kVideo)).bind (Val.get kHeight) = some (.num c.height)
  rate : (v.bind (Val.get kVideo)).bind (Val.get kFrameRate) = some (long c.rate)
  video : (v.bind (Val.get kVideo)).bind (Val.get kCodec) = (if c.videoName = [] then none else some (long c.videoName))
  profile : (v.bind (Val.get kVideo)).bind (Val.get kProfile) = nonzero c.avcProfile (.str (avcName c))
  compat : (v.bind (Val.get kVideo)).bind (Val.get kCompat) = nonzero c.avcLevel (long c.compat)
  audio : (v.bind (Val.get kAudio)).bind (Val.get kCodec) = (if c.audioName = [] then none else some (long c.audioName))
  aac : (v.bind (Val.get kAudio)).bind (Val.get kProfile) = nonzero c.aacProfile (.str (aacName c))
  channels : (v.bind (Val.get kAudio)).bind (Val.get kChannels) = (if c.chanConf = 0 then nonzero c.channels (.num c.channels) else some (.num c.chanConf))
  sampleRate : (v.bind (Val.get kAudio)).bind (Val.get kSampleRate) = nonzero c.sampleRate (.num c.sampleRate)

structure SaysStream (w : World) (v : Val) (s : Stream) : Prop where
  name : v.get kName = some (long s.name)
  time : v.get kTime = some (.num (w.msec - s.epoch : Nat))
  bwIn : SaysBw w.sec (v.get kIn) s.bwIn
  bwVideo : SaysBw w.sec (v.get kVideoIn) s.bwVideo
  bwAudio : SaysBw w.sec (v.get kAudioIn) s.bwAudio
  bwOut : SaysBw w.sec (v.get kOut) s.bwOut
  active : v.get kActive = some (.bool s.active)
  viewers : SaysViewers v s.clients
  clients : ∃ l, (v.get kClientArray).bind Val.items = some l ∧ Each (SaysClient w) l s.clients
  /-- What is said of codecs, is of the publisher, if there is just one. -/
  codec : ∀ c, s.clients.filter (·.joinedAsPublisher) = [c] → match c.codec with
    | none => v.get kMeta = none
    | some x => SaysCodec (v.get kMeta) x
  silent : s.clients.filter (·.joinedAsPublisher) = [] → v.get kMeta = none

structure SaysServer (w : World) (v : Val) (s : Server) : Prop where
  id : v.get kServerid = some (long s.id)
  viewers : SaysViewers v (s.streams.flatten.flatMap (·.clients))
  streams : ∃ l, (v.get kStreamArray).bind Val.items = some l ∧ Each (SaysStream w) l s.streams.flatten

structure Says (w : World) (v : Val) : Prop where
  worker : v.get kNgxWorker = some (.num w.worker)
  slot : v.get kNgxProcessSlot = some (.num w.slot)
  pid : v.get kNgxPid = some (.num w.pid)
  live : ∃ x, v.get kLiveStream = some x ∧ x.get kServerVersion = some (long w.version) ∧ x.get kCompiler = some (long w.compiler) ∧ x.get kBuilt = some (long w.built) ∧
    x.get kPid = some (.num w.pid) ∧ x.get kTimestamp = some (.num w.sec) ∧ x.get kNaccepted = some (.num w.naccepted) ∧ SaysBw w.sec (x.get kIn) w.bwIn ∧ SaysBw w.sec (x.get kOut) w.bwOut ∧
    ∃ l, (x.get kServerArray).bind Val.items = some l ∧ Each (SaysServer w) l w.servers.flatten

mutual
/-- The names of the members of each object are different (RFC 8259, section 4). -/
def Distinct : Val → Prop
  | .arr l => DistinctItems l
  | .obj l => (l.map (·.1)).Nodup ∧ DistinctMembers l
  | _ => True

def DistinctItems : List Val → Prop
  | [] => True
  | v :: l => Distinct v ∧ DistinctItems l

def DistinctMembers : List (Bytes × Val) → Prop
  | [] => True
  | (_, v) :: l => Distinct v ∧ DistinctMembers l
end

end Spec
end Verif.Json
