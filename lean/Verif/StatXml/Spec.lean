import Verif.Rtmp.BandwidthModel
/-
Statistics as XML: a reader of XML 1.0 (fifth edition) for documents of elements and character data in ASCII, and what a reader has to find of a worker. It takes less than the standard: no attributes, no
comments, no CDATA; character data without `>`; instructions before the root are skipped. It knows nothing of any program.
-/
namespace Verif.StatXml

abbrev Bytes := List UInt8

/-- An element: its name, the character data in it, and its elements -/
inductive Node where
  | el (name text : Bytes) (kids : List Node)

/-- An element that is not closed yet -/
structure Frame where
  name : Bytes
  text : Bytes
  kids : List Node

/-- Where the reader is: in content, in a reference, after `<`, in the name of a tag, after the `/` of an empty one, in the name of a closing one, in an instruction, after its `?`. What has been read of a
name is kept in order. -/
inductive Mode where
  | content
  | amp (acc : Bytes)
  | lt
  | name (acc : Bytes)
  | slash (acc : Bytes)
  | close (acc : Bytes)
  | pi
  | piEnd

/-- Elements that are not closed yet, the innermost first, and the root if it is closed -/
structure St where
  mode : Mode
  stack : List Frame
  root : Option Node

def isSpace (b : UInt8) : Bool := b == 0x20 || b == 0x0a || b == 0x0d || b == 0x09
def isStart (b : UInt8) : Bool := (0x41 ≤ b && b ≤ 0x5a) || (0x61 ≤ b && b ≤ 0x7a) || b == 0x5f || b == 0x3a
def isName (b : UInt8) : Bool := isStart b || (0x30 ≤ b && b ≤ 0x39) || b == 0x2d || b == 0x2e

/-- Character data (2.4) of one byte -/
def isText (b : UInt8) : Bool := (isSpace b || (0x20 ≤ b && b < 0x7f)) && b != 0x3c && b != 0x26 && b != 0x3e

/-- References (4.6) -/
def entity (l : Bytes) : Option UInt8 :=
  if l = [0x6c, 0x74] then some 0x3c else if l = [0x67, 0x74] then some 0x3e else if l = [0x61, 0x6d, 0x70] then some 0x26 else if l = [0x71, 0x75, 0x6f, 0x74] then some 0x22
  else if l = [0x61, 0x70, 0x6f, 0x73] then some 0x27 else none

/-- An element is complete -/
def shut (n : Node) (fs : List Frame) (root : Option Node) : Option St :=
  match fs with
  | [] => if root.isNone then some ⟨.content, [], some n⟩ else none
  | f :: fs => some ⟨.content, { f with kids := f.kids ++ [n] } :: fs, root⟩

/-- A byte; `none` if the document is not well-formed -/
def step (s : St) (b : UInt8) : Option St :=
  match s.mode with
  | .content =>
    if b == 0x3c then some { s with mode := .lt }
    else
      match s.stack with
      | [] => if isSpace b then some s else none
      | f :: fs => if b == 0x26 then some { s with mode := .amp [] } else if isText b then some { s with stack := { f with text := f.text ++ [b] } :: fs } else none
  | .amp acc =>
    if b == 0x3b then
      match entity acc, s.stack with
      | some c, f :: fs => some ⟨.content, { f with text := f.text ++ [c] } :: fs, s.root⟩
      | _, _ => none
    else some { s with mode := .amp (acc ++ [b]) }
  | .lt =>
    if b == 0x2f then some { s with mode := .close [] }
    else if b == 0x3f then (if s.stack.isEmpty && s.root.isNone then some { s with mode := .pi } else none)
    else if isStart b then some { s with mode := .name [b] } else none
  | .name acc =>
    if b == 0x3e then (if s.stack.isEmpty && s.root.isSome then none else some ⟨.content, ⟨acc, [], []⟩ :: s.stack, s.root⟩)
    else if b == 0x2f then some { s with mode := .slash acc }
    else if isName b then some { s with mode := .name (acc ++ [b]) } else none
  | .slash acc => if b == 0x3e then shut (.el acc [] []) s.stack s.root else none
  | .close acc =>
    if b == 0x3e then
      match s.stack with
      | [] => none
      | f :: fs => if f.name = acc then shut (.el f.name f.text f.kids) fs s.root else none
    else if isName b then some { s with mode := .close (acc ++ [b]) } else none
  | .pi => some { s with mode := if b == 0x3f then .piEnd else .pi }
  | .piEnd => some { s with mode := if b == 0x3e then .content else if b == 0x3f then .piEnd else .pi }

def run : St → Bytes → Option St
  | s, [] => some s
  | s, b :: l => (step s b).bind fun s => run s l

/-- The root of a document -/
def read (l : Bytes) : Option Node :=
  (run ⟨.content, [], none⟩ l).bind fun s =>
    match s.mode, s.stack with
    | .content, [] => s.root
    | _, _ => none

def Node.name : Node → Bytes
  | .el n _ _ => n
def Node.text : Node → Bytes
  | .el _ t _ => t
def Node.kids : Node → List Node
  | .el _ _ k => k

/-- Elements of a name -/
def Node.all (n : Node) (k : Bytes) : List Node := n.kids.filter (·.name == k)

/-- The one element of a name -/
def Node.one (n : Node) (k : Bytes) : Option Node :=
  match n.all k with
  | [x] => some x
  | _ => none

/-- The character data of the one element of a name -/
def Node.val (n : Node) (k : Bytes) : Option Bytes := (n.one k).bind fun x => if x.kids.isEmpty then some x.text else none

/-- A decimal number -/
def natOf (l : Bytes) : Option Nat := if l ≠ [] ∧ ∀ b ∈ l, 0x30 ≤ b ∧ b ≤ 0x39 then some (l.foldl (fun a b => 10 * a + (b.toNat - 0x30)) 0) else none

def intOf : Bytes → Option Int
  | 0x2d :: l => (natOf l).map fun n : Nat => -(n : Int)
  | l => (natOf l).map fun n : Nat => (n : Int)

def Node.nat (n : Node) (k : Bytes) : Option Nat := (n.val k).bind natOf
def Node.int (n : Node) (k : Bytes) : Option Int := (n.val k).bind intOf

/-! Names -/

def nId : Bytes := [0x69, 0x64]
def nAddress : Bytes := [0x61, 0x64, 0x64, 0x72, 0x65, 0x73, 0x73]
def nRemoteAddress : Bytes := [0x72, 0x65, 0x6d, 0x6f, 0x74, 0x65, 0x5f, 0x61, 0x64, 0x64, 0x72, 0x65, 0x73, 0x73]
def nTime : Bytes := [0x74, 0x69, 0x6d, 0x65]
def nFlashver : Bytes := [0x66, 0x6c, 0x61, 0x73, 0x68, 0x76, 0x65, 0x72]
def nPageurl : Bytes := [0x70, 0x61, 0x67, 0x65, 0x75, 0x72, 0x6c]
def nSwfurl : Bytes := [0x73, 0x77, 0x66, 0x75, 0x72, 0x6c]
def nLive : Bytes := [0x6c, 0x69, 0x76, 0x65]
def nStream : Bytes := [0x73, 0x74, 0x72, 0x65, 0x61, 0x6d]
def nName : Bytes := [0x6e, 0x61, 0x6d, 0x65]
def nBwIn : Bytes := [0x62, 0x77, 0x5f, 0x69, 0x6e]
def nBytesIn : Bytes := [0x62, 0x79, 0x74, 0x65, 0x73, 0x5f, 0x69, 0x6e]
def nBwOut : Bytes := [0x62, 0x77, 0x5f, 0x6f, 0x75, 0x74]
def nBytesOut : Bytes := [0x62, 0x79, 0x74, 0x65, 0x73, 0x5f, 0x6f, 0x75, 0x74]
def nBwAudio : Bytes := [0x62, 0x77, 0x5f, 0x61, 0x75, 0x64, 0x69, 0x6f]
def nBwVideo : Bytes := [0x62, 0x77, 0x5f, 0x76, 0x69, 0x64, 0x65, 0x6f]
def nClient : Bytes := [0x63, 0x6c, 0x69, 0x65, 0x6e, 0x74]
def nDropped : Bytes := [0x64, 0x72, 0x6f, 0x70, 0x70, 0x65, 0x64]
def nAvsync : Bytes := [0x61, 0x76, 0x73, 0x79, 0x6e, 0x63]
def nTimestamp : Bytes := [0x74, 0x69, 0x6d, 0x65, 0x73, 0x74, 0x61, 0x6d, 0x70]
def nPublishing : Bytes := [0x70, 0x75, 0x62, 0x6c, 0x69, 0x73, 0x68, 0x69, 0x6e, 0x67]
def nActive : Bytes := [0x61, 0x63, 0x74, 0x69, 0x76, 0x65]
def nMeta : Bytes := [0x6d, 0x65, 0x74, 0x61]
def nVideo : Bytes := [0x76, 0x69, 0x64, 0x65, 0x6f]
def nWidth : Bytes := [0x77, 0x69, 0x64, 0x74, 0x68]
def nHeight : Bytes := [0x68, 0x65, 0x69, 0x67, 0x68, 0x74]
def nFrameRate : Bytes := [0x66, 0x72, 0x61, 0x6d, 0x65, 0x5f, 0x72, 0x61, 0x74, 0x65]
def nCodec : Bytes := [0x63, 0x6f, 0x64, 0x65, 0x63]
def nProfile : Bytes := [0x70, 0x72, 0x6f, 0x66, 0x69, 0x6c, 0x65]
def nCompat : Bytes := [0x63, 0x6f, 0x6d, 0x70, 0x61, 0x74]
def nLevel : Bytes := [0x6c, 0x65, 0x76, 0x65, 0x6c]
def nAudio : Bytes := [0x61, 0x75, 0x64, 0x69, 0x6f]
def nChannels : Bytes := [0x63, 0x68, 0x61, 0x6e, 0x6e, 0x65, 0x6c, 0x73]
def nSampleRate : Bytes := [0x73, 0x61, 0x6d, 0x70, 0x6c, 0x65, 0x5f, 0x72, 0x61, 0x74, 0x65]
def nNclients : Bytes := [0x6e, 0x63, 0x6c, 0x69, 0x65, 0x6e, 0x74, 0x73]
def nRtmp : Bytes := [0x72, 0x74, 0x6d, 0x70]
def nNginxVersion : Bytes := [0x6e, 0x67, 0x69, 0x6e, 0x78, 0x5f, 0x76, 0x65, 0x72, 0x73, 0x69, 0x6f, 0x6e]
def nNginxRtmpVersion : Bytes := [0x6e, 0x67, 0x69, 0x6e, 0x78, 0x5f, 0x72, 0x74, 0x6d, 0x70, 0x5f, 0x76, 0x65, 0x72, 0x73, 0x69, 0x6f, 0x6e]
def nCompiler : Bytes := [0x63, 0x6f, 0x6d, 0x70, 0x69, 0x6c, 0x65, 0x72]
def nBuilt : Bytes := [0x62, 0x75, 0x69, 0x6c, 0x74]
def nPid : Bytes := [0x70, 0x69, 0x64]
def nUptime : Bytes := [0x75, 0x70, 0x74, 0x69, 0x6d, 0x65]
def nNaccepted : Bytes := [0x6e, 0x61, 0x63, 0x63, 0x65, 0x70, 0x74, 0x65, 0x64]
def nServer : Bytes := [0x73, 0x65, 0x72, 0x76, 0x65, 0x72]
def nServerid : Bytes := [0x73, 0x65, 0x72, 0x76, 0x65, 0x72, 0x69, 0x64]

/-! A worker -/

structure Codec where
  width : Nat
  height : Nat
  rate : Bytes
  videoName : Bytes
  avcProfile : Nat
  avcLevel : Nat
  avcCompat : Nat
  level : Bytes
  audioName : Bytes
  aacProfile : Nat
  sbr : Bool
  ps : Bool
  chanConf : Nat
  channels : Nat
  sampleRate : Nat

/-- A session on a stream, publisher or viewer -/
structure Client where
  number : Nat
  addr : Bytes
  remote : Bytes
  epoch : Nat
  flashver : Bytes
  pageUrl : Bytes
  swfUrl : Bytes
  dropped : Nat
  videoTs : UInt32
  audioTs : UInt32
  currentTime : UInt32
  active : Bool
  publishing : Bool
  codec : Option Codec

structure Stream where
  name : Bytes
  epoch : Nat
  bwIn : Bandwidth.Bw
  bwOut : Bandwidth.Bw
  bwAudio : Bandwidth.Bw
  bwVideo : Bandwidth.Bw
  clients : List Client
  publishing : Bool
  active : Bool

/-- Streams and servers are in tables of buckets. -/
structure Server where
  id : Bytes
  streams : List (List Stream)

structure World where
  version : Bytes
  rtmpVersion : Bytes
  compiler : Bytes
  built : Bytes
  pid : Nat
  msec : Nat
  sec : Nat
  start : Nat
  naccepted : Nat
  bwIn : Bandwidth.Bw
  bwOut : Bandwidth.Bw
  servers : List (List Server)

/-! What is to be found -/
namespace Spec

/-- Bytes that are no ASCII text are told as spaces. -/
def shown (s : Bytes) : Bytes := s.map fun b => if b < 0x20 ∨ 0x7f ≤ b then 0x20 else b

/-- One for each, in order -/
def Each {α : Type} (P : Node → α → Prop) : List Node → List α → Prop
  | [], [] => True
  | n :: ns, a :: l => P n a ∧ Each P ns l
  | _, _ => False

def maybe (s : Bytes) : Option Bytes := if s = [] then none else some (shown s)

/-- What is behind the last slash -/
def lastPart (s : Bytes) : Bytes := (s.reverse.takeWhile (· != 0x2f)).reverse

structure SaysClient (w : World) (n : Node) (c : Client) : Prop where
  id : n.nat nId = some c.number
  address : n.val nAddress = some (shown c.addr)
  remote : n.val nRemoteAddress = some (shown c.remote)
  time : n.int nTime = some ((w.msec : Int) - c.epoch)
  flashver : n.val nFlashver = maybe c.flashver
  pageUrl : n.val nPageurl = maybe c.pageUrl
  swfUrl : n.val nSwfurl = maybe c.swfUrl
  dropped : n.nat nDropped = some c.dropped
  /-- How far sound is ahead of the picture -/
  avsync : ((c.audioTs.toNat : Int) - c.videoTs.toNat).natAbs < 2 ^ 31 → n.int nAvsync = some ((c.audioTs.toNat : Int) - c.videoTs.toNat)
  timestamp : c.currentTime.toNat < 2 ^ 31 → n.nat nTimestamp = some c.currentTime.toNat
  publishing : (n.all nPublishing).isEmpty = !c.publishing
  active : (n.all nActive).isEmpty = !c.active

/-- Object types of AAC, profiles of H.264 by their names -/
def aacName (c : Codec) : Bytes :=
  if c.aacProfile = 1 then [0x4d, 0x61, 0x69, 0x6e] else if c.aacProfile = 2 then (if c.ps then [0x48, 0x45, 0x76, 0x32] else if c.sbr then [0x48, 0x45] else [0x4c, 0x43]) else if c.aacProfile = 3 then [0x53, 0x53, 0x52]
  else if c.aacProfile = 4 then [0x4c, 0x54, 0x50] else if c.aacProfile = 5 then [0x53, 0x42, 0x52] else []

def avcName (c : Codec) : Bytes := if c.avcProfile = 66 then [0x42, 0x61, 0x73, 0x65, 0x6c, 0x69, 0x6e, 0x65] else if c.avcProfile = 77 then [0x4d, 0x61, 0x69, 0x6e] else if c.avcProfile = 100 then [0x48, 0x69, 0x67, 0x68] else []

def nonzero {α : Type} (n : Nat) (v : α) : Option α := if n = 0 then none else some v

structure SaysVideo (n : Node) (c : Codec) : Prop where
  width : n.nat nWidth = some c.width
  height : n.nat nHeight = some c.height
  rate : n.val nFrameRate = some c.rate
  codec : n.val nCodec = maybe c.videoName
  profile : n.val nProfile = nonzero c.avcProfile (avcName c)
  compat : n.nat nCompat = nonzero c.avcLevel c.avcCompat
  level : n.val nLevel = nonzero c.avcLevel c.level

structure SaysAudio (n : Node) (c : Codec) : Prop where
  codec : n.val nCodec = maybe c.audioName
  profile : n.val nProfile = nonzero c.aacProfile (aacName c)
  channels : n.nat nChannels = (if c.chanConf = 0 then nonzero c.channels c.channels else some c.chanConf)
  sampleRate : n.nat nSampleRate = nonzero c.sampleRate c.sampleRate

structure SaysCodec (n : Node) (c : Codec) : Prop where
  video : ∃ v, n.one nVideo = some v ∧ SaysVideo v c
  audio : ∃ v, n.one nAudio = some v ∧ SaysAudio v c

/-- Rates in bits each second -/
def rate (sec : Nat) (b : Bandwidth.Bw) : Nat := 8 * (Bandwidth.update b sec 0).bandwidth

/-- `listed`: sessions are to be listed. -/
structure SaysStream (listed : Bool) (w : World) (n : Node) (s : Stream) : Prop where
  name : 0x2f ∈ s.name.drop 1 → n.val nName = some (shown (lastPart s.name))
  time : n.int nTime = some ((w.msec : Int) - s.epoch)
  bwIn : n.nat nBwIn = some (rate w.sec s.bwIn) ∧ n.nat nBytesIn = some s.bwIn.bytes
  bwOut : n.nat nBwOut = some (rate w.sec s.bwOut) ∧ n.nat nBytesOut = some s.bwOut.bytes
  bwAudio : n.nat nBwAudio = some (rate w.sec s.bwAudio)
  bwVideo : n.nat nBwVideo = some (rate w.sec s.bwVideo)
  clients : if listed then Each (SaysClient w) (n.all nClient) s.clients else n.all nClient = []
  nclients : n.nat nNclients = some s.clients.length
  publishing : (n.all nPublishing).isEmpty = !s.publishing
  active : (n.all nActive).isEmpty = !s.active
  /-- What is said of codecs, is of the publisher, if there is just one. -/
  codec : ∀ c, s.clients.filter (·.publishing) = [c] → match c.codec with
    | none => n.all nMeta = []
    | some x => ∃ v, n.one nMeta = some v ∧ SaysCodec v x
  silent : s.clients.filter (·.publishing) = [] → n.all nMeta = []

structure SaysServer (listed : Bool) (w : World) (n : Node) (s : Server) : Prop where
  id : n.val nServerid = some s.id
  live : ∃ v, n.one nLive = some v ∧ Each (SaysStream listed w) (v.all nStream) s.streams.flatten ∧ v.nat nNclients = some (s.streams.flatten.map (·.clients.length)).sum

structure Says (listed : Bool) (w : World) (n : Node) : Prop where
  name : n.name = nRtmp
  version : n.val nNginxVersion = some w.version
  rtmpVersion : n.val nNginxRtmpVersion = some w.rtmpVersion
  compiler : n.val nCompiler = some w.compiler
  built : n.val nBuilt = some w.built
  pid : n.nat nPid = some w.pid
  uptime : n.int nUptime = some ((w.sec : Int) - w.start)
  naccepted : n.nat nNaccepted = some w.naccepted
  bwIn : n.nat nBwIn = some (rate w.sec w.bwIn) ∧ n.nat nBytesIn = some w.bwIn.bytes
  bwOut : n.nat nBwOut = some (rate w.sec w.bwOut) ∧ n.nat nBytesOut = some w.bwOut.bytes
  servers : Each (SaysServer listed w) (n.all nServer) w.servers.flatten

end Spec

end Verif.StatXml
