/-
Fan-out of a live stream: modules/nginx-rtmp-module/ngx_rtmp_live_module.c, without the GOP cache (`cache_time 0`, the default:
`ngx_rtmp_gop_cache` and `ngx_rtmp_gop_send` return at once). One stream; sessions are numbers.
Only RTMP and HTTP-FLV sessions are in the list (:1030-1034), so the test of `live_type` (:838) never holds. Whether a subscriber takes a
message (`ngx_rtmp_send_message`, C08) is an input of every step. Finalising a session is asynchronous: it sets `fin`, the `close` comes as
an operation of its own. Idle timers and bandwidth counters are not modelled.
-/
namespace Verif.Live

/-- ngx_rtmp_live_module.h:20-26; `last_timestamp` belongs to the GOP module. -/
structure Cs where
  active : Bool := false
  ts : Nat := 0
  dropped : Nat := 0
  deriving DecidableEq

/-- An audio or video message. `id` stands for its payload, `ftype` is the high half of its first byte, `hdr` what `ngx_rtmp_is_codec_header` says. -/
structure Msg where
  id : Nat
  video : Bool
  ftype : Nat
  hdr : Bool
  ts : Nat
  deriving DecidableEq

/-- What is put into the queue of a subscriber: stream begin, stream EOF, a status message, metadata, a codec header with a time, the empty message of :902-912, a message. -/
inductive Out where
  | start
  | eof
  | note (n : Nat)
  | data (version : Nat)
  | header (f : Nat) (video : Bool) (ts : Nat)
  | dummy (ts : Nat)
  | av (m : Msg)
  deriving DecidableEq

/-- ngx_rtmp_live_module.h:29-43, with the session: `sessPub` is `s->publishing`, `hold` is `s->pause`; `out`: all messages queued for the session. -/
structure Ctx where
  id : Nat
  publishing : Bool
  sessPub : Bool
  pri : Int := 0
  active : Bool := false
  silent : Bool := false
  paused : Bool := false
  v : Cs := {}
  a : Cs := {}
  metaVersion : Nat := 0
  ndropped : Nat := 0
  hold : Nat := 0
  fin : Bool := false
  out : List Out := []
  deriving DecidableEq

/-- ngx_rtmp_live_module.h:46-60; the defaults are those of ngx_rtmp_live_module.c:162-179. -/
structure Cfg where
  sync : Nat := 300
  interleave : Bool := false
  waitKey : Bool := true
  waitVideo : Bool := false
  publishNotify : Bool := false
  playRestart : Bool := false

/-- ngx_rtmp_codec_module.h: what the codec module knows of a publisher. Headers are numbers like payloads; `data`: the version of the metadata if there are any. -/
structure Codec where
  aac : Option Nat := none
  avc : Option Nat := none
  data : Option Nat := none
  isAac : Bool := true
  isH264 : Bool := true
  noVideo : Bool := false

/-- ngx_rtmp.h:450-476: `ctx`, `pubctx` as pairs of priority and session (a map: C23), `active`. -/
structure St where
  ctxs : List Ctx := []
  pubs : List (Int × Nat) := []
  active : Bool := false

/-- Which messages the subscribers take. -/
abbrev Takes := Nat → Out → Bool

def getCs (c : Ctx) (audio : Bool) : Cs := if audio = true then c.a else c.v

def setCs (c : Ctx) (audio : Bool) (x : Cs) : Ctx := if audio = true then { c with a := x } else { c with v := x }

/-- `ngx_rtmp_send_message`. -/
def send (ok : Takes) (c : Ctx) (o : Out) : Ctx × Bool := if ok c.id o = true then ({ c with out := c.out ++ [o] }, true) else (c, false)

/-- ngx_rtmp_live_module.c:285-294: status messages up to the first refusal. -/
def sendAll (ok : Takes) (c : Ctx) : List Out → Ctx × Bool
  | [] => (c, true)
  | o :: os => match send ok c o with
    | (c1, true) => sendAll ok c1 os
    | (c1, false) => (c1, false)

/-- ngx_rtmp_live_module.c:239-245 and 278-301: `set_status` for a subscriber. -/
def setSub (ok : Takes) (ctrl : Out) (status : List Out) (on : Bool) (c : Ctx) : Ctx :=
  if c.active = on then c
  else
    match send ok { c with active := on } ctrl with
    | (c1, false) => { c1 with fin := true }
    | (c1, true) =>
      match sendAll ok c1 (if c1.silent = true then [] else status) with
      | (c2, false) => { c2 with fin := true }
      | (c2, true) => { c2 with v := { c2.v with active := false, dropped := 0 }, a := { c2.a with active := false, dropped := 0 } }

/-- ngx_rtmp_live_module.c:320-332: the messages of `live_start`. -/
def startNotes (cfg : Cfg) : List Out := (if cfg.playRestart = true then [.note 1, .note 2] else []) ++ (if cfg.publishNotify = true then [.note 3] else [])

/-- ngx_rtmp_live_module.c:358-369: the messages of `live_stop`. -/
def stopNotes (cfg : Cfg) : List Out := (if cfg.playRestart = true then [.note 4] else []) ++ (if cfg.publishNotify = true then [.note 5] else [])

def modify (id : Nat) (f : Ctx → Ctx) (cs : List Ctx) : List Ctx := cs.map fun c => if c.id = id then f c else c

/-- ngx_rtmp_live_module.c:222-276 for a publisher `c` (which may have left the list already): `ctx->active`, `stream->active` and all subscribers. -/
def setPub (cfg : Cfg) (ok : Takes) (on : Bool) (c : Ctx) (st : St) : St :=
  if c.active = on then st
  else
    { st with
      active := on
      ctxs := st.ctxs.map fun x =>
        if x.id = c.id then { x with active := on }
        else if x.publishing = false then setSub ok (if on = true then .start else .eof) (if on = true then startNotes cfg else stopNotes cfg) on x else x }

/-- ngx_rtmp_live_module.c:305-380: `live_start` and `live_stop` for session `c`. -/
def setStatus (cfg : Cfg) (ok : Takes) (on : Bool) (c : Ctx) (st : St) : St :=
  if c.publishing = true then setPub cfg ok on c st
  else { st with ctxs := modify c.id (setSub ok (if on = true then .start else .eof) (if on = true then startNotes cfg else stopNotes cfg) on) st.ctxs }

def find? (st : St) (id : Nat) : Option Ctx := st.ctxs.find? (fun c => c.id == id)

/-- `ngx_map_rbegin`: the session with the highest priority (C23). -/
def top : List (Int × Nat) → Option (Int × Nat)
  | [] => none
  | p :: ps => match top ps with
    | none => some p
    | some q => if p.1 < q.1 then some q else some p

/-- ngx_rtmp_live_module.c:426-518: a publisher joins; `pri`: -1 for a relay, else the argument `pubpri`. A second join of a session does nothing but set `s->publishing` (ngx_rtmp_cmd_module.c:219). -/
def publish (id : Nat) (pri : Int) (st : St) : St :=
  match find? st id with
  | some _ => { st with ctxs := modify id (fun c => { c with sessPub := true }) st.ctxs }
  | none =>
    if st.pubs.any (fun p => p.1 == pri) then st
    else { st with pubs := (pri, id) :: st.pubs, ctxs := { id := id, publishing := true, sessPub := true, pri := pri } :: st.ctxs }

/-- ngx_rtmp_live_module.c:426-518 and 1043-1056: a subscriber joins (`idle_streams` on); then NetStream.Play.Start and the sample access message, unless they are sent by `live_start`. -/
def play (cfg : Cfg) (ok : Takes) (id : Nat) (silent : Bool) (st : St) : St :=
  match find? st id with
  | some _ => { st with ctxs := modify id (fun c => { c with sessPub := false, silent := silent }) st.ctxs }
  | none =>
    let c : Ctx := { id := id, publishing := false, sessPub := false }
    let c1 := if st.active = true then setSub ok .start (startNotes cfg) true c else c
    let c2 := { c1 with silent := silent }
    let c3 := if silent = false ∧ cfg.playRestart = false then (send ok (send ok c2 (.note 1)).1 (.note 2)).1 else c2
    { st with ctxs := c3 :: st.ctxs }

/-- ngx_rtmp_live_module.c:522-598: a session leaves. The messages to the session itself are not modelled. -/
def close (cfg : Cfg) (ok : Takes) (id : Nat) (st : St) : St :=
  match find? st id with
  | none => st
  | some c =>
    let st1 := if c.sessPub = true then { st with pubs := st.pubs.filter (fun p => p.1 != c.pri) } else st
    let st2 := { st1 with ctxs := st1.ctxs.filter (fun x => x.id != id) }
    if c.publishing = true then setPub cfg ok false c st2 else st2

/-- ngx_rtmp_live_module.c:602-643: the session pauses or goes on (the status message is taken to be accepted). -/
def pause (cfg : Cfg) (ok : Takes) (id : Nat) (on : Bool) (st : St) : St :=
  match find? st id with
  | none => st
  | some c => setStatus cfg ok (!on) { c with paused := on } { st with ctxs := modify id (fun c => { c with paused := on }) st.ctxs }

/-- ngx_rtmp_control_module.c:231-258: `s->pause` is set to 1, and from 1 to 2. -/
def hold (id : Nat) (on : Bool) (st : St) : St :=
  { st with ctxs := modify id (fun c => if on = true then { c with hold := 1 } else if c.hold = 1 then { c with hold := 2 } else c) st.ctxs }

def sub32 (a b : Nat) : Nat := (a + (2 ^ 32 - b % 2 ^ 32)) % 2 ^ 32

/-- What the loop over the subscribers knows of a message: ngx_rtmp_live_module.c:723-811. -/
structure Cast where
  m : Msg
  audio : Bool
  prio : Nat
  mandatory : Bool
  header : Option Nat
  coheader : Option Nat
  data : Option Nat
  last : Nat
  delta : Nat

/-- ngx_rtmp_live_module.c:947-969: the message itself. -/
def sendAv (ok : Takes) (x : Cast) (c : Ctx) : Ctx :=
  match send ok c (.av x.m) with
  | (c1, true) => setCs c1 x.audio { getCs c1 x.audio with ts := ((getCs c1 x.audio).ts + x.delta) % 2 ^ 32 }
  | (c1, false) =>
    let c2 := { setCs c1 x.audio { getCs c1 x.audio with dropped := ((getCs c1 x.audio).dropped + x.delta) % 2 ^ 32 } with ndropped := c1.ndropped + 1 }
    if x.mandatory = true then { c2 with fin := true } else c2

/-- ngx_rtmp_live_module.c:921-927: the codec header of the message. -/
def sendOwn (ok : Takes) (x : Cast) (c : Ctx) : Ctx × Bool :=
  match x.header with
  | some f => send ok c (.header f x.m.video x.last)
  | none => (c, true)

/-- ngx_rtmp_live_module.c:929-938 with 901-911: the codec header of the other kind, or an empty audio message (`quiet`: audio was not active before). -/
def sendCo (cfg : Cfg) (ok : Takes) (x : Cast) (quiet : Bool) (c : Ctx) : Ctx × Bool :=
  match x.coheader with
  | some f => send ok c (.header f (!x.m.video) x.last)
  | none => if cfg.waitVideo = true ∧ x.m.video = true ∧ quiet = true then ((send ok c (.dummy x.last)).1, true) else (c, true)

/-- ngx_rtmp_live_module.c:901-944: the codec headers before the first message; the flag is false if one is refused. -/
def sendHeaders (cfg : Cfg) (ok : Takes) (x : Cast) (c : Ctx) : Ctx × Bool :=
  if x.header = none ∧ x.coheader = none then (c, true)
  else match sendOwn ok x c with
    | (c1, false) => (c1, false)
    | (c1, true) => match sendCo cfg ok x (!c.a.active) c1 with
      | (c2, false) => (c2, false)
      | (c2, true) => (setCs c2 x.audio { getCs c2 x.audio with ts := x.last, active := true }, true)

/-- ngx_rtmp_live_module.c:856-863: metadata. -/
def sendData (ok : Takes) (x : Cast) (c : Ctx) : Ctx :=
  match x.data with
  | some n => if n ≠ c.metaVersion then
      match send ok c (.data n) with
      | (c1, true) => { c1 with metaVersion := n }
      | (c1, false) => c1
    else c
  | none => c

/-- ngx_rtmp_live_module.c:865-873: a subscriber that missed more than `sync` starts anew. -/
def resync (cfg : Cfg) (x : Cast) (c : Ctx) : Ctx :=
  if (getCs c x.audio).active = true ∧ cfg.sync ≠ 0 ∧ (getCs c x.audio).dropped > cfg.sync then
    setCs c x.audio { getCs c x.audio with active := false, dropped := 0 }
  else c

/-- ngx_rtmp_live_module.c:879-899: an inactive subscriber does not want the message. -/
def skips (cfg : Cfg) (x : Cast) (c : Ctx) : Bool :=
  x.mandatory || (cfg.waitVideo && !x.m.video && !c.v.active) || (cfg.waitKey && decide (x.prio ≠ 1) && (cfg.interleave || x.m.video))

/-- ngx_rtmp_live_module.c:830-970: one subscriber. -/
def deliver (cfg : Cfg) (ok : Takes) (x : Cast) (c : Ctx) : Ctx :=
  if c.publishing = true ∨ c.paused = true then c
  else
    let c := resync cfg x (sendData ok x c)
    if (getCs c x.audio).active = true then sendAv ok x c
    else if skips cfg x c = true then c
    else match sendHeaders cfg ok x c with
      | (c1, false) => c1
      | (c1, true) => sendAv ok x c1

/-- ngx_rtmp_live_module.c:723-811: what is sent, for a publisher `p`. -/
def castOf (cfg : Cfg) (codec : Option Codec) (p : Ctx) (m : Msg) : Cast :=
  let audio := !(cfg.interleave || m.video)
  let last := if (getCs p audio).active = true then (getCs p audio).ts else m.ts
  let k := codec.getD { isAac := false, isH264 := false }
  let hdr := m.hdr && (if m.video = true then k.isH264 else k.isAac)
  { m := m, audio := audio, prio := if m.video = true ∧ hdr = false then m.ftype else 0, mandatory := hdr
    header := if m.video = true then k.avc else k.aac
    coheader := if cfg.interleave = true then (if m.video = true then k.aac else k.avc) else none
    data := k.data, last := last, delta := sub32 m.ts last }

/-- ngx_rtmp_live_module.c:678-687: may a session on hold go on with this message? -/
def resumes (codec : Option Codec) (m : Msg) : Bool := (codec.any (·.noVideo)) || (m.video && m.ftype == 1)

/-- ngx_rtmp_live_module.c:646-981: a message of session `id`. -/
def av (cfg : Cfg) (ok : Takes) (id : Nat) (codec : Option Codec) (m : Msg) (st : St) : St :=
  match find? st id with
  | none => st
  | some p0 =>
    if p0.hold = 1 ∨ (p0.hold = 2 ∧ resumes codec m = false) then st
    else
      let st0 := { st with ctxs := modify id (fun c => { c with hold := 0 }) st.ctxs }
      if m.video = true ∧ m.ftype ≠ 1 ∧ m.ftype ≠ 2 then st0
      else if p0.publishing = false then st0
      else
        let st1 := if st0.active = false then setPub cfg ok true p0 st0 else st0
        let x := castOf cfg codec p0 m
        let st2 := { st1 with ctxs := modify id (fun c => setCs c x.audio { getCs c x.audio with active := true, ts := m.ts }) st1.ctxs }
        if (top st2.pubs).map (·.2) = some id then { st2 with ctxs := st2.ctxs.map (deliver cfg ok x) } else st2

/-- What happens to a stream. -/
inductive Op where
  | publish (id : Nat) (pri : Int)
  | play (ok : Takes) (id : Nat) (silent : Bool)
  | close (ok : Takes) (id : Nat)
  | pause (ok : Takes) (id : Nat) (on : Bool)
  | hold (id : Nat) (on : Bool)
  | av (ok : Takes) (id : Nat) (codec : Option Codec) (m : Msg)

def step (cfg : Cfg) (st : St) : Op → St
  | .publish id pri => publish id pri st
  | .play ok id silent => play cfg ok id silent st
  | .close ok id => close cfg ok id st
  | .pause ok id on => pause cfg ok id on st
  | .hold id on => hold id on st
  | .av ok id codec m => av cfg ok id codec m st

def run (cfg : Cfg) (st : St) (ops : List Op) : St := ops.foldl (step cfg) st

end Verif.Live
