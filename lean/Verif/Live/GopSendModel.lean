import Verif.Rtmp.GopModel
/-
Model of how the GOP cache of a publisher is sent to the players: `ngx_rtmp_gop_link_frame`, `ngx_rtmp_gop_send_meta`, `ngx_rtmp_gop_send_gop`,
`ngx_rtmp_gop_send` (nginx-rtmp-module/ngx_rtmp_gop_module.c:161-237, 478-688) and their callers in `ngx_rtmp_live_av`
(ngx_rtmp_live_module.c:818-853) and `ngx_rtmp_live_play` (:1058-1061). The cache itself is the model of C34 (Rtmp/GopModel.lean).

One publisher, any number of players that take part in the GOP cache (RTMP and HTTP-FLV). `cache_time` is not 0. Frames are numbered in the order of publication, as in
Rtmp/GopModel.lean; metadata messages have their own numbers. The queue of a player is a list: that `out_pos`, `out_last` implement one is C08.
The outcome `none` is a NULL pointer dereference, or the use of a frame that the cache has given back (its memory may be in use for another
frame), or an endless loop.
Not modelled: failing allocations, wake-ups of the sender, the reuse of a frame's address while a player remembers it as its latest header.
-/
namespace Verif.GopSend
open Verif Verif.Gop

/-- Configuration: that of the cache, `ss->out_queue` of the players, and the other directives (:51-57). -/
structure Conf where
  c : Cfg
  pq : Nat
  low : Bool := false
  sendAll : Bool := false
  fix : Nat := 10000
  zero : Bool := false

/-- A message in a queue: metadata or an audio or video frame. -/
inductive Item where
  | md (m : Nat)
  | av (f : Nat)
deriving DecidableEq, Repr

/-- `timestamp`, `last_timestamp` of `ngx_rtmp_live_chunk_stream_t` (ngx_rtmp_live_module.h:23-30) -/
structure Chan where
  ts : Nat := 0
  last : Nat := 0
deriving DecidableEq, Repr

/-- `ngx_rtmp_gop_ctx_t` of a player (:25-49), its two channels, and its queue. `queue` are the messages from `out_pos` to `out_last`. Ghost: `log` are all
messages ever put in the queue, `sent` those the sender has taken out, `lost` those thrown away with their references, `full` counts the messages refused. -/
structure Player where
  pos : Nat := 0
  state : Nat := 0
  ver : Nat := 0
  first : Nat := 0
  latA : Option Nat := none
  latV : Option Nat := none
  csV : Chan := {}
  csA : Chan := {}
  queue : List Item := []
  log : List Item := []
  sent : List Item := []
  lost : List Item := []
  full : Nat := 0

/-- What the players see of the publisher: the cache, `latest_aac_header`, `latest_avc_header` of its context, `meta` and `meta_version` of its codec
context, and `frame->hdr.timestamp` of all messages. -/
structure Pub where
  st : St := {}
  latA : Option Nat := none
  latV : Option Nat := none
  metaMsg : Option Nat := none
  ver : Nat := 0
  ts : Item → Nat := fun _ => 0

/-- The time stamp that a player's channel gives to a message with time stamp `t` (:178-199). -/
def fixTime (k : Conf) (ch : Chan) (t : Nat) : Chan :=
  let d := if t > ch.last then t - ch.last else ch.last - t
  let d := if d > k.fix then 0 else d
  let ts :=
    if k.zero = false ∧ ch.ts = 0 then t
    else if t > ch.last then (ch.ts + d) % 4294967296
    else if ch.ts ≥ d then ch.ts - d
    else ch.ts
  ⟨ts, t⟩

/-- Which channel, `csidx` (:180): video has its own, everything else goes to the other one. -/
def isVideo (b : Pub) : Item → Bool
  | .md _ => false
  | .av f => (b.st.info f).video

/-- The time stamp written into the message (:208-211) -/
def stamp : Item → Nat → Nat
  | .md _, _ => 0
  | .av _, t => t

/-- Rewriting of the time stamps (:177-212). The message is shared by all players. -/
def restamp (k : Conf) (b : Pub) (p : Player) (it : Item) : Pub × Player :=
  if k.fix = 0 then (b, p)
  else if isVideo b it then
    let ch := fixTime k p.csV (b.ts it)
    ({ b with ts := fun x => if x = it then stamp it ch.ts else b.ts x }, { p with csV := ch })
  else
    let ch := fixTime k p.csA (b.ts it)
    ({ b with ts := fun x => if x = it then stamp it ch.ts else b.ts x }, { p with csA := ch })

/-- The cache still has its reference of the frame. Metadata is kept by the codec module. -/
def alive (b : Pub) : Item → Bool
  | .md _ => true
  | .av f => decide (b.st.rel f < b.st.acq f)

/-- The latest headers of the player (:224-230) -/
def noteHeader (b : Pub) (p : Player) : Item → Player
  | .md _ => p
  | .av f =>
    if (b.st.info f).header then
      if (b.st.info f).video then { p with latV := some f } else { p with latA := some f }
    else p

/-- `ngx_rtmp_gop_link_frame` (:161-237) with a frame; the last component tells NGX_OK from NGX_AGAIN. -/
def link (k : Conf) (b : Pub) (p : Player) (it : Item) : Option (Pub × Player × Bool) :=
  if alive b it = false then none
  else
    let r := restamp k b p it
    if r.2.queue.length + 1 ≥ k.pq then some (r.1, { r.2 with full := r.2.full + 1 }, false)
    else
      let p := noteHeader b r.2 it
      some (r.1, { p with queue := p.queue ++ [it], log := p.log ++ [it] }, true)

/-- `ngx_rtmp_gop_link_frame`: NULL is NGX_OK (:172-174). -/
def linkOpt (k : Conf) (b : Pub) (p : Player) : Option Item → Option (Pub × Player × Bool)
  | none => some (b, p, true)
  | some it => link k b p it

/-- Link a header unless it is absent or the player's latest (:631-648, :658-674). -/
def linkNew (k : Conf) (b : Pub) (p : Player) (h lat : Option Nat) : Option (Pub × Player × Bool) :=
  if h = lat then some (b, p, true) else linkOpt k b p (h.map .av)

/-- `ngx_rtmp_gop_send_meta` (:478-496) -/
def sendMeta (k : Conf) (b : Pub) (p : Player) : Option (Pub × Player × Bool) :=
  if p.ver = b.ver then some (b, p, true)
  else
    match linkOpt k b p (b.metaMsg.map .md) with
    | none => none
    | some (b, p, false) => some (b, p, false)
    | some (b, p, true) => some (b, { p with ver := b.ver }, true)

/-- The loop that sends the cache (:549-573), from position `pos`. It ends at an empty slot or at the player's `gop_last`, which is never set and
so is 0. -/
def burst (k : Conf) : Nat → Pub → Player → Nat → Option (Pub × Player)
  | 0, _, _, _ => none
  | n + 1, b, p, pos =>
    match b.st.cache pos with
    | none => some (b, { p with state := 3, pos := pos })
    | some f =>
      if pos = 0 then some (b, { p with state := 3, pos := pos })
      else if k.sendAll = false ∧ sub32 (b.ts (.av f)) p.first ≥ k.c.cacheTime then some (b, { p with state := 3, pos := pos })
      else
        match link k b p (.av f) with
        | none => none
        | some (b, p, false) => some (b, { p with pos := pos })
        | some (b, p, true) => burst k n b p (nxt k.c pos)

/-- `send_gop` is 1 (:526-546): the headers, then the cache -/
def sendFirst (k : Conf) (b : Pub) (p : Player) : Option (Pub × Player) :=
  let p := { p with pos := b.st.pos }
  match b.st.cache p.pos with
  | none => some (b, p)
  | some f0 =>
    match linkOpt k b p (b.st.aac.map .av) with
    | none => none
    | some (b, p, false) => some (b, p)
    | some (b, p, true) =>
      match linkOpt k b p (b.st.avc.map .av) with
      | none => none
      | some (b, p, false) => some (b, p)
      | some (b, p, true) => burst k (k.c.q + 1) b { p with state := 2, first := b.ts (.av f0) } p.pos

/-- `send_gop` is 2 (:547-553) -/
def sendRest (k : Conf) (b : Pub) (p : Player) : Option (Pub × Player) :=
  match b.st.cache p.pos with
  | none => burst k (k.c.q + 1) b { p with pos := b.st.pos } b.st.pos
  | some _ => burst k (k.c.q + 1) b p p.pos

/-- `ngx_rtmp_gop_prev` (:23) -/
def prv (c : Cfg) (pos : Nat) : Nat := if pos = 0 then c.q - 1 else pos - 1

/-- The frame at the player's position, and the position after it (:679-685) -/
def sendOne (k : Conf) (b : Pub) (p : Player) : Option (Pub × Player) :=
  match linkOpt k b p ((b.st.cache p.pos).map .av) with
  | none => none
  | some (b, p, false) => some (b, p)
  | some (b, p, true) => some (b, { p with pos := nxt k.c p.pos })

/-- Two headers, if they are not the player's latest; then the position `pos` and the frame there. -/
def sendHeaders (k : Conf) (b : Pub) (p : Player) (a v : Option Nat) (pos : Nat) : Option (Pub × Player) :=
  match linkNew k b p a p.latA with
  | none => none
  | some (b, p, false) => some (b, p)
  | some (b, p, true) =>
    match linkNew k b p v p.latV with
    | none => none
    | some (b, p, false) => some (b, p)
    | some (b, p, true) => sendOne k b { p with pos := pos }

/-- `ngx_rtmp_gop_send` in state 3, after the metadata (:617-687) -/
def sendNext (k : Conf) (b : Pub) (p : Player) : Option (Pub × Player) :=
  let pos := prv k.c b.st.last
  match b.st.cache pos with
  | none => none
  | some f =>
    if (b.st.info f).key = true ∧ (b.st.info f).header = false then
      if k.low = true ∧ pos ≠ p.pos then
        let p := { p with pos := pos, lost := p.lost ++ p.queue, queue := [] }
        sendHeaders k b p b.latA b.latV pos
      else sendOne k b p
    else
      match b.st.cache p.pos with
      | none => sendHeaders k b p b.st.aac b.st.avc b.st.pos
      | some _ => sendOne k b p

/-- `ngx_rtmp_gop_send` (:583-688) with a context of the publisher -/
def gopSend (k : Conf) (b : Pub) (p : Player) : Option (Pub × Player) :=
  if p.state = 3 then
    match sendMeta k b p with
    | none => none
    | some (b, p, false) => some (b, p)
    | some (b, p, true) => sendNext k b p
  else if p.state = 0 then
    match sendMeta k b p with
    | none => none
    | some (b, p, false) => some (b, p)
    | some (b, p, true) => some (b, { p with state := 1 })
  else if p.state = 1 then sendFirst k b p
  else sendRest k b p

/-- `ngx_rtmp_gop_cache` for a new frame, with the latest headers (:434-449) -/
def cachePub (k : Conf) (b : Pub) (fr : Fr) (t : Nat) : Option Pub :=
  let f := b.st.n
  let ts := fun x => if x = Item.av f then t else b.ts x
  match cacheFrame k.c (fun x => ts (.av x)) b.st fr with
  | none => none
  | some (st, .again) => some { b with st := st, ts := ts }
  | some (st, .ok) =>
    some { b with
      st := st
      ts := ts
      latA := if fr.header = true ∧ fr.video = false then some f else b.latA
      latV := if fr.header = true ∧ fr.video = true then some f else b.latV }

/-- One publisher and its players; `subs` are those that play and are not paused. -/
structure World where
  b : Pub := {}
  pl : Nat → Player := fun _ => {}
  subs : List Nat := []

/-- `ngx_rtmp_gop_send` to every subscriber (ngx_rtmp_live_module.c:824-853) -/
def fan (k : Conf) : List Nat → Pub → (Nat → Player) → Option (Pub × (Nat → Player))
  | [], b, pl => some (b, pl)
  | i :: is, b, pl =>
    match gopSend k b (pl i) with
    | none => none
    | some (b, p) => fan k is b (set pl i p)

inductive Op where
  /-- the publisher sends a frame with a time stamp (`ngx_rtmp_live_av`) -/
  | pub (fr : Fr) (t : Nat)
  /-- the publisher sends metadata: a new message and a new version (ngx_rtmp_codec_module.c:1144-1155) -/
  | data (t : Nat)
  /-- a player begins to play (`ngx_rtmp_live_play`) -/
  | join (i : Nat)
  /-- a player pauses or goes on (`ngx_rtmp_live_pause`) -/
  | pause (i : Nat)
  | resume (i : Nat)
  /-- the sender takes `n` messages from the queue of a player (ngx_rtmp_shared_module.c:104-133) -/
  | drain (i n : Nat)

/-- What the sender does to a queue -/
def drainPl (p : Player) (n : Nat) : Player := { p with queue := p.queue.drop n, sent := p.sent ++ p.queue.take n }

def step (k : Conf) (w : World) : Op → Option World
  | .pub fr t =>
    match cachePub k w.b fr t with
    | none => none
    | some b =>
      match fan k w.subs b w.pl with
      | none => none
      | some (b, pl) => some { w with b := b, pl := pl }
  | .data t =>
    let m := w.b.ver
    some { w with b := { w.b with metaMsg := some m, ver := m + 1, ts := fun x => if x = .md m then t else w.b.ts x } }
  | .join i =>
    if i ∈ w.subs then some w
    else if w.b.st.n = 0 then some { w with subs := i :: w.subs }
    else
      match gopSend k w.b (w.pl i) with
      | none => none
      | some (b, p) => some { b := b, pl := set w.pl i p, subs := i :: w.subs }
  | .pause i => some { w with subs := w.subs.filter (· != i) }
  | .resume i => if i ∈ w.subs then some w else some { w with subs := i :: w.subs }
  | .drain i n => some { w with pl := set w.pl i (drainPl (w.pl i) n) }

def run (k : Conf) : World → List Op → Option World
  | w, [] => some w
  | w, o :: os =>
    match step k w o with
    | none => none
    | some w => run k w os

end Verif.GopSend
