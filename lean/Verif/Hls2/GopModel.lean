import Verif.Base.Chains
import Verif.Hls2.Model
/-
Model of the GOP cache for transport streams, modules/nginx-rtmp-module/mpegts/ngx_mpegts_gop_module.c, and of who follows it: HLS sessions (`ngx_hls_live_av`, ngx_hls_live_module.c:966-1006) and
players of MPEG-TS over HTTP (`ngx_mpegts_live_avframe`, ngx_mpegts_live_module.c:1689-1704). HLS sessions are those of Model.lean (C74).

One publisher. Its frames are numbered; a number stands for one allocation of the shared pool. `acq`, `rel` count the references that the cache takes and gives back; a frame is used by way of the cache only
while the cache has its reference. The outcome `none` is the use of a null pointer or of a frame that was given back, or an endless loop. Queues of sessions are lists (that `out_pos`, `out_last` implement one is C08).
A frame comes to HLS sessions first, then to the cache, then to the other players: modules are listed in the order live, cache, HLS (config:29-31), each puts itself before those that are there
(ngx_mpegts_live_module.c:1886, ngx_mpegts_gop_module.c:724-728, ngx_hls_live_module.c:1087-1091).
Not modelled: failing allocations, references of the sessions, products of times above 2^64.
-/
namespace Verif.Hls2.Gop
open Verif Verif.Hls2

/-- Directives (ngx_mpegts_gop_module.c:51-59): `q` is `out_queue` of the publisher, `tq` that of players; `playlen` is that of HLS (ngx_hls_live_module.c:978). Times in ms. -/
structure Conf where
  q : Nat
  cacheTime : Nat
  rollBack : Nat := cacheTime
  oneOff : Nat := 3000
  sendAll : Bool := false
  tq : Nat := q
  playlen : Nat := 15000
  h : Hls2.Conf := { queue := q }

/-- How long a frame stays in the cache (:235-236), in ticks -/
def Conf.keep (c : Conf) : Nat := (if c.cacheTime > c.rollBack then c.cacheTime else c.rollBack) * 90

/-- `ngx_mpegts_gop_ctx_t` of the publisher (:28-49; `made`: it is there), the members `next` and `pos` of frames, and the counters. `frames` are all frames of the publisher. Ghost: `hist` are those that were put
into the cache, `gone` is how many of them left it, `skip` counts those that were not put into it. -/
structure Pub where
  made : Bool := false
  cache : Nat → Option Nat := fun _ => none
  pos : Nat := 0
  last : Nat := 0
  keyframe : Option Nat := none
  cur : Nat := 0
  next : Nat → Option Nat := fun _ => none
  fpos : Nat → Nat := fun _ => 0
  acq : Nat → Nat := fun _ => 0
  rel : Nat → Nat := fun _ => 0
  frames : List Frame := []
  hist : List Nat := []
  gone : Nat := 0
  skip : Nat := 0

/-- `ngx_mpegts_gop_next` (:25) -/
def nxt (c : Conf) (p : Nat) : Nat := (p + 1) % c.q

/-- A frame is read by way of the cache. -/
def Pub.get (b : Pub) (f : Nat) : Option Frame := if b.rel f < b.acq f then b.frames[f]? else none

/-- `ngx_rtmp_shared_free_mpegts_frame` (ngx_rtmp_shared_module.c:349-366) by the cache; the slot is cleared. -/
def Pub.drop (b : Pub) (pos f : Nat) : Pub := { b with rel := set b.rel f (b.rel f + 1), cache := set b.cache pos none, gone := b.gone + 1 }

/-- The loop at `reset` (:273-281) from position `pos`. A null pointer given back is none. -/
def trim (c : Conf) (target : Nat) : Nat → Pub → Nat → Option Pub
  | 0, _, _ => none
  | k + 1, b, pos =>
    match b.cache pos with
    | none => trim c target k b (nxt c pos)
    | some f => if f = target then some { b with keyframe := some target, pos := pos } else (b.get f).bind fun _ => trim c target k (b.drop pos f) (nxt c pos)

/-- Only audio in the cache (:239-247) -/
def audioTrim (c : Conf) (x g : Frame) (f : Nat) (b : Pub) : Pub := if diff x.pts g.pts > c.keep then { b.drop b.pos f with pos := nxt c b.pos } else b

/-- `ngx_mpegts_gop_reset_gop` (:217-286) for the frame `x` -/
def resetGop (c : Conf) (x : Frame) (b : Pub) : Option Pub :=
  match b.cache b.pos with
  | none => some b
  | some f =>
    match b.keyframe with
    | none => (b.get f).map fun g => audioTrim c x g f b
    | some k =>
      (b.get k).bind fun _ =>
        match b.next k with
        | none => some b
        | some k2 =>
          if (c.q + b.last - b.pos) % c.q + 2 ≥ c.q then trim c k2 (c.q + 1) b b.pos
          else if x.video = false then some b
          else (b.get k2).bind fun y => if diff x.pts y.pts < c.keep then some b else trim c k2 (c.q + 1) b b.pos

/-- The end of the list of key frames (:369-370), from `k` -/
def lastKey (b : Pub) : Nat → Nat → Option Nat
  | 0, _ => none
  | n + 1, k => (b.get k).bind fun _ => match b.next k with | none => some k | some k2 => lastKey b n k2

/-- A key frame goes to the end of the list (:368-372). -/
def addKey (b : Pub) (f : Nat) : Option Pub :=
  match b.keyframe with
  | none => some { b with keyframe := some f }
  | some k => (lastKey b (b.frames.length + 1) k).map fun t => { b with next := set b.next t (some f) }

/-- Into the ring (:374-379) -/
def push (c : Conf) (b : Pub) (f : Nat) (x : Frame) : Pub :=
  { b with fpos := set b.fpos f b.last, cur := x.pts, cache := set b.cache b.last (some f), last := nxt c b.last, acq := set b.acq f (b.acq f + 1), hist := b.hist ++ [f] }

/-- `ngx_mpegts_gop_cache` (:326-386) for a frame `f` with contents `x` -/
def cacheFrame (c : Conf) (b : Pub) (f : Nat) (x : Frame) : Option Pub :=
  if c.cacheTime = 0 then some { b with skip := b.skip + 1 }
  else
    let b := { b with made := true }
    if (c.q + b.last - b.pos) % c.q + 1 ≥ c.q then some { b with skip := b.skip + 1 }
    else if b.keyframe = none ∧ x.video = true ∧ x.key = false then some { b with skip := b.skip + 1 }
    else (if x.key then addKey b f else some b).bind fun b => resetGop c x (push c b f x)

/-- The loop of `ngx_mpegts_gop_close_stream` (:693-696) -/
def freeAll (c : Conf) : Nat → Pub → Option Pub
  | 0, _ => none
  | k + 1, b =>
    if b.pos = b.last then some b
    else
      match b.cache b.pos with
      | none => freeAll c k { b with pos := nxt c b.pos }
      | some f => (b.get f).bind fun _ => freeAll c k { b with rel := set b.rel f (b.rel f + 1), gone := b.gone + 1, pos := nxt c b.pos }

/-- `ngx_mpegts_gop_close_stream` of the publisher (:678-700) -/
def close (c : Conf) (b : Pub) : Option Pub := if b.made then freeAll c (c.q + 1) b else some b

/-! ### Sessions -/

/-- `ngx_mpegts_gop_ctx_t` of a session and its queue; `hls` is the context of an HLS session. Ghost: `log` are all frames that were put into the queue, `full` counts those that were refused, `got` are the frames for
each call of `ngx_hls_live_update`, `old` those of them from before the publisher began, `since` is what `skip` was when the session joined. -/
structure Player where
  pos : Nat := 0
  state : Nat := 0
  first : Nat := 0
  base : Bool := false
  queue : List Nat := []
  log : List Nat := []
  full : Nat := 0
  hls : Option St := none
  got : List (Codec × List Frame) := []
  old : List Frame := []
  since : Nat := 0

/-- What is different for the two kinds of sessions: `room` is `ss->out_queue`; how far to go back; how much is sent at once (`none`: all); whether the start is noted -/
structure Rule where
  room : Nat
  offset : Nat
  dur : Option Nat
  note : Bool

/-- `ngx_mpegts_gop_link(s, ss, playlen, playlen)` (ngx_hls_live_module.c:984) -/
def hlsRule (c : Conf) : Rule := ⟨c.h.queue, c.playlen, some c.playlen, true⟩

/-- `ngx_mpegts_gop_send` (ngx_mpegts_gop_module.c:432, 458-459); `ss->roll_back` is never set. -/
def tsRule (c : Conf) : Rule := ⟨c.tq, 0, if c.sendAll then none else some c.oneOff, false⟩

def Player.put (p : Player) (f : Nat) : Player := { p with queue := p.queue ++ [f], log := p.log ++ [f] }

/-- `ngx_mpegts_gop_link_frame` (:185-214): no room -/
def isFull (r : Rule) (p : Player) : Prop := p.queue.length + 1 ≥ r.room

instance (r : Rule) (p : Player) : Decidable (isFull r p) := by unfold isFull; infer_instance

/-- Enough is sent (:458-459, :602-603). -/
def enough (r : Rule) (p : Player) (x : Frame) : Prop :=
  match r.dur with
  | none => False
  | some d => x.video = p.base ∧ diff x.pts p.first ≥ d * 90

instance (r : Rule) (p : Player) (x : Frame) : Decidable (enough r p x) := by unfold enough; split <;> infer_instance

/-- The loop that sends the cache (:449-479, :596-620) from frame `fr` at position `pos` -/
def burst (c : Conf) (r : Rule) (b : Pub) : Nat → Player → Nat → Option Nat → Option Player
  | 0, _, _, _ => none
  | _ + 1, p, pos, none => some { p with state := 2, pos := pos }
  | n + 1, p, pos, some f =>
    (b.get f).bind fun x =>
      if isFull r p then some { p with pos := pos, full := p.full + 1 }
      else if enough r p x then some { p.put f with state := 2, pos := nxt c pos }
      else burst c r b n (p.put f) (nxt c pos) (b.cache (nxt c pos))

/-- The key frame to start from (:431-440, :575-587): the last of those that are more than the offset ago, before the first that is not -/
def seekKey (b : Pub) (off : Nat) : Nat → Option Nat → Option Nat → Option (Option Nat)
  | 0, _, _ => none
  | _ + 1, none, fr => some fr
  | n + 1, some k, fr => (b.get k).bind fun x => if off ≠ 0 ∧ diff b.cur x.pts > off * 90 then seekKey b off n (b.next k) (some k) else some fr

/-- The start of `ngx_mpegts_gop_send_gop`, `ngx_mpegts_gop_offset_frames` (:414-427, :558-571). The inner `none` is NGX_AGAIN with nothing in the cache. -/
def begin (b : Pub) (p : Player) : Option (Option Player) :=
  if p.state = 0 then
    match b.cache b.pos with
    | none => some none
    | some f => (b.get f).map fun x => some { p with pos := b.pos, state := 1, first := x.pts, base := x.video }
  else if b.cache p.pos = none then some (some { p with pos := b.pos })
  else some (some p)

/-- `ngx_mpegts_gop_send_gop`, `ngx_mpegts_gop_offset_frames` (:390-483, :536-623) unless all was sent -/
def sendGop (c : Conf) (r : Rule) (b : Pub) (p : Player) : Option Player :=
  (begin b p).bind fun o =>
    match o with
    | none => some { p with pos := b.pos }
    | some p =>
      (seekKey b r.offset (b.frames.length + 1) b.keyframe none).bind fun fr =>
        match fr with
        | none => burst c r b (c.q + 1) p p.pos (b.cache p.pos)
        | some k => (b.get k).bind fun x => burst c r b (c.q + 1) (if r.note then { p with first := x.pts, base := x.video } else p) (b.fpos k) (some k)

/-- One frame (:515-529, :658-672) -/
def follow (c : Conf) (r : Rule) (b : Pub) (p : Player) : Option Player :=
  let pos := if b.cache p.pos = none then b.pos else p.pos
  match b.cache pos with
  | none => some { p with pos := nxt c pos }
  | some f => (b.get f).map fun _ => if isFull r p then { p with pos := pos, full := p.full + 1 } else { p.put f with pos := nxt c pos }

/-- `ngx_mpegts_gop_send`, `ngx_mpegts_gop_link` (:486-533, :626-675) if there is a cache -/
def link (c : Conf) (r : Rule) (b : Pub) (p : Player) : Option Player := if p.state = 2 then follow c r b p else sendGop c r b p

/-- Contents of frames -/
def vals (b : Pub) (l : List Nat) : List Frame := l.filterMap (b.frames[·]?)

/-- What `ngx_hls_live_av` does for a session (ngx_hls_live_module.c:981-998); without a cache nothing (NGX_DECLINED) -/
def hlsSee (c : Conf) (k : Codec) (b : Pub) (p : Player) (s : St) : Option Player :=
  if b.made = false then some p
  else
    (link c (hlsRule c) b p).bind fun p' =>
      (update c.h k (vals b p'.queue) s).map fun r =>
        { p' with hls := some r.1, queue := p'.queue.drop (p'.queue.length - r.2.length), got := p'.got ++ [(k, vals b (p'.log.drop p.log.length))] }

/-- What `ngx_mpegts_live_avframe` does for a player (ngx_mpegts_live_module.c:1695-1697) -/
def tsSee (c : Conf) (b : Pub) (p : Player) : Option Player := if b.made = false then some p else link c (tsRule c) b p

def see (c : Conf) (k : Codec) (hls : Bool) (b : Pub) (p : Player) : Option Player :=
  match p.hls with
  | some s => if hls then hlsSee c k b p s else some p
  | none => if hls then some p else tsSee c b p

/-- One publisher and the sessions that are joined -/
structure World where
  b : Pub := {}
  pl : Nat → Player := fun _ => {}
  subs : List Nat := []

/-- All sessions of a kind -/
def fan (c : Conf) (k : Codec) (hls : Bool) (b : Pub) : List Nat → (Nat → Player) → Option (Nat → Player)
  | [], pl => some pl
  | i :: is, pl => (see c k hls b (pl i)).bind fun p => fan c k hls b is (set pl i p)

inductive Op where
  /-- the publisher has a frame; what is known of its codecs -/
  | av (k : Codec) (x : Frame)
  /-- a session joins (`ngx_hls_live_join`, `ngx_mpegts_live_join`) -/
  | join (i : Nat) (hls : Bool)
  | leave (i : Nat)
  /-- frames are taken out of the queue of a player (ngx_rtmp_shared_module.c:104-133) -/
  | drain (i n : Nat)
  /-- the publisher closes its stream -/
  | close
  /-- the publisher goes and another session publishes: it has no cache, those that follow the stream stay (`live_stream->mpegts_ctx`, `live_stream->hls_ctx`). Numbers of frames go on. -/
  | publish

def step (c : Conf) (w : World) : Op → Option World
  | .av k x =>
    let b := { w.b with frames := w.b.frames ++ [x] }
    (fan c k true b w.subs w.pl).bind fun pl =>
      (cacheFrame c b w.b.frames.length x).bind fun b =>
        (fan c k false b w.subs pl).map fun pl => { w with b := b, pl := pl }
  | .join i hls => some (if i ∈ w.subs then w else { w with pl := set w.pl i { hls := if hls then some (Hls2.init c.h) else none, since := w.b.skip }, subs := i :: w.subs })
  | .leave i => some { w with pl := set w.pl i {}, subs := w.subs.filter (· ≠ i) }
  | .drain i n => some (if (w.pl i).hls = none then { w with pl := set w.pl i { w.pl i with queue := (w.pl i).queue.drop n } } else w)
  | .close => (Gop.close c w.b).map fun b => { w with b := b }
  | .publish => (Gop.close c w.b).map fun _ => { w with b := { frames := w.b.frames }, pl := fun i => { w.pl i with log := [], full := 0, since := 0, old := (w.pl i).got.flatMap (·.2) } }

def run (c : Conf) : World → List Op → Option World
  | w, [] => some w
  | w, o :: os => (step c w o).bind fun w => run c w os

end Verif.Hls2.Gop
