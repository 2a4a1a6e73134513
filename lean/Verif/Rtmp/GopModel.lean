import Verif.Base.Chains
/-
Model of the publisher's GOP cache: `ngx_rtmp_gop_cache`, `ngx_rtmp_gop_reset_gop`, `ngx_rtmp_gop_reset_avheader`,
`ngx_rtmp_gop_close_stream` (nginx-rtmp-module/ngx_rtmp_gop_module.c).

Frames are numbered in the order of publication; a number stands for one allocation of the shared pool (C09). `acq`, `rel` count the references
the cache has taken and given back. Time stamps are an argument of every step, because `ngx_rtmp_gop_link_frame` rewrites those of cached
frames for the players (:178-211). The outcome `none` is a NULL pointer dereference or an endless loop.
Only audio and video frames are cached (ngx_rtmp_live_module.c:1078-1082), so `ngx_rtmp_gop_set_avframe_tag` (:239-260) always sets the flags.
`latest_aac_header`, `latest_avc_header` are only read by the sending side (Live/GopSendModel.lean) and left out here.
-/
namespace Verif.Gop
open Verif

/-- What a frame is: type (audio or video), `av_header`, `keyframe` (ngx_rtmp.h:186-195). -/
structure Fr where
  video : Bool
  header : Bool
  key : Bool
deriving DecidableEq, Repr

/-- Configuration: `s->out_queue`, `gacf->cache_time`. -/
structure Cfg where
  q : Nat
  cacheTime : Nat

/-- `ngx_rtmp_gop_ctx_t` of a publisher (ngx_rtmp_gop_module.c:25-49), `frame->next` of the frames, and the counters. -/
structure St where
  cache : Nat → Option Nat := fun _ => none
  pos : Nat := 0
  last : Nat := 0
  keyframe : Option Nat := none
  next : Nat → Option Nat := fun _ => none
  aac : Option Nat := none
  avc : Option Nat := none
  /-- number of frames so far and what they are -/
  n : Nat := 0
  info : Nat → Fr := fun _ => ⟨false, false, false⟩
  acq : Nat → Nat := fun _ => 0
  rel : Nat → Nat := fun _ => 0

def init : St := {}

/-- `ngx_rtmp_gop_next` (:22) -/
def nxt (c : Cfg) (p : Nat) : Nat := (p + 1) % c.q

/-- `ngx_rtmp_shared_free_frame` of a frame -/
def free (s : St) (f : Nat) : St := { s with rel := set s.rel f (s.rel f + 1) }

def freeOpt (s : St) : Option Nat → St
  | none => s
  | some f => free s f

/-- `ngx_rtmp_gop_reset_avheader` (:262-277) -/
def resetAvheader (s : St) (f : Nat) : St :=
  if (s.info f).video then { freeOpt s s.avc with avc := some f } else { freeOpt s s.aac with aac := some f }

/-- Headers at the front of the cache (:289-299) -/
def strip (c : Cfg) : Nat → St → Option St
  | 0, _ => none
  | k + 1, s =>
    if s.pos = s.last then some s
    else
      match s.cache s.pos with
      | none => none
      | some f => if (s.info f).header then strip c k { resetAvheader s f with pos := nxt c s.pos } else some s

/-- One frame on the way to the next key frame (:348-356) -/
def drop (s : St) (pos f : Nat) : St :=
  let s := if (s.info f).header then resetAvheader s f else free s f
  { s with cache := set s.cache pos none }

/-- The loop at `reset` (:345-360) from position `pos` -/
def trim (c : Cfg) (target : Nat) : Nat → St → Nat → Option St
  | 0, _, _ => none
  | k + 1, s, pos =>
    match s.cache pos with
    | none => none
    | some f => if f = target then some { s with keyframe := some target, pos := pos } else trim c target k (drop s pos f) (nxt c pos)

/-- Unsigned 32-bit difference -/
def sub32 (a b : Nat) : Nat := (a + 4294967296 - b % 4294967296) % 4294967296

/-- Only audio in the cache (:309-319); `pos` is where the scan for headers ended, which is `gop_pos`. -/
def audioTrim (c : Cfg) (ts : Nat → Nat) (s : St) (frame f : Nat) : St :=
  if sub32 (ts frame) (ts f) > c.cacheTime then
    let t := free s f
    { t with cache := set t.cache s.pos none, pos := nxt c s.pos }
  else s

/-- `ngx_rtmp_gop_reset_gop` (:279-361) -/
def resetGop (c : Cfg) (ts : Nat → Nat) (s : St) (frame : Nat) : Option St :=
  match strip c (c.q + 1) s with
  | none => none
  | some s =>
    match s.cache s.pos with
    | none => some s
    | some f =>
      match s.keyframe with
      | none => some (audioTrim c ts s frame f)
      | some k =>
        match s.next k with
        | none => some s
        | some k2 =>
          if (c.q + s.last - s.pos) % c.q + 2 ≥ c.q then trim c k2 (c.q + 1) s s.pos
          else if (s.info frame).video = false then some s
          else if sub32 (ts frame) (ts k2) < c.cacheTime then some s
          else trim c k2 (c.q + 1) s s.pos

/-- The frame goes to the end of the list of key frames (:460-464); `none`: the list has a cycle. -/
def addKey (s : St) (f : Nat) : Option St :=
  match searchLink s.next (fun _ => false) (s.n + 2) none s.keyframe with
  | none => none
  | some (pr, _) => some { s with next := setNext s.next pr (some f), keyframe := setHead s.keyframe pr (some f) }

/-- Put the frame in the ring (:466-469) -/
def push (c : Cfg) (s : St) (f : Nat) : St :=
  { s with cache := set s.cache s.last (some f), last := nxt c s.last, acq := set s.acq f (s.acq f + 1) }

/-- A new frame; `ngx_rtmp_shared_alloc_frame` clears its `next` (ngx_rtmp_shared_module.c:233). -/
def newFrame (s : St) (fr : Fr) : St := { s with n := s.n + 1, info := set s.info s.n fr, next := set s.next s.n none }

/-- What `ngx_rtmp_gop_cache` answers -/
inductive Rc where
  | ok
  | again
deriving DecidableEq, Repr

/-- `ngx_rtmp_gop_cache` for a new frame (:407-476), `cache_time` not 0 -/
def cacheFrame (c : Cfg) (ts : Nat → Nat) (s : St) (fr : Fr) : Option (St × Rc) :=
  let f := s.n
  let s := newFrame s fr
  if (c.q + s.last - s.pos) % c.q + 1 ≥ c.q then some (s, .again)
  else if s.keyframe = none ∧ fr.video = true ∧ fr.key = false ∧ fr.header = false then some (s, .ok)
  else
    match (if fr.key = true ∧ fr.header = false then addKey s f else some s) with
    | none => none
    | some s => (resetGop c ts (push c s f) f).map (·, .ok)

/-- Free the frames in the ring (:716-719) -/
def freeRing (c : Cfg) : Nat → St → Option St
  | 0, _ => none
  | k + 1, s =>
    if s.pos = s.last then some s
    else
      match s.cache s.pos with
      | none => none
      | some f => freeRing c k { free s f with pos := nxt c s.pos }

/-- `ngx_rtmp_gop_close_stream` of a publisher (:690-723) -/
def close (c : Cfg) (s : St) : Option St := freeRing c (c.q + 1) (freeOpt (freeOpt s s.avc) s.aac)

end Verif.Gop
