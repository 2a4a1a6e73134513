import Verif.Hls2.Model
/-
Model of the memory of HLS: fragments are objects with reference counts, held by the rings of sessions and by responses that are being sent, and taken from one free list
(mpegts/ngx_hls_live_module.c:525-573, mpegts/ngx_hls_http_module.c:526-564, 878-1079). `none` is behaviour that is not defined: a pointer that leads to no object is used.
-/
namespace Verif.Hls2.Mem
open Verif Verif.Hls2
open Verif.HlsRestore (Text)

/-- An object `ngx_hls_live_frag_t` (ngx_hls_live_module.h:36-49); `cap` are the slots of `content` it was allocated with, `ref` is 0 if it is in the free list. -/
structure Cell where
  ref : Nat
  cap : Nat
  frag : Frag
  deriving DecidableEq, Repr

/-- All objects ever allocated; addresses are their indices. `free` is `free_frag`. -/
structure Heap where
  cells : List Cell := []
  free : List Nat := []
  deriving DecidableEq, Repr

/-- An object that is not free is read, and written. -/
def Heap.get (h : Heap) (a : Nat) : Option Frag :=
  match h.cells[a]? with
  | none => none
  | some x => if x.ref = 0 then none else some x.frag

def Heap.set (h : Heap) (a : Nat) (f : Frag) : Option Heap :=
  match h.cells[a]? with
  | none => none
  | some x => if x.ref = 0 then none else some { h with cells := h.cells.set a { x with frag := f } }

/-- `ngx_rtmp_shared_acquire_frag` (ngx_hls_live_module.c:324-328) -/
def Heap.acquire (h : Heap) (a : Nat) : Option Heap :=
  match h.cells[a]? with
  | none => none
  | some x => if x.ref = 0 then none else some { h with cells := h.cells.set a { x with ref := x.ref + 1 } }

/-- `ngx_hls_live_free_frag` (:525-549): its frames are freed with it. -/
def Heap.release (h : Heap) (a : Nat) : Option Heap :=
  match h.cells[a]? with
  | none => none
  | some x =>
    if x.ref = 0 then none
    else if x.ref = 1 then some { cells := h.cells.set a { x with ref := 0 }, free := a :: h.free }
    else some { h with cells := h.cells.set a { x with ref := x.ref - 1 } }

/-- The fragment of a slot, if there is one, is given up (:599-602). -/
def Heap.giveUp (h : Heap) : Option Nat → Option Heap
  | none => some h
  | some a => h.release a

/-- `ngx_hls_live_create_frag` (:552-573) and what `ngx_hls_live_open_fragment` writes first (:607-612). The last one freed is taken; `ngx_memzero` writes as many slots as the session's queue has,
whatever the object was allocated with. -/
def Heap.create (h : Heap) (q : Nat) (f : Frag) : Option (Heap × Nat) :=
  match h.free with
  | [] => some ({ h with cells := h.cells ++ [⟨1, q, f⟩] }, h.cells.length)
  | a :: l =>
    match h.cells[a]? with
    | none => none
    | some x => if x.cap < q then none else some ({ cells := h.cells.set a ⟨1, x.cap, f⟩, free := l }, a)

/-- `ngx_hls_live_ctx_t`, with pointers to fragments -/
structure HSt where
  opened : Bool := false
  playing : Bool := false
  nfrag : Nat := 0
  nfrags : Nat := 0
  fragTs : Nat := 0
  ring : List (Option Nat)
  deriving DecidableEq, Repr

def hinit (c : Conf) : HSt := { ring := List.replicate c.size none }

/-- `ngx_hls_live_get_frag` (:202-212) -/
def addr (c : Conf) (s : HSt) (n : Nat) : Option Nat := (s.ring[(s.nfrag + n) % c.size]?).join

/-- `ngx_hls_live_next_frag` (:215-229), `ngx_hls_live_close_fragment` (:495-522) -/
def hnext (c : Conf) (s : HSt) : HSt := if s.nfrags = c.win then { s with nfrag := s.nfrag + 1 } else { s with nfrags := s.nfrags + 1 }

def hclose (c : Conf) (s : HSt) : HSt :=
  if !s.opened then s
  else
    let s := hnext c { s with opened := false }
    if c.minfrags ≤ s.nfrags ∧ !s.playing then { s with playing := true } else s

/-- An object is changed. -/
def Heap.modify (h : Heap) (a : Nat) (f : Frag → Frag) : Option Heap := (h.get a).bind fun g => h.set a (f g)

/-- `ngx_hls_live_write_frame` (:888-907) -/
def hwrite (c : Conf) (h : Heap) (s : HSt) (f : Frame) : Option Heap :=
  (addr c s s.nfrags).bind fun a => if c.queue = 0 then none else h.modify a (Frag.put c.queue · f)

/-- `ngx_hls_live_open_fragment` (:576-635) -/
def hopen (c : Conf) (k : Codec) (ts : Nat) (discont : Bool) (h : Heap) (s : HSt) : Option (Heap × HSt) :=
  if s.opened then some (h, s)
  else
    let id := s.nfrag + s.nfrags
    (h.giveUp (s.ring[id % c.size]?).join).bind fun h =>
    (h.create c.queue { id := id, discont := discont }).bind fun r =>
    let s := { s with ring := s.ring.set (id % c.size) (some r.2), opened := true, fragTs := ts }
    (hwrite c r.1 s k.frame).bind fun h =>
    (addr c s s.nfrags).bind fun a =>
    (h.modify a fun g => { g with length := 376 }).map fun h => (h, s)

/-- `ngx_hls_live_update_fragment` (:823-885): the fragment's duration; then whether there is a new one -/
def hlength (ts : Nat) (force : Bool) (h : Heap) (s : HSt) (a : Nat) : Option (Heap × Nat) :=
  if force then (h.get a).map fun g => (h, g.ticks)
  else (h.modify a fun g => { g with ticks := diff ts s.fragTs }).map fun h => (h, diff ts s.fragTs)

def hcut (c : Conf) (k : Codec) (ts : Nat) (boundary force : Bool) (len : Option Nat) (h : Heap) (s : HSt) : Option (Heap × HSt) :=
  if c.aligned ∧ c.fraglen * 90 = 0 then none
  else
    let same := s.fragTs / (c.fraglen * 90) = ts / (c.fraglen * 90)
    let start := c.aligned && !s.opened && decide (s.fragTs = 0 ∨ same)
    let short := if c.aligned then s.opened && decide same else match len with | none => false | some t => decide (t < c.fraglen * 90)
    let boundary := boundary && !short && !start
    let s := if start then { s with fragTs := ts } else s
    if boundary || force then hopen c k ts (!s.opened) h (hclose c s) else some (h, s)

def hupdateFragment (c : Conf) (k : Codec) (ts : Nat) (boundary : Bool) (h : Heap) (s : HSt) : Option (Heap × HSt) :=
  if s.opened then
    let force := decide ((c.maxFraglen * 90 : Nat) < sdiff ts s.fragTs) || decide (sdiff ts s.fragTs < -90000)
    (addr c s s.nfrags).bind fun a => (hlength ts force h s a).bind fun r => hcut c k ts boundary force (some r.2) r.1 s
  else hcut c k ts boundary false none h s

/-- `ngx_hls_live_update` (:910-963) -/
def hupdate (c : Conf) (k : Codec) : List Frame → Heap → HSt → Option (Heap × HSt × List Frame)
  | [], h, s => some (h, s, [])
  | f :: fs, h, s =>
    match hupdateFragment c k f.pts (boundary k s.opened f) h s with
    | none => none
    | some (h, s) =>
      if !s.opened then some (h, s, f :: fs)
      else
        match hwrite c h s f with
        | none => none
        | some h => hupdate c k fs h s

/-- A session; `last` is `s->request`. -/
structure HSess where
  conf : Conf
  st : HSt
  queue : List Frame := []
  last : Option Nat := none
  deriving DecidableEq, Repr

/-- A response that is being sent: `ctx->session`, `ctx->frag`, `ctx->content_pos` (ngx_hls_http_module.c), what was told as its length, and the bytes that were given to the connection -/
structure HReq where
  sess : Nat
  frag : Nat
  pos : Nat := 0
  length : Nat
  sent : Bytes := []
  deriving DecidableEq, Repr

/-- Sessions and requests are numbered as they come; `none` if they are gone. -/
structure World where
  heap : Heap := {}
  sess : List (Option HSess) := []
  reqs : List (Option HReq) := []
  deriving DecidableEq, Repr

/-- What happens: a session is made; frames come; a fragment is asked for (and the header can be sent, or not); a playlist is asked for, and answered at once; more is sent; a request is over;
a session is closed. -/
inductive Op
  | join (c : Conf)
  | feed (sid : Nat) (k : Codec) (fs : List Frame)
  | ask (sid : Nat) (name : Text) (after : Char)
  | askFails (sid : Nat) (name : Text) (after : Char)
  | playlist (sid : Nat)
  | send (rid : Nat)
  | finish (rid : Nat)
  | close (sid : Nat)
  deriving DecidableEq, Repr

/-- `ngx_hls_http_prepare_out_chain` (ngx_hls_http_module.c:878-913): up to `n` frames from `pos` on -/
def sendGo (q : Nat) (g : Frag) : Nat → Nat → Option (Bytes × Nat)
  | 0, pos => some ([], pos)
  | n + 1, pos =>
    if pos = g.last then some ([], pos)
    else (g.content[pos]?).bind fun f => if q = 0 then none else (sendGo q g n ((pos + 1) % q)).map fun r => (f.data ++ r.1, r.2)

/-- All references of a ring are given up (`ngx_hls_live_close_stream`, ngx_hls_live_module.c:799-804). -/
def releaseAll : List (Option Nat) → Heap → Option Heap
  | [], h => some h
  | none :: l, h => releaseAll l h
  | some a :: l, h => (h.release a).bind (releaseAll l)

def World.session (w : World) (sid : Nat) : Option HSess := (w.sess[sid]?).join
def World.request (w : World) (rid : Nat) : Option HReq := (w.reqs[rid]?).join

/-- The fragment for a name (`ngx_hls_live_find_frag`, :270-322); the log line that reads it even if there is none (:317-319) is written with debug logs only, and not modelled. -/
def hfind (x : HSess) (name : Text) (after : Char) : Option Nat := (findSlot x.conf x.st.nfrag x.st.nfrags name after).bind fun i => (x.st.ring[i]?).join

/-- `ngx_hls_http_cleanup` (ngx_hls_http_module.c:526-564) for a request that still has its session: `s->request` is cleared whichever request it is. -/
def finish (w : World) (rid : Nat) (r : HReq) : Option World :=
  (w.session r.sess).bind fun x =>
  (w.heap.release r.frag).map fun h => { heap := h, sess := w.sess.set r.sess (some { x with last := none }), reqs := w.reqs.set rid none }

/-- A request that is over at once, of a session: it became `s->request` (:1038, 783), and is cleaned up. -/
def World.forget (w : World) (sid : Nat) (x : HSess) : World := { w with sess := w.sess.set sid (some { x with last := none }) }

/-- One step. Requests to sessions that are not there change nothing. -/
def step (w : World) : Op → Option World
  | .join c => some { w with sess := w.sess ++ [some { conf := c, st := hinit c }] }
  | .feed sid k fs =>
    match w.session sid with
    | none => some w
    | some x => (hupdate x.conf k (x.queue ++ fs) w.heap x.st).map fun r => { w with heap := r.1, sess := w.sess.set sid (some { x with st := r.2.1, queue := r.2.2 }) }
  | .ask sid name after =>
    match w.session sid with
    | none => some w
    | some x =>
      match hfind x name after with
      | none => some (w.forget sid x)
      | some a =>
        (w.heap.get a).bind fun g => (w.heap.acquire a).map fun h =>
          { heap := h, sess := w.sess.set sid (some { x with last := some w.reqs.length }), reqs := w.reqs ++ [some { sess := sid, frag := a, length := g.length }] }
  | .askFails sid name after =>
    match w.session sid with
    | none => some w
    | some x =>
      match hfind x name after with
      | none => some (w.forget sid x)
      | some a => (w.heap.release a).map fun h => { w.forget sid x with heap := h }
  | .playlist sid =>
    match w.session sid with
    | none => some w
    | some x => some (w.forget sid x)
  | .send rid =>
    match w.request rid with
    | none => some w
    | some r =>
      (w.session r.sess).bind fun x => (w.heap.get r.frag).bind fun g => (sendGo x.conf.queue g 4 r.pos).map fun z =>
        { w with reqs := w.reqs.set rid (some { r with pos := z.2, sent := r.sent ++ z.1 }) }
  | .finish rid =>
    match w.request rid with
    | none => some w
    | some r => finish w rid r
  | .close sid =>
    match w.session sid with
    | none => some w
    | some x =>
      -- the last request is over (ngx_hls_http_module.c:1211-1239), then the ring, then the session
      let w := match x.last with | none => some w | some rid => match w.request rid with | none => none | some r => finish w rid r
      w.bind fun w => (releaseAll x.st.ring w.heap).map fun h => { w with heap := h, sess := w.sess.set sid none }

def run : List Op → World → Option World
  | [], w => some w
  | o :: l, w => (step w o).bind (run l)

end Verif.Hls2.Mem
