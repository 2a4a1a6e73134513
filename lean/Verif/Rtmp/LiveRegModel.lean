import Verif.Base.Bytes
import Verif.Base.Linked
/-
Model of the registry of live servers and streams (nginx-rtmp-module/ngx_live.c).

Servers and streams live at addresses 0, 1, ... of two heaps; the bucket chains and the free lists run through their `next` members as in the
code. Every search carries fuel, and the outer `none` of a result says that the chain has a cycle, i.e. that the C loop does not end.
Simplifications: allocation does not fail (on failure `ngx_live_get_stream` would write to NULL, ngx_live.c:210-218); of the members
of a stream only the name and `next` are kept, `epoch`, `pubctx` etc. belong to other parts; times and the session lists of
`ngx_live_create_ctx` are modelled in `LiveCtxModel`.
-/
namespace Verif.LiveReg
open Verif

def upd {α : Type} (f : Nat → α) (i : Nat) (v : α) : Nat → α := fun j => if j = i then v else f j

/-- `ngx_live_server_t` (ngx_rtmp.h:479-487). `id` are the bytes copied before the terminating NUL. -/
structure Srv where
  id : Bytes := []
  nStream : Nat := 0
  deleted : Bool := false
  next : Option Nat := none
  streams : Nat → Option Nat := fun _ => none

/-- `ngx_live_stream_t` (ngx_rtmp.h:451-477) -/
structure Strm where
  name : Bytes := []
  next : Option Nat := none

/-- Bucket numbers and hash function (`ngx_hash_key`; any function will do). -/
structure Cfg where
  serverBuckets : Nat
  streamBuckets : Nat
  hash : Bytes → Nat

/-- `ngx_live_conf_t` (ngx_live.h:12-28) and the heaps. -/
structure St where
  srv : Nat → Srv := fun _ => {}
  srvFresh : Nat := 0
  heads : Nat → Option Nat := fun _ => none
  freeSrv : Option Nat := none
  allocSrv : Nat := 0
  nfreeSrv : Nat := 0
  str : Nat → Strm := fun _ => {}
  strFresh : Nat := 0
  freeStr : Option Nat := none
  allocStr : Nat := 0
  nfreeStr : Nat := 0

/-- `ngx_live_create_conf`, `ngx_live_init_conf` (ngx_live.c:56-92) -/
def init : St := {}

/-- What `ngx_strlen` sees of an array. -/
def cstr (b : Bytes) : Bytes := b.takeWhile (· ≠ 0)

def Cfg.sb (c : Cfg) (id : Bytes) : Nat := c.hash id % c.serverBuckets
def Cfg.tb (c : Cfg) (name : Bytes) : Nat := c.hash name % c.streamBuckets

/-- `ngx_live_find_server` (ngx_live.c:95-115): the place of the pointer and what is there. -/
def findServer (c : Cfg) (s : St) (id : Bytes) : Option (Option Nat × Option Nat) :=
  searchLink (fun n => (s.srv n).next) (fun n => cstr (s.srv n).id == id) (s.srvFresh + 1) none (s.heads (c.sb id))

/-- Assignment to `*psrv`. -/
def setPsrv (c : Cfg) (s : St) (id : Bytes) (pr v : Option Nat) : St :=
  match pr with
  | none => { s with heads := upd s.heads (c.sb id) v }
  | some n => { s with srv := upd s.srv n { s.srv n with next := v } }

/-- NGX_LIVE_SERVERID_LEN, NGX_LIVE_STREAM_LEN (ngx_rtmp.h:431-432) -/
def SERVERID_LEN : Nat := 512
def STREAM_LEN : Nat := 512

/-- `ngx_live_get_server` (ngx_live.c:117-156). A node from the free list keeps its `next` and its (empty) `streams`. -/
def getServer (s : St) (id : Bytes) : St × Option Nat :=
  if id.length > SERVERID_LEN - 1 then (s, none)
  else
    match s.freeSrv with
    | none => ({ s with srv := upd s.srv s.srvFresh { id := id }, srvFresh := s.srvFresh + 1, allocSrv := s.allocSrv + 1 }, some s.srvFresh)
    | some n =>
      ({ s with
          srv := upd s.srv n { s.srv n with id := id, deleted := false, nStream := 0 }
          freeSrv := (s.srv n).next
          nfreeSrv := s.nfreeSrv - 1 }, some n)

/-- `ngx_live_put_server` (ngx_live.c:158-169) -/
def putServer (s : St) (n : Nat) : St :=
  { s with srv := upd s.srv n { s.srv n with next := s.freeSrv }, freeSrv := some n, nfreeSrv := s.nfreeSrv + 1 }

/-- `ngx_live_find_stream` (ngx_live.c:171-191) -/
def findStream (c : Cfg) (s : St) (i : Nat) (name : Bytes) : Option (Option Nat × Option Nat) :=
  searchLink (fun n => (s.str n).next) (fun n => cstr (s.str n).name == name) (s.strFresh + 1) none ((s.srv i).streams (c.tb name))

/-- Assignment to `*pst`. -/
def setPst (c : Cfg) (s : St) (i : Nat) (name : Bytes) (pr v : Option Nat) : St :=
  match pr with
  | none => { s with srv := upd s.srv i { s.srv i with streams := upd (s.srv i).streams (c.tb name) v } }
  | some n => { s with str := upd s.str n { s.str n with next := v } }

/-- `ngx_live_get_stream` (ngx_live.c:193-224) -/
def getStream (s : St) (name : Bytes) : St × Option Nat :=
  if name.length > STREAM_LEN - 1 then (s, none)
  else
    match s.freeStr with
    | none => ({ s with str := upd s.str s.strFresh { name := name }, strFresh := s.strFresh + 1, allocStr := s.allocStr + 1 }, some s.strFresh)
    | some n => ({ s with str := upd s.str n { name := name }, freeStr := (s.str n).next, nfreeStr := s.nfreeStr - 1 }, some n)

/-- `ngx_live_put_stream` (ngx_live.c:226-237) -/
def putStream (s : St) (n : Nat) : St :=
  { s with str := upd s.str n { s.str n with next := s.freeStr }, freeStr := some n, nfreeStr := s.nfreeStr + 1 }

/-- `ngx_live_create_server` (ngx_live.c:239-253) -/
def createServer (c : Cfg) (s : St) (id : Bytes) : Option (St × Option Nat) :=
  match findServer c s id with
  | none => none
  | some (_, some n) => some ({ s with srv := upd s.srv n { s.srv n with deleted := false } }, some n)
  | some (pr, none) =>
    let g := getServer s id
    some (setPsrv c g.1 id pr g.2, g.2)

/-- `ngx_live_fetch_server` (ngx_live.c:255-263) -/
def fetchServer (c : Cfg) (s : St) (id : Bytes) : Option (Option Nat) := (findServer c s id).map (·.2)

/-- `ngx_live_delete_server` (ngx_live.c:265-284) -/
def deleteServer (c : Cfg) (s : St) (id : Bytes) : Option St :=
  match findServer c s id with
  | none => none
  | some (_, none) => some s
  | some (pr, some n) =>
    if (s.srv n).nStream ≠ 0 then some { s with srv := upd s.srv n { s.srv n with deleted := true } }
    else some (putServer (setPsrv c s id pr (s.srv n).next) n)

/-- `ngx_live_create_stream` (ngx_live.c:286-309) -/
def createStream (c : Cfg) (s : St) (id name : Bytes) : Option (St × Option Nat) :=
  match findServer c s id with
  | none => none
  | some (_, none) => some (s, none)
  | some (_, some i) =>
    match findStream c s i name with
    | none => none
    | some (_, some n) => some (s, some n)
    | some (pr, none) =>
      let g := getStream s name
      let t := setPst c g.1 i name pr g.2
      some ({ t with srv := upd t.srv i { t.srv i with nStream := (t.srv i).nStream + 1 } }, g.2)

/-- `ngx_live_fetch_stream` (ngx_live.c:311-327) -/
def fetchStream (c : Cfg) (s : St) (id name : Bytes) : Option (Option Nat) :=
  match findServer c s id with
  | none => none
  | some (_, none) => some none
  | some (_, some i) => (findStream c s i name).map (·.2)

/-- `ngx_live_delete_stream` (ngx_live.c:329-357) -/
def deleteStream (c : Cfg) (s : St) (id name : Bytes) : Option St :=
  match findServer c s id with
  | none => none
  | some (_, none) => some s
  | some (_, some i) =>
    match findStream c s i name with
    | none => none
    | some (_, none) => some s
    | some (pr, some n) =>
      let t := putStream (setPst c s i name pr (s.str n).next) n
      let t := { t with srv := upd t.srv i { t.srv i with nStream := (t.srv i).nStream - 1 } }
      if (t.srv i).deleted ∧ (t.srv i).nStream = 0 then deleteServer c t id else some t

end Verif.LiveReg
