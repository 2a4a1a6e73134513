import Verif.Base.Bytes
/-
Model of the shared-memory stream zone (nginx-multiport-module/ngx_stream_zone_module.c): the table of stream names and the
worker process that owns each.

Indices into `stream_node` are `Option Nat` (-1 is `none`). Every loop over a chain carries a fuel argument; running out of fuel
(a cyclic chain, i.e. an endless loop in C) is the distinct outcome `none`. A worker process is identified by its
`ngx_process_slot`.

Two presentations of the same code are given: the functions run without interference (`insertStream`, `deleteStream`,
`clear`), and the interleaved system (`Step`) in which processes run concurrently and are only kept apart by the bucket locks
(`hash[idx].mutex`) and the free-list lock (`szcf->mutex`). Not modelled: the mutexes themselves, crashes of a process that
holds a lock, the configuration parser, `ngx_stream_zone_state` (prints the counters).
-/
namespace Verif.Zone
open Verif

/-- Function update. -/
def upd {α : Type} (f : Nat → α) (i : Nat) (v : α) : Nat → α := fun j => if j = i then v else f j

/-- `ngx_stream_zone_node_t` (ngx_stream_zone_module.c:33-38). `name` holds the bytes copied into the array; the array ends
with a NUL after them. `slot` is -1 at first, a process slot later. -/
structure Node where
  name : Bytes
  slot : Int
  next : Option Nat
deriving DecidableEq

/-- The shared memory (ngx_stream_zone_module.c:40-58): nodes, bucket heads, free list head and allocation counter. -/
structure Mem where
  nodes : Nat → Node
  head : Nat → Option Nat
  free : Option Nat
  alloc : Int

/-- Configuration: `nbuckets`, `nstreams`, and the hash function (`ngx_hash_key`, any function will do). -/
structure Cfg where
  nb : Nat
  ns : Nat
  hash : Bytes → Nat

/-- NAME_LEN (ngx_stream_zone_module.c:29) -/
def nameLen : Nat := 1024

/-- The bytes before the first NUL: what `ngx_strlen` measures. -/
def cstr (b : Bytes) : Bytes := b.takeWhile (· ≠ 0)

/-- `ngx_strlen(node.name) == name->len && ngx_memcmp(node.name, name->data, name->len) == 0`
(ngx_stream_zone_module.c:411-413, :462-464). -/
def isName (n : Node) (name : Bytes) : Bool := cstr n.name == name

/-- `ngx_stream_zone_shm_init` (ngx_stream_zone_module.c:252-338): empty buckets, all nodes on the free list in order. -/
def init (c : Cfg) : Mem :=
  { nodes := fun i => { name := [], slot := -1, next := if i + 1 < c.ns then some (i + 1) else none }
    head := fun _ => none
    free := some 0
    alloc := 0 }

/-- `ngx_stream_zone_get_node` (ngx_stream_zone_module.c:97-125) -/
def getNode (m : Mem) (name : Bytes) (pslot : Int) : Option (Nat × Mem) :=
  match m.free with
  | none => none
  | some i => some (i, { m with
      free := (m.nodes i).next
      nodes := upd m.nodes i { name := name.take (nameLen - 1), slot := pslot, next := none }
      alloc := m.alloc + 1 })

/-- `ngx_stream_zone_put_node` (ngx_stream_zone_module.c:127-146) -/
def putNode (m : Mem) (i : Nat) : Mem :=
  { m with nodes := upd m.nodes i { m.nodes i with next := m.free }, free := some i, alloc := m.alloc - 1 }

/-- The search loop of insert and delete (ngx_stream_zone_module.c:408-420, :459-481): predecessor and node. -/
def search (m : Mem) (name : Bytes) : Nat → Option Nat → Option Nat → Option (Option Nat × Option Nat)
  | 0, _, _ => none
  | _ + 1, cur, none => some (cur, none)
  | k + 1, cur, some i => if isName (m.nodes i) name then some (cur, some i) else search m name k (some i) (m.nodes i).next

/-- Unlinking `i` behind `cur` (ngx_stream_zone_module.c:222-226, :470-474). -/
def unlink (m : Mem) (b : Nat) (cur : Option Nat) (i : Nat) : Mem :=
  match cur with
  | none => { m with head := upd m.head b (m.nodes i).next }
  | some c => { m with nodes := upd m.nodes c { m.nodes c with next := (m.nodes i).next } }

/-- Linking a new node (ngx_stream_zone_module.c:430-433). -/
def link (m : Mem) (b : Nat) (pslot : Int) (i : Nat) : Mem :=
  { m with nodes := upd m.nodes i { m.nodes i with slot := pslot, next := m.head b }, head := upd m.head b (some i) }

/-- `ngx_hash_key(...) % nbuckets` -/
def Cfg.bucket (c : Cfg) (name : Bytes) : Nat := c.hash name % c.nb

/-- Result of `ngx_stream_zone_insert_stream`. -/
inductive Res where
  | error
  | slot (s : Int)
deriving DecidableEq, Repr

/-- `ngx_stream_zone_insert_stream` (ngx_stream_zone_module.c:384-440), run alone. -/
def insertStream (c : Cfg) (m : Mem) (pslot : Int) (name : Bytes) : Option (Mem × Res) :=
  if name.length ≥ nameLen then some (m, .error)
  else
    match search m name (c.ns + 1) none (m.head (c.bucket name)) with
    | none => none
    | some (_, some i) => some (m, .slot (m.nodes i).slot)
    | some (_, none) =>
      match getNode m name pslot with
      | none => some (m, .error)
      | some (i, m1) => some (link m1 (c.bucket name) pslot i, .slot pslot)

/-- `ngx_stream_zone_delete_stream` (ngx_stream_zone_module.c:442-483), run alone. -/
def deleteStream (c : Cfg) (m : Mem) (pslot : Int) (name : Bytes) : Option Mem :=
  match search m name (c.ns + 1) none (m.head (c.bucket name)) with
  | none => none
  | some (_, none) => some m
  | some (cur, some i) =>
    if (m.nodes i).slot ≠ pslot then some m
    else some (putNode (unlink m (c.bucket name) cur i) i)

/-- `next` at the top of the loop of `ngx_stream_zone_clear` (ngx_stream_zone_module.c:211-215). -/
def following (m : Mem) (b : Nat) : Option Nat → Option Nat
  | none => m.head b
  | some c => (m.nodes c).next

/-- One bucket of `ngx_stream_zone_clear` (ngx_stream_zone_module.c:207-234). -/
def clearBucket (m : Mem) (pslot : Int) (b : Nat) : Nat → Option Nat → Option Mem
  | 0, _ => none
  | k + 1, cur =>
    match following m b cur with
    | none => some m
    | some i =>
      if (m.nodes i).slot = pslot then clearBucket (putNode (unlink m b cur i) i) pslot b k cur
      else clearBucket m pslot b k (some i)

/-- `ngx_stream_zone_clear` (ngx_stream_zone_module.c:192-236), run alone: buckets `b`, `b+1`, ... -/
def clearFrom (c : Cfg) (m : Mem) (pslot : Int) (b : Nat) : Nat → Option Mem
  | 0 => some m
  | n + 1 =>
    match clearBucket m pslot b (c.ns + 1) none with
    | none => none
    | some m => clearFrom c m pslot (b + 1) n

def clear (c : Cfg) (m : Mem) (pslot : Int) : Option Mem := clearFrom c m pslot 0 c.nb

/-! ### Concurrent processes -/

/-- Where a process is inside the zone functions. A process that is not `idle` or `clrAt` holds the lock of one bucket. -/
inductive Pc where
  | idle
  /-- insert: name not found, before `get_node` (ngx_stream_zone_module.c:422) -/
  | insNeed (name : Bytes)
  /-- insert: `get_node` returned `i`, not linked yet (:423-429) -/
  | insHave (name : Bytes) (i : Nat)
  /-- delete: `i` unlinked, before `put_node` (:475) -/
  | delPut (name : Bytes) (i : Nat)
  /-- clear: about to lock bucket `b` (:207) -/
  | clrAt (b : Nat)
  /-- clear: at the top of the `while` of bucket `b` (:210) -/
  | clr (b : Nat) (cur : Option Nat)
  /-- clear: `i` unlinked, before `put_node` (:228) -/
  | clrPut (b : Nat) (cur : Option Nat) (i : Nat)
deriving DecidableEq

/-- The bucket whose lock a process holds. -/
def Cfg.locked (c : Cfg) : Pc → Option Nat
  | .idle | .clrAt _ => none
  | .insNeed n | .insHave n _ | .delPut n _ => some (c.bucket n)
  | .clr b _ | .clrPut b _ _ => some b

/-- Memory and the position of every process (indexed by process slot). -/
structure Sys where
  mem : Mem
  pc : Nat → Pc

/-- What a transition does, as seen from outside. -/
inductive Ev where
  | tau
  | asked (w : Nat) (name : Bytes)
  | inserted (w : Nat) (name : Bytes) (r : Res)
  | removed (w : Nat) (name : Bytes)
  | notRemoved (w : Nat) (name : Bytes)
  | cleared (w : Nat)
  | dropped (w : Nat) (i : Nat)
deriving DecidableEq

/-- No other process holds the lock of bucket `b`. -/
def Sys.canLock (c : Cfg) (s : Sys) (b : Nat) : Prop := ∀ w, c.locked (s.pc w) ≠ some b

/-- The atomic steps of process `w`: everything done between two lock operations. Code touching the chain of a bucket runs
with that bucket locked, code touching the free list with `szcf->mutex` locked. -/
inductive Step (c : Cfg) : Sys → Nat → Ev → Sys → Prop where
  /-- insert, name too long (:399-403) -/
  | insLong {s : Sys} {w : Nat} {name} : s.pc w = .idle → nameLen ≤ name.length → Step c s w (.inserted w name .error) s
  /-- insert: lock, search, found, unlock (:405-420, :437) -/
  | insFound {s : Sys} {w : Nat} {name cur i} : s.pc w = .idle → name.length < nameLen → s.canLock c (c.bucket name) →
      search s.mem name (c.ns + 1) none (s.mem.head (c.bucket name)) = some (cur, some i) →
      Step c s w (.inserted w name (.slot (s.mem.nodes i).slot)) s
  /-- insert: lock, search, not found (:405-422) -/
  | insMiss {s : Sys} {w : Nat} {name cur} : s.pc w = .idle → name.length < nameLen → s.canLock c (c.bucket name) →
      search s.mem name (c.ns + 1) none (s.mem.head (c.bucket name)) = some (cur, none) →
      Step c s w (.asked w name) { s with pc := upd s.pc w (.insNeed name) }
  /-- insert: `get_node` (:423) -/
  | insGet {s : Sys} {w : Nat} {name i m} : s.pc w = .insNeed name → getNode s.mem name w = some (i, m) →
      Step c s w .tau { mem := m, pc := upd s.pc w (.insHave name i) }
  /-- insert: `get_node` returned NULL, unlock (:424-429) -/
  | insFull {s : Sys} {w : Nat} {name} : s.pc w = .insNeed name → getNode s.mem name w = none →
      Step c s w (.inserted w name .error) { s with pc := upd s.pc w .idle }
  /-- insert: link, unlock (:430-437) -/
  | insLink {s : Sys} {w : Nat} {name i} : s.pc w = .insHave name i →
      Step c s w (.inserted w name (.slot w)) { mem := link s.mem (c.bucket name) w i, pc := upd s.pc w .idle }
  /-- delete: lock, search, not found or not the owner, unlock (:456-468, :482) -/
  | delNone {s : Sys} {w : Nat} {name cur i?} : s.pc w = .idle → s.canLock c (c.bucket name) →
      search s.mem name (c.ns + 1) none (s.mem.head (c.bucket name)) = some (cur, i?) →
      (∀ i, i? = some i → (s.mem.nodes i).slot ≠ w) → Step c s w (.notRemoved w name) s
  /-- delete: lock, search, unlink (:456-474) -/
  | delUnlink {s : Sys} {w : Nat} {name cur i} : s.pc w = .idle → s.canLock c (c.bucket name) →
      search s.mem name (c.ns + 1) none (s.mem.head (c.bucket name)) = some (cur, some i) → (s.mem.nodes i).slot = w →
      Step c s w (.removed w name)
        { mem := unlink s.mem (c.bucket name) cur i, pc := upd s.pc w (.delPut name i) }
  /-- delete: `put_node`, unlock (:475-482) -/
  | delPut {s : Sys} {w : Nat} {name i} : s.pc w = .delPut name i →
      Step c s w .tau { mem := putNode s.mem i, pc := upd s.pc w .idle }
  /-- clear: start (:205) -/
  | clrStart {s : Sys} {w : Nat} : s.pc w = .idle → Step c s w .tau { s with pc := upd s.pc w (.clrAt 0) }
  /-- clear: lock the next bucket (:205-208) -/
  | clrLock {s : Sys} {w : Nat} {b} : s.pc w = .clrAt b → b < c.nb → s.canLock c b →
      Step c s w .tau { s with pc := upd s.pc w (.clr b none) }
  /-- clear: all buckets done (:205) -/
  | clrEnd {s : Sys} {w : Nat} {b} : s.pc w = .clrAt b → ¬ b < c.nb →
      Step c s w (.cleared w) { s with pc := upd s.pc w .idle }
  /-- clear: own node, unlink (:211-226) -/
  | clrUnlink {s : Sys} {w : Nat} {b cur i} : s.pc w = .clr b cur →
      following s.mem b cur = some i → (s.mem.nodes i).slot = w →
      Step c s w (.dropped w i) { mem := unlink s.mem b cur i, pc := upd s.pc w (.clrPut b cur i) }
  /-- clear: `put_node`, continue (:228-229) -/
  | clrPut {s : Sys} {w : Nat} {b cur i} : s.pc w = .clrPut b cur i →
      Step c s w .tau { mem := putNode s.mem i, pc := upd s.pc w (.clr b cur) }
  /-- clear: node of somebody else, advance (:232) -/
  | clrNext {s : Sys} {w : Nat} {b cur i} : s.pc w = .clr b cur →
      following s.mem b cur = some i → (s.mem.nodes i).slot ≠ w →
      Step c s w .tau { s with pc := upd s.pc w (.clr b (some i)) }
  /-- clear: end of the chain, unlock (:217-219, :234) -/
  | clrBucket {s : Sys} {w : Nat} {b cur} : s.pc w = .clr b cur →
      following s.mem b cur = none →
      Step c s w .tau { s with pc := upd s.pc w (.clrAt (b + 1)) }

/-- The name a step starts to insert. -/
def Ev.asks : Ev → Option Bytes
  | .asked _ n => some n
  | _ => none

/-- All states of the zone: any number of steps of any processes, inserting names that satisfy `ok`. -/
inductive Reach (c : Cfg) (ok : Bytes → Prop) : Sys → Prop where
  | init : Reach c ok { mem := init c, pc := fun _ => .idle }
  | step {s : Sys} {w : Nat} {e s'} : Reach c ok s → Step c s w e s' → (∀ n, e.asks = some n → ok n) → Reach c ok s'

end Verif.Zone
