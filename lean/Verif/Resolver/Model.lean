import Verif.Resolver.Spec
/-
Model of nginx-toolkit-module/ngx_dynamic_resolver.c: the table of domain names, the records it reuses, the callers who wait and the questions under way.
Not modelled: running out of memory; callbacks that call the resolver again from within (callers are noted in the order in which they are called); log messages; the counters shown by ngx_dynamic_resolver_state; a worker that is exiting.
-/
namespace Verif.Resolver

/-- Lines 21-22 -/
def maxDomain : Nat := 128
def maxAddrs : Nat := 8
/-- `sizeof(struct sockaddr)`, lines 35-40 -/
def sockaddrSize : Nat := 16

/-- ngx_dynamic_resolver_conf_t (54-67): `on` is `refresh_interval` not zero, `nb` is `domain_buckets`. `addr` stands for ngx_sock_pton (ngx_toolkit_misc.c:28-383), which reads a numeric address or a path of a Unix socket. -/
structure Conf where
  on : Bool
  nb : Nat
  addr : Name → Option Addr

/-- ngx_dynamic_resolver_domain_t (42-52): the array `addrs` has always eight places. `waiters` is the list `ctx`, the last caller first. -/
structure Rec where
  name : Name
  naddrs : Nat
  addrs : List Addr
  waiters : List Caller

/-- A record as ngx_pcalloc or ngx_memzero leaves it, with the name that is copied into it (203-218, 407-409, 550-552) -/
def Rec.fresh (n : Name) : Rec := ⟨n, 0, List.replicate maxAddrs [], []⟩

/-- Records are numbered; `nalloc` is the count of those that were allocated, `free` is the list `free_domain`, `flights` are the questions under way in nginx's resolver: the record given as `data` and the name asked. `out` notes every call of a callback. -/
structure State where
  recs : Nat → Rec
  nalloc : Nat
  free : List Nat
  bucket : Nat → List Nat
  flights : List (Nat × Name)
  out : List (Caller × Option Addr)

/-- Lines 119-149 -/
def State.init : State := ⟨fun _ => Rec.fresh [], 0, [], fun _ => [], [], []⟩

def upd {α : Type} (f : Nat → α) (i : Nat) (v : α) : Nat → α := fun j => if j = i then v else f j

/-- ngx_tolower (nginx core) -/
def lower (n : Name) : Name := n.map fun c => if 65 ≤ c ∧ c ≤ 90 then c ||| 0x20 else c

/-- ngx_hash_strlow (nginx core): `key = key * 31 + c` -/
def hash (n : Name) : Nat := (lower n).foldl (fun k c => (k * 31 + c.toNat) % 2 ^ 64) 0

/-- Lines 379-381, 451-453, 526-528, 631-633 -/
def slot (c : Conf) (n : Name) : Nat := hash n % c.nb

/-- The search in a bucket: 386-396, 458-462, 530-538, 635-639 -/
def find (c : Conf) (s : State) (n : Name) : Option Nat :=
  (s.bucket (slot c n)).find? fun i => (s.recs i).name == lower n

/-- ngx_dynamic_resolver_get_domain (194-221) and the entry in the bucket (398-409, 541-552) -/
def create (c : Conf) (s : State) (n : Name) : State × Nat :=
  match s.free with
  | [] =>
    ({ s with
        nalloc := s.nalloc + 1
        recs := upd s.recs s.nalloc (Rec.fresh (lower n))
        bucket := upd s.bucket (slot c n) (s.nalloc :: s.bucket (slot c n)) }, s.nalloc)
  | i :: free =>
    ({ s with
        free := free
        recs := upd s.recs i (Rec.fresh (lower n))
        bucket := upd s.bucket (slot c n) (i :: s.bucket (slot c n)) }, i)

/-- How a name is dealt with before the table is searched (351-377, 423-449, 496-524); a division by no buckets is undefined, and so is the copy of a long address into a `struct sockaddr` on the stack. -/
inductive Gate where
  | empty
  | numeric (a : Addr)
  | refused
  | undefined
  | pass
  deriving DecidableEq

def gate (c : Conf) (n : Name) : Gate :=
  if n = [] then .empty
  else match c.addr n with
    | some a => if a.length ≤ sockaddrSize then .numeric a else .undefined
    | none =>
      if !c.on then .refused
      else if maxDomain < n.length then .refused
      else if c.nb = 0 then .undefined
      else .pass

/-- ngx_dynamic_resolver_add_domain (341-410) -/
def add (c : Conf) (s : State) (n : Name) : Option State :=
  match gate c n with
  | .undefined => none
  | .pass => match find c s n with
    | some _ => some s
    | none => some (create c s n).1
  | _ => some s

/-- ngx_dynamic_resolver_del_domain (412-482), with ngx_dynamic_resolver_put_domain (223-234) -/
def del (c : Conf) (s : State) (n : Name) : Option State :=
  match gate c n with
  | .undefined => none
  | .pass => match find c s n with
    | none => some s
    | some i => some { s with
        bucket := upd s.bucket (slot c n) ((s.bucket (slot c n)).erase i)
        out := s.out ++ (s.recs i).waiters.map fun w => (w, none)
        recs := upd s.recs i { s.recs i with waiters := [] }
        free := i :: s.free }
  | _ => some s

/-- ngx_dynamic_resolver_start_resolver from the record on (555-587) -/
def ask (s : State) (i : Nat) (w : Caller) (r : Nat) : State :=
  if (s.recs i).naddrs = 0 then
    { s with
      recs := upd s.recs i { s.recs i with waiters := w :: (s.recs i).waiters }
      flights := s.flights ++ [(i, (s.recs i).name)] }
  else { s with out := s.out ++ [(w, (s.recs i).addrs[r % (s.recs i).naddrs]?)] }

/-- ngx_dynamic_resolver_start_resolver (484-592) -/
def start (c : Conf) (s : State) (n : Name) (w : Caller) (r : Nat) : Option State :=
  match gate c n with
  | .empty => some s
  | .undefined => none
  | .numeric a => some { s with out := s.out ++ [(w, some a)] }
  | .refused => some { s with out := s.out ++ [(w, none)] }
  | .pass => match find c s n with
    | some i => some (ask s i w r)
    | none => let (s', i) := create c s n; some (ask s' i w r)

/-- ngx_dynamic_resolver_on_timer (295-323) -/
def timer (c : Conf) (s : State) : State :=
  if c.on then
    { s with flights := s.flights ++
        ((List.range c.nb).flatMap s.bucket).map fun i => (i, (s.recs i).name) }
  else s

/-- The calls of 278-291 -/
def serve (addrs : List Addr) (m : Nat) : Nat → List Caller → List (Caller × Option Addr)
  | _, [] => []
  | n, w :: ws => (w, addrs[n]?) :: serve addrs m ((n + 1) % m) ws

/-- The loop of 269-292: the place `i` is filled, then whoever waits is served. `rnd` are the random numbers drawn. -/
def fill (m : Nat) (rnd : Nat → Nat) : Nat → List Addr → List Addr → List Caller → List Addr × List (Caller × Option Addr)
  | _, [], addrs, _ => (addrs, [])
  | i, a :: as, addrs, ws =>
    let addrs' := addrs.set i a
    let (l, o) := fill m rnd (i + 1) as addrs' []
    (l, serve addrs' m (rnd i % m) ws ++ o)

/-- ngx_dynamic_resolver_on_result (237-293) for the record `i`; an address that is longer than a `struct sockaddr` is written over what follows it (270-271), which is undefined. -/
def land (s : State) (i : Nat) (as : List Addr) (rnd : Nat → Nat) : Option State :=
  match as with
  | [] => some { s with
      out := s.out ++ (s.recs i).waiters.map fun w => (w, none)
      recs := upd s.recs i { s.recs i with waiters := [] } }
  | a :: as =>
    let l := (a :: as).take maxAddrs
    if l.any fun a => decide (sockaddrSize < a.length) then none
    else
      let (addrs, o) := fill l.length rnd 0 l (s.recs i).addrs (s.recs i).waiters
      some { s with
        out := s.out ++ o
        recs := upd s.recs i { s.recs i with naddrs := l.length, addrs := addrs, waiters := [] } }

inductive Op where
  | add (n : Name)
  | del (n : Name)
  | start (n : Name) (w : Caller) (r : Nat)
  | timer
  /-- The question number `k` of those under way is answered. One that is answered at once is one that is answered next. -/
  | result (k : Nat) (as : List Addr) (rnd : Nat → Nat)

def step (c : Conf) (s : State) : Op → Option State
  | .add n => add c s n
  | .del n => del c s n
  | .start n w r => start c s n w r
  | .timer => some (timer c s)
  | .result k as rnd => match s.flights[k]? with
    | none => some s
    | some (i, _) => land { s with flights := s.flights.eraseIdx k } i as rnd

/-- From a state along some operations; `none` is undefined behaviour. -/
def run (c : Conf) : State → List Op → Option State
  | s, [] => some s
  | s, o :: os => (step c s o).bind fun s' => run c s' os

/-- ngx_dynamic_resolver_gethostbyname (594-660); the outer `none` is undefined behaviour, the inner one is the returned 0. The empty name is not refused here. -/
def gethost (c : Conf) (s : State) (n : Name) (r : Nat) : Option (Option Addr) :=
  match c.addr n with
  | some a => some (some a)
  | none =>
    if !c.on then some none
    else if maxDomain < n.length then some none
    else if c.nb = 0 then none
    else match find c s n with
      | none => some none
      | some i =>
        if (s.recs i).naddrs = 0 then some none
        else some ((s.recs i).addrs[r % (s.recs i).naddrs]?)

end Verif.Resolver
