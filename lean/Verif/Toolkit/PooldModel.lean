/-
Model of the pool registry nginx-toolkit-module/ngx_poold.c.

Addresses of pools are numbers, 0 is NULL; `ngx_create_pool` of nginx core is the environment and picks the address (or fails with NULL).
`ngx_poold_map` is an `ngx_map` with unsigned keys, a finite map by C23. The registry's own nodes come from a pool that does not fail (a NULL
node would be dereferenced, ngx_poold.c:101-102). File and line of the creator are one number, `tag`.
-/
namespace Verif.Poold

/-- `ngx_poold_node_t` (ngx_poold.c:21-28) -/
structure Node where
  next : Option Nat := none
  pool : Nat := 0
  tag : Nat := 0
deriving DecidableEq, Repr

/-- The static variables (ngx_poold.c:12-18) and the heap of nodes. -/
structure St where
  nodes : Nat → Node := fun _ => {}
  fresh : Nat := 0
  map : Nat → Option Nat := fun _ => none
  free : Option Nat := none
  nalloc : Nat := 0
  nfree : Nat := 0

def upd {α : Type} (f : Nat → α) (i : Nat) (v : α) : Nat → α := fun j => if j = i then v else f j

/-- `ngx_poold_init` (ngx_poold.c:31-46) -/
def init : St := {}

/-- `ngx_poold_get_node` (ngx_poold.c:49-70) -/
def getNode (s : St) : St × Nat :=
  match s.free with
  | none => ({ s with nodes := upd s.nodes s.fresh {}, fresh := s.fresh + 1, nalloc := s.nalloc + 1 }, s.fresh)
  | some n => ({ s with free := (s.nodes n).next, nodes := upd s.nodes n {}, nfree := s.nfree - 1 }, n)

/-- `ngx_poold_put_node` (ngx_poold.c:73-88) -/
def putNode (s : St) (n : Nat) : St :=
  { s with nodes := upd s.nodes n { s.nodes n with next := s.free }, free := some n, nfree := s.nfree + 1 }

/-- `ngx_map_insert(.., 0)`: an existing key is left alone (ngx_map.c:190-205). -/
def mapInsert (m : Nat → Option Nat) (a n : Nat) : Nat → Option Nat :=
  match m a with
  | some _ => m
  | none => upd m a (some n)

/-- `ngx_create_pool_debug` (ngx_poold.c:91-111); `addr` is what `ngx_create_pool` returned. -/
def create (s : St) (addr tag : Nat) : St :=
  let g := getNode s
  { g.1 with
    nodes := upd g.1.nodes g.2 { g.1.nodes g.2 with pool := addr, tag := tag }
    map := mapInsert g.1.map addr g.2 }

/-- `ngx_destroy_pool_debug` (ngx_poold.c:114-134): the new state and the pools given to `ngx_destroy_pool`; none when "destroy pool twice"
is logged. -/
def destroy (s : St) (addr : Nat) : St × List Nat :=
  match s.map addr with
  | none => (s, [])
  | some n => (putNode { s with map := upd s.map addr none } n, [addr])

/-- What `ngx_poold_state` prints for a registered address (ngx_poold.c:178-187). -/
def line (s : St) (addr : Nat) : Option Nat := (s.map addr).map fun n => (s.nodes n).tag

end Verif.Poold
