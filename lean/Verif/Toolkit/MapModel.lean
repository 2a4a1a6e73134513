import Verif.Base.Bytes
/-
Model of `ngx_map` (nginx-toolkit-module/ngx_map.c): an ordered map on top of nginx's red-black tree.

`ngx_rbtree_insert` and `ngx_rbtree_delete` belong to nginx core and are not in the repository. They are taken as follows: an
insertion hangs the node where `ngx_map_rbtree_insert_value` puts it and then rebalances, a deletion takes the node out and
rebalances, and rebalancing may produce any tree with the same nodes in the same left-to-right order (rotations do that).
A position in the tree is the list of turns from the root, last turn first, so "parent" is the tail.
-/
namespace Verif.Map
open Verif

/-- An `ngx_map_node_t` (ngx_map.h:46-50): the raw key and the identity of the node. -/
structure Entry (K : Type) where
  key : K
  id : Nat
deriving DecidableEq

/-- `ngx_map_t` (ngx_map.h:39-44): hash and comparison. The C comparison returns -1, 0 or 1. -/
structure Conf (K : Type) where
  hash : K → Nat
  cmp : K → K → Ordering

inductive Tree (K : Type) where
  | leaf                                        -- the sentinel
  | node (l : Tree K) (e : Entry K) (r : Tree K)

variable {K : Type}

/-- Nodes from left to right. -/
def Tree.inorder : Tree K → List (Entry K)
  | .leaf => []
  | .node l e r => l.inorder ++ e :: r.inorder

/-- The three-way decision of the search loops (ngx_map.c:19-40, :233-251): hash first, then `cmp`. -/
def Conf.order (c : Conf K) (a b : K) : Ordering :=
  if c.hash a < c.hash b then .lt
  else if c.hash b < c.hash a then .gt
  else c.cmp a b

/-- `ngx_map_rbtree_insert_value` (ngx_map.c:9-54), before rebalancing. -/
def insertValue (c : Conf K) (e : Entry K) : Tree K → Tree K
  | .leaf => .node .leaf e .leaf
  | .node l x r =>
    match c.order e.key x.key with
    | .lt => .node (insertValue c e l) x r
    | .gt => .node l x (insertValue c e r)
    | .eq => .node l x r

/-- `ngx_map_find` (ngx_map.c:218-257) -/
def find (c : Conf K) (k : K) : Tree K → Option (Entry K)
  | .leaf => none
  | .node l x r =>
    match c.order k x.key with
    | .lt => find c k l
    | .gt => find c k r
    | .eq => some x

/-- `ngx_rbtree_insert`: hang, then rebalance in any way. -/
def RbInsert (c : Conf K) (t : Tree K) (e : Entry K) (t' : Tree K) : Prop :=
  t'.inorder = (insertValue c e t).inorder

/-- `ngx_rbtree_delete`: the node with that identity disappears. -/
def RbDelete (t : Tree K) (e : Entry K) (t' : Tree K) : Prop :=
  ∃ a b, t.inorder = a ++ e :: b ∧ t'.inorder = a ++ b

/-- `ngx_map_delete` (ngx_map.c:207-216) -/
inductive Delete (c : Conf K) (t : Tree K) (k : K) : Tree K → Prop where
  | miss : find c k t = none → Delete c t k t
  | hit {e t'} : find c k t = some e → RbDelete t e t' → Delete c t k t'

/-- `ngx_map_insert` (ngx_map.c:190-205) -/
inductive Insert (c : Conf K) (t : Tree K) (e : Entry K) : Bool → Tree K → Prop where
  | fresh {cov t'} : find c e.key t = none → RbInsert c t e t' → Insert c t e cov t'
  | keep {x} : find c e.key t = some x → Insert c t e false t
  | cover {x t1 t'} : find c e.key t = some x → Delete c t e.key t1 → RbInsert c t1 e t' → Insert c t e true t'

/-- Calls made on a map. -/
inductive Op (K : Type) where
  | insert (e : Entry K) (covered : Bool)
  | delete (k : K)

/-- All states of the tree after a sequence of calls (last call first), starting empty (`ngx_map_init`, ngx_map.c:56-62). -/
inductive Run (c : Conf K) : List (Op K) → Tree K → Prop where
  | init : Run c [] .leaf
  | insert {ops t e cov t'} : Run c ops t → Insert c t e cov t' → Run c (.insert e cov :: ops) t'
  | delete {ops t k t'} : Run c ops t → Delete c t k t' → Run c (.delete k :: ops) t'

/-! ### Iteration -/

inductive Dir where
  | left | right
deriving DecidableEq, Repr

/-- Turns from the root, last turn first. -/
abbrev Path := List Dir

/-- The subtree at a position. -/
def Tree.at (t : Tree K) : Path → Tree K
  | [] => t
  | d :: p =>
    match t.at p with
    | .leaf => .leaf
    | .node l _ r => match d with | .left => l | .right => r

/-- The node at a position. -/
def Tree.entry? (t : Tree K) (p : Path) : Option (Entry K) :=
  match t.at p with
  | .leaf => none
  | .node _ e _ => some e

/-- The loop to the leftmost node (ngx_map.c:75-81, :137-144). `p` is the position of the subtree. -/
def leftmost : Tree K → Path → Path
  | .node (.node l e r) _ _, p => leftmost (.node l e r) (.left :: p)
  | _, p => p

/-- The loop to the rightmost node (ngx_map.c:97-103, :178-185). -/
def rightmost : Tree K → Path → Path
  | .node _ _ (.node l e r), p => rightmost (.node l e r) (.right :: p)
  | _, p => p

/-- `ngx_map_begin` (ngx_map.c:64-84) -/
def mbegin : Tree K → Option Path
  | .leaf => none
  | t => some (leftmost t [])

/-- `ngx_map_rbegin` (ngx_map.c:86-106) -/
def mrbegin : Tree K → Option Path
  | .leaf => none
  | t => some (rightmost t [])

/-- Climbing until coming from the left (ngx_map.c:122-133). -/
def climbLeft : Path → Option Path
  | [] => none
  | .left :: p => some p
  | .right :: p => climbLeft p

/-- Climbing until coming from the right (ngx_map.c:163-174). -/
def climbRight : Path → Option Path
  | [] => none
  | .right :: p => some p
  | .left :: p => climbRight p

/-- `ngx_map_next` (ngx_map.c:108-147) -/
def next (t : Tree K) (p : Path) : Option Path :=
  match t.at (.right :: p) with
  | .leaf => climbLeft p
  | s => some (leftmost s (.right :: p))

/-- `ngx_map_prev` (ngx_map.c:149-188) -/
def prev (t : Tree K) (p : Path) : Option Path :=
  match t.at (.left :: p) with
  | .leaf => climbRight p
  | s => some (rightmost s (.left :: p))

/-! ### The key types that come with the module -/

/-- `ngx_memn2cmp` (nginx core) as used by `ngx_cmp_str` (ngx_map.c:271-289): the common prefix decides, then the length. -/
def cmpStr : Bytes → Bytes → Ordering
  | [], [] => .eq
  | [], _ :: _ => .lt
  | _ :: _, [] => .gt
  | a :: x, b :: y => if a.toNat < b.toNat then .lt else if b.toNat < a.toNat then .gt else cmpStr x y

/-- `ngx_map_hash_str`, `ngx_cmp_str` (ngx_map.c:261-289); `ngx_hash_key` is any function. -/
def strConf (hash : Bytes → Nat) : Conf Bytes := { hash := hash, cmp := cmpStr }

/-- Three-way comparison of the C code (`<` gives -1, `>` gives 1). -/
def cmpInt (a b : Int) : Ordering := if a < b then .lt else if b < a then .gt else .eq

/-- `ngx_map_hash_uint`, `ngx_cmp_uint` (ngx_map.c:292-308) for keys below 2^64. -/
def uintConf : Conf Nat := { hash := fun k => k, cmp := fun a b => cmpInt a b }

/-- `ngx_map_hash_int`, `ngx_cmp_int` (ngx_map.c:311-327): the hash is the key cast to an unsigned 64-bit number. -/
def intConf : Conf Int := { hash := fun k => (k % 18446744073709551616).toNat, cmp := cmpInt }

end Verif.Map
