/-
Model of the buffer recycler nginx-toolkit-module/ngx_rbuf.c.

Memory: buffers (`ngx_rbuf_t`) and chain links (`ngx_chainbuf_t`) live at addresses 0, 1, ... of two heaps; the free lists run through their `next`
members as in the code. `ngx_rbuf_map` (size class → free list) and `ngx_rbuf_using` are `ngx_map`s with unsigned keys; by C23 they are
finite maps, so functions are used here. Simplifications: the pool never fails to allocate (on failure `ngx_rbuf_alloc` would return the
address of `buf` inside a NULL structure, ngx_rbuf.c:141-143); file and line recorded for debugging are left out.
-/
namespace Verif.Rbuf

/-- `ngx_rbuf_t` (ngx_rbuf.c:32-36) -/
structure Rb where
  size : Nat := 0
  next : Option Nat := none
deriving DecidableEq, Repr

/-- `ngx_chainbuf_t` (ngx_rbuf.c:43-51) with its `ngx_buf_t`: `start` is the buffer, `cap` is `end - start`, `pos` and `last` are offsets. -/
structure Cb where
  next : Option Nat := none
  start : Option Nat := none
  cap : Nat := 0
  pos : Nat := 0
  last : Nat := 0
  alloc : Bool := false
deriving DecidableEq, Repr

/-- The static variables (ngx_rbuf.c:12-25) and the two heaps. `rbFresh`, `cbFresh` are the next unused addresses. -/
structure St where
  rb : Nat → Rb := fun _ => {}
  rbFresh : Nat := 0
  cb : Nat → Cb := fun _ => {}
  cbFresh : Nat := 0
  classes : Nat → Option (Option Nat) := fun _ => none
  freeChain : Option Nat := none
  inUse : Nat → Bool := fun _ => false
  nallocNode : Nat := 0
  nallocBuf : Nat := 0
  nfreeBuf : Nat := 0
  nallocChain : Nat := 0
  nfreeChain : Nat := 0

/-- Assignment to one address. -/
def upd {α : Type} (f : Nat → α) (i : Nat) (v : α) : Nat → α := fun j => if j = i then v else f j

/-- `ngx_rbuf_init` (ngx_rbuf.c:54-72) -/
def init : St := {}

/-- First half of `ngx_rbuf_get_buf` (ngx_rbuf.c:82-96): the size class exists afterwards. -/
def withClass (s : St) (key : Nat) : St :=
  match s.classes key with
  | none => { s with classes := upd s.classes key (some none), nallocNode := s.nallocNode + 1 }
  | some _ => s

/-- Second half of `ngx_rbuf_get_buf` (ngx_rbuf.c:98-114): a recycled buffer of the class, or a new one. -/
def takeBuf (s : St) (key : Nat) : St × Nat :=
  match s.classes key with
  | some (some b) =>
    ({ s with
        classes := upd s.classes key (some (s.rb b).next)
        rb := upd s.rb b { s.rb b with next := none }
        nfreeBuf := s.nfreeBuf - 1 }, b)
  | _ =>
    ({ s with
        rb := upd s.rb s.rbFresh { size := key, next := none }
        rbFresh := s.rbFresh + 1
        nallocBuf := s.nallocBuf + 1 }, s.rbFresh)

/-- `ngx_rbuf_get_buf` (ngx_rbuf.c:75-115) -/
def getBuf (s : St) (key : Nat) : St × Nat := takeBuf (withClass s key) key

/-- `ngx_rbuf_put_buf` (ngx_rbuf.c:117-133) -/
def putBuf (s : St) (b : Nat) : St :=
  match s.classes (s.rb b).size with
  | none => s
  | some h =>
    { s with
      rb := upd s.rb b { s.rb b with next := h }
      classes := upd s.classes (s.rb b).size (some (some b))
      nfreeBuf := s.nfreeBuf + 1 }

/-- Obtaining the chain link (ngx_rbuf.c:166-183). -/
def takeLink (s : St) : St × Nat :=
  match s.freeChain with
  | some c =>
    ({ s with
        freeChain := (s.cb c).next
        cb := upd s.cb c { s.cb c with next := none }
        nfreeChain := s.nfreeChain - 1 }, c)
  | none =>
    ({ s with cb := upd s.cb s.cbFresh {}, cbFresh := s.cbFresh + 1, nallocChain := s.nallocChain + 1 }, s.cbFresh)

/-- Attaching a buffer, or none (ngx_rbuf.c:185-193). -/
def attach (s : St) (c : Nat) (size : Nat) (alloc : Bool) : St :=
  if alloc then
    let g := getBuf s size
    { g.1 with cb := upd g.1.cb c { g.1.cb c with start := some g.2, cap := size, pos := 0, last := 0, alloc := true } }
  else { s with cb := upd s.cb c { s.cb c with start := none, cap := 0, pos := 0, last := 0, alloc := false } }

/-- `ngx_get_chainbuf_debug` (ngx_rbuf.c:156-202) -/
def get (s : St) (size : Nat) (alloc : Bool) : St × Nat :=
  let t := takeLink s
  let u := attach t.1 t.2 size alloc
  ({ u with inUse := upd u.inUse t.2 true }, t.2)

/-- `ngx_put_chainbuf_debug` (ngx_rbuf.c:204-233) with `cl != NULL`; the second result is false when "destroy chainbuf twice" is logged. -/
def put (s : St) (c : Nat) : St × Bool :=
  let t := match (s.cb c).alloc, (s.cb c).start with
    | true, some b => putBuf s b
    | _, _ => s
  let u := { t with
    cb := upd t.cb c { t.cb c with next := t.freeChain }
    freeChain := some c
    nfreeChain := t.nfreeChain + 1 }
  if u.inUse c then ({ u with inUse := upd u.inUse c false }, true) else (u, false)

/-- What a holder of a link may do with it: chain it and move `pos` and `last`. -/
def touch (s : St) (c : Nat) (next : Option Nat) (pos last : Nat) : St :=
  { s with cb := upd s.cb c { s.cb c with next := next, pos := pos, last := last } }

end Verif.Rbuf
