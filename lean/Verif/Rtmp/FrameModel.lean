/-
Model of the shared frame pool: `ngx_rtmp_shared_alloc_frame`, `ngx_rtmp_shared_free_frame`
(ngx_rtmp_shared_module.c:210-265), `ngx_rtmp_shared_alloc_mpegts_frame`, `ngx_rtmp_shared_free_mpegts_frame`
(:309-367) and `ngx_rtmp_shared_acquire_frame` (ngx_rtmp.h:866).

Memory is a heap of frames at addresses 0, 1, ...; the free lists are linked through `next` as in the code. Both kinds of
frames share the counters. The payload chain is a list of buffers (addresses given by the recycler, C38); its contents are the
subject of C10. Simplifications: no allocation failure; `ref` (ngx_uint_t, 64 bit) does not wrap.
-/
namespace Verif.Frame

/-- Contents of `hdr` (ngx_rtmp.h:165-171). -/
structure Hdr where
  csid : Nat := 0
  ts : Nat := 0
  mlen : Nat := 0
  type : Nat := 0
  msid : Nat := 0
deriving DecidableEq, Repr

/-- `ngx_rtmp_frame_s` (ngx_rtmp.h:186-195) / `ngx_mpegts_frame_s` (:199-215); of the latter only the shared members. -/
structure Frame where
  hdr : Hdr := {}
  avHeader : Bool := false
  keyframe : Bool := false
  mandatory : Bool := false
  ref : Nat := 0
  next : Option Nat := none
  chain : List Nat := []
deriving DecidableEq, Repr

inductive Kind where
  | rtmp
  | mpegts
deriving DecidableEq, Repr

/-- `ngx_rtmp_shared_conf_t` (ngx_rtmp_shared_module.c:19-26) and the frames created from its pool. -/
structure St where
  heap : Nat → Frame
  kind : Nat → Kind
  fresh : Nat
  free : Kind → Option Nat
  nalloc : Nat
  nfree : Nat

def init : St := ⟨fun _ => {}, fun _ => .rtmp, 0, fun _ => none, 0, 0⟩

def St.setFrame (s : St) (a : Nat) (f : Frame) : St := { s with heap := fun b => if b = a then f else s.heap b }

/-- `ngx_rtmp_shared_alloc_frame` (:210-238) for `.rtmp`, `ngx_rtmp_shared_alloc_mpegts_frame` (:309-340) for `.mpegts`;
`chain` is what `append_chain` leaves in the frame. A recycled RTMP frame keeps header and flags, a recycled MPEG-TS frame
is cleared (`ngx_memset`). -/
def alloc (s : St) (k : Kind) (chain : List Nat) : St × Nat :=
  match s.free k with
  | some a =>
    let f := s.heap a
    let f' : Frame := match k with
      | .rtmp => { f with ref := 1, next := none, chain := chain }
      | .mpegts => { ref := 1, next := none, chain := chain }
    ({ s.setFrame a f' with free := fun k' => if k' = k then f.next else s.free k', nfree := s.nfree - 1 }, a)
  | none =>
    let a := s.fresh
    ({ s.setFrame a { ref := 1, next := none, chain := chain } with
        fresh := a + 1, kind := fun b => if b = a then k else s.kind b, nalloc := s.nalloc + 1 }, a)

/-- `ngx_rtmp_shared_acquire_frame` (ngx_rtmp.h:866) -/
def acquire (s : St) (a : Nat) : St := s.setFrame a { s.heap a with ref := (s.heap a).ref + 1 }

/-- `ngx_rtmp_shared_free_frame` (:240-265), `ngx_rtmp_shared_free_mpegts_frame` (:342-367); also returns the buffers given
back to the recycler. -/
def release (s : St) (a : Nat) : St × List Nat :=
  let f := s.heap a
  if f.ref - 1 ≠ 0 then (s.setFrame a { f with ref := f.ref - 1 }, [])
  else
    let k := s.kind a
    ({ s.setFrame a { f with ref := 0, chain := [], next := s.free k } with
        free := fun k' => if k' = k then some a else s.free k', nfree := s.nfree + 1 }, f.chain)

end Verif.Frame
