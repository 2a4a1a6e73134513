import Verif.Base.Bytes
/-
Model of `ngx_rtmp_aggregate_message_handler` and its helpers (ngx_rtmp_receive.c:209-354).
A chain is the list of the unread parts [pos, last) of its buffers. `ngx_rtmp_receive_message` for the sub-message is an arbitrary
function `recv` on the session state that gets header and concatenated payload and says whether it returned NGX_OK; it is
assumed not to change `last` or `next` of the chain it is given (no handler does).
-/
namespace Verif.Aggregate
open Verif

abbrev Chain := List Bytes

/-- Members of `ngx_rtmp_header_t` (ngx_rtmp.h:165-171). -/
structure Hdr where
  csid : Nat := 0
  ts : Nat := 0
  mlen : Nat := 0
  type : Nat := 0
  msid : Nat := 0
deriving DecidableEq, Repr

/-- `ngx_rtmp_fetch` (ngx_rtmp_receive.c:209-223): skips used up buffers; `none` is NGX_DONE. -/
def fetch : Chain → Option (UInt8 × Chain)
  | [] => none
  | [] :: r => fetch r
  | (b :: bs) :: r => some (b, bs :: r)

/-- `ngx_rtmp_fetch_uint32` (ngx_rtmp_receive.c:233-250): `n` bytes, most significant first; the remaining bytes of the
result are 0. `acc` holds the bytes fetched so far. -/
def fetchN : Nat → Nat → Chain → Option (Nat × Chain)
  | 0, acc, c => some (acc, c)
  | n + 1, acc, c =>
    match fetch c with
    | none => none
    | some (b, c) => fetchN n (acc * 256 + b.toNat) c

/-- The loop that limits the chain (ngx_rtmp_receive.c:302-325): cuts after `mlen` bytes, in the buffer which has a byte more;
`none`: `cl == NULL`. Returns the chain given to the sub-message handler and the chain restored after it. -/
def cut (mlen : Nat) : Nat → Chain → Option (Chain × Chain)
  | _, [] => none
  | len, b :: r =>
    let len := len + b.length
    if len > mlen then
      let keep := b.length - (len - mlen)
      some ([b.take keep], b.drop keep :: r)
    else (cut mlen len r).map fun p => (b :: p.1, p.2)

/-- Result of one round of the `while` loop. -/
inductive Round (σ : Type) where
  | ret (x : σ) (ok : Bool)
  | again (x : σ) (base : Option Nat) (c : Chain)

/-- One round of the loop (ngx_rtmp_receive.c:271-349). `base` is `none` while `first` is set. -/
def round {σ : Type} (recv : σ → Hdr → Bytes → σ × Bool) (h : Hdr) (x : σ) (base : Option Nat) (c : Chain) : Round σ :=
  match fetchN 1 0 c with
  | none => .ret x true
  | some (type, c) =>
  match fetchN 3 0 c with
  | none => .ret x false
  | some (mlen, c) =>
  match fetchN 3 0 c with
  | none => .ret x false
  | some (tlow, c) =>
  match fetchN 1 0 c with
  | none => .ret x false
  | some (thigh, c) =>
  match fetchN 3 0 c with
  | none => .ret x false
  | some (msid, c) =>
    let timestamp := thigh * 2 ^ 24 + tlow
    let baseTime := base.getD timestamp       -- `if (first) base_time = timestamp`
    match cut mlen 0 c with
    | none => .ret x false
    | some (m, c) =>
      let ch : Hdr := { h with type := type, mlen := mlen, msid := msid, ts := (h.ts + timestamp + 2 ^ 32 - baseTime) % 2 ^ 32 }
      match recv x ch m.flatten with
      | (x, false) => .ret x false
      | (x, true) =>
        match fetchN 4 0 c with
        | none => .ret x true
        | some (_, c) => .again x (some baseTime) c

/-- The loop; `none`: out of fuel (never happens with `aggregate`'s, see `aggregate_eq`). -/
def loop {σ : Type} (recv : σ → Hdr → Bytes → σ × Bool) (h : Hdr) : Nat → σ → Option Nat → Chain → Option (σ × Bool)
  | 0, _, _, _ => none
  | n + 1, x, base, c =>
    match round recv h x base c with
    | .ret x ok => some (x, ok)
    | .again x base c => loop recv h n x base c

/-- `ngx_rtmp_aggregate_message_handler` (ngx_rtmp_receive.c:253-354). Each round consumes at least 15 bytes. -/
def aggregate {σ : Type} (recv : σ → Hdr → Bytes → σ × Bool) (h : Hdr) (x : σ) (c : Chain) : Option (σ × Bool) :=
  loop recv h (c.flatten.length + 1) x none c

end Verif.Aggregate
