import Verif.Base.Bytes
/-
Model of the per-session output queue and of batched sending:
`ngx_rtmp_send_message` (ngx_rtmp_handler.c:782-827), `ngx_rtmp_prepare_merge_frame` and `ngx_rtmp_free_merge_frame`
(ngx_rtmp_shared_module.c:86-164), `ngx_rtmp_send` (ngx_rtmp_handler.c:690-779) and the queue part of
`ngx_rtmp_close_session` (ngx_rtmp_init.c:305-317).
-/
namespace Verif.Queue

variable {α : Type}

/-- The ring `s->out[]` with `out_pos`, `out_last`, `out_queue` (ngx_rtmp.h:418-427). A slot that was never written is
`none`; using it is undefined behaviour. -/
structure Ring (α : Type) where
  slots : Nat → Option α
  pos : Nat
  last : Nat
  size : Nat

/-- `ngx_rtmp_create_session` (ngx_rtmp_init.c:700-787): zeroed session, `out_queue` from the configuration. -/
def Ring.init (size : Nat) : Ring α := ⟨fun _ => none, 0, 0, size⟩

/-- Result of `ngx_rtmp_send_message`. -/
inductive SendRc where
  | ok      -- NGX_OK
  | again   -- NGX_AGAIN, dropped
deriving DecidableEq, Repr

/-- ngx_rtmp_handler.c:793 -/
def nmsg (r : Ring α) : Nat := (r.last + r.size - r.pos) % r.size + 1

/-- ngx_rtmp_handler.c:795-797 -/
def capPrio (p : Nat) : Nat := if p > 3 then 3 else p

/-- `ngx_rtmp_send_message` (ngx_rtmp_handler.c:782-827) with a non-NULL frame: the queue part. -/
def sendMessage (r : Ring α) (f : α) (priority : Nat) : Ring α × SendRc :=
  if nmsg r + capPrio priority * r.size / 4 ≥ r.size then (r, .again)
  else
    ({ r with
        slots := fun i => if i = r.last then some f else r.slots i
        last := (r.last + 1) % r.size }, .ok)

/-- The write event is posted unless the message is corked (ngx_rtmp_handler.c:817-824). -/
def corked (r : Ring α) (priority : Nat) (outBuffer : Bool) (outCork : Nat) : Bool :=
  capPrio priority ≠ 0 && outBuffer && nmsg r < outCork

/-- Sending side of a session. -/
structure Sender (α : Type) where
  ring : Ring α
  out : Bytes          -- unsent bytes of `s->out_chain`; empty iff the chain is NULL
  held : List α        -- `prepare_frame[0..nframe)`
  wire : Bytes         -- bytes accepted by the socket so far
  released : List α    -- frames for which `ngx_rtmp_shared_free_frame` was called
  outBytes : Nat       -- `s->out_bytes`

/-- Loop of `ngx_rtmp_prepare_merge_frame` (ngx_rtmp_shared_module.c:104-133): at most `n` more frames.
`ser f` are the bytes of the chain made by `prepare_handler` for frame `f`. `none`: an unset slot was used. -/
def mergeLoop (ser : α → Bytes) : Nat → Sender α → Option (Sender α)
  | 0, s => some s
  | n + 1, s =>
    if s.ring.pos = s.ring.last then some s
    else
      match s.ring.slots s.ring.pos with
      | none => none
      | some f =>
        mergeLoop ser n { s with
          out := s.out ++ ser f
          held := s.held ++ [f]
          ring := { s.ring with pos := (s.ring.pos + 1) % s.ring.size } }

/-- `ngx_rtmp_prepare_merge_frame` (ngx_rtmp_shared_module.c:86-138): nothing while the former batch is not
sent completely; otherwise release it and prepare the next one of at most `merge` frames.
Simplified: chain allocation failure not modelled. -/
def prepareMerge (ser : α → Bytes) (merge : Nat) (s : Sender α) : Option (Sender α) :=
  if s.out ≠ [] then some s
  else mergeLoop ser merge { s with released := s.released ++ s.held, held := [] }

/-- One turn of the write loop (ngx_rtmp_handler.c:733-766): the socket takes `k` bytes of the chain (any `k`); `out_bytes`
grows only if that flushed the whole chain. Buffers of the chain are non-empty, so it is NULL iff no
bytes remain. -/
def writeSome (k : Nat) (s : Sender α) : Sender α :=
  if s.out = [] then s
  else
    let n := min k s.out.length
    { s with
      wire := s.wire ++ s.out.take n
      out := s.out.drop n
      outBytes := if s.out.drop n = [] then s.outBytes + n else s.outBytes }

/-- What can happen to a session: queueing a frame, and the pieces of `ngx_rtmp_send` in any interleaving. -/
inductive Op (α : Type) where
  | send (f : α) (priority : Nat)
  | prepare
  | write (k : Nat)

/-- State together with the ghost list of accepted frames. -/
structure Run (α : Type) where
  s : Sender α
  accepted : List α

def stepOp (ser : α → Bytes) (merge : Nat) (x : Run α) : Op α → Option (Run α)
  | .send f p =>
    match sendMessage x.s.ring f p with
    | (r, .ok) => some ⟨{ x.s with ring := r }, x.accepted ++ [f]⟩
    | (r, .again) => some ⟨{ x.s with ring := r }, x.accepted⟩
  | .prepare => (prepareMerge ser merge x.s).map fun s => ⟨s, x.accepted⟩
  | .write k => some ⟨writeSome k x.s, x.accepted⟩

def Sender.init (size : Nat) : Sender α := ⟨Ring.init size, [], [], [], [], 0⟩

def runOps (ser : α → Bytes) (merge : Nat) (x : Run α) : List (Op α) → Option (Run α)
  | [] => some x
  | o :: os => (stepOp ser merge x o).bind fun x => runOps ser merge x os

/-- Release loop of `ngx_rtmp_close_session` (ngx_rtmp_init.c:313-316); `fuel` bounds the loop and is given as the
ring size, the loop ends before. -/
def drainLoop : Nat → Ring α → Option (List α)
  | 0, r => if r.pos = r.last then some [] else none
  | n + 1, r =>
    if r.pos = r.last then some []
    else
      match r.slots r.pos with
      | none => none
      | some f => (drainLoop n { r with pos := (r.pos + 1) % r.size }).map (f :: ·)

/-- Queue part of `ngx_rtmp_close_session` (ngx_rtmp_init.c:305-317): all frames released at closing. -/
def closeRelease (s : Sender α) : Option (List α) :=
  (drainLoop s.ring.size s.ring).map fun q => s.released ++ s.held ++ q

end Verif.Queue
