/-
Model of the acknowledgement part of `ngx_rtmp_recv` (ngx_rtmp_handler.c:284-305) and of the window
message (ngx_rtmp_receive.c:54-60). A failure to queue the acknowledgement ends the session and is not modelled.
-/
namespace Verif.Ack

/-- `in_bytes`, `in_last_ack` (ngx_rtmp.h:388-389), `ack_size` (ngx_rtmp.h:315); all uint32_t. -/
structure St where
  inBytes : Nat
  lastAck : Nat
  ackSize : Nat
deriving DecidableEq, Repr

/-- Zeroed session (ngx_rtmp_init.c: `ngx_pcalloc`). -/
def init : St := ⟨0, 0, 0⟩

/-- Counter reset (ngx_rtmp_handler.c:284-291) after `recv` returned `n` bytes. -/
def count (s : St) (n : Nat) : St :=
  let b := (s.inBytes + n) % 2 ^ 32
  if b ≥ 0xf0000000 then { s with inBytes := 0, lastAck := 0 } else { s with inBytes := b }

/-- ngx_rtmp_handler.c:284-305: the new state and the sequence number of the acknowledgement sent, if any. -/
def onRead (s : St) (n : Nat) : St × Option Nat :=
  let t := count s n
  if t.ackSize ≠ 0 ∧ (t.inBytes + 2 ^ 32 - t.lastAck) % 2 ^ 32 ≥ t.ackSize then
    ({ t with lastAck := t.inBytes }, some t.inBytes)
  else (t, none)

/-- Window acknowledgement size message (ngx_rtmp_receive.c:54-60). -/
def onWindow (s : St) (w : Nat) : St := { s with ackSize := w }

inductive Ev where
  | read (n : Nat)
  | window (w : Nat)
deriving DecidableEq, Repr

def step (s : St) : Ev → St × Option Nat
  | .read n => onRead s n
  | .window w => (onWindow s w, none)

/-- Acknowledgements sent (one entry per event). -/
def run (s : St) : List Ev → List (Option Nat)
  | [] => []
  | e :: es => (step s e).2 :: run (step s e).1 es

end Verif.Ack
