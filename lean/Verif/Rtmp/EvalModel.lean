import Verif.Base.Bytes
/-
Model of `ngx_rtmp_eval` (nginx-rtmp-module/ngx_rtmp_eval.c).

The handlers of the variable tables only read the session, so a table is a list of names and values. A write past the end of the buffer is the
outcome `none`. Simplification: allocation does not fail (the code then goes on with what it has).
-/
namespace Verif.Eval
open Verif

/-- The tables `e`: `ngx_rtmp_eval_t` (ngx_rtmp_eval.h:22-26), the handler already applied. -/
abbrev Tables := List (List (Bytes × Bytes))

/-- `ngx_buf_t b`: the bytes `pos`..`last` and `end - pos`. -/
structure Buf where
  data : Bytes
  cap : Nat
deriving DecidableEq, Repr

/-- NGX_RTMP_EVAL_BUFLEN (ngx_rtmp_eval.c:12) -/
def BUFLEN : Nat := 16

/-- Make room (ngx_rtmp_eval.c:66-77) -/
def grow (b : Buf) (len : Nat) : Buf :=
  if b.data.length + len > b.cap then { b with cap := 2 * b.data.length + len } else b

/-- `ngx_cpymem(b->last, data, len)`; `none` if it does not fit. -/
def copy (b : Buf) (d : Bytes) : Option Buf :=
  if b.data.length + d.length ≤ b.cap then some { b with data := b.data ++ d } else none

/-- `ngx_rtmp_eval_append` (ngx_rtmp_eval.c:61-80) -/
def append (b : Buf) (d : Bytes) : Option Buf := copy (grow b d.length) d

/-- One table of `ngx_rtmp_eval_append_var` (ngx_rtmp_eval.c:92-99) -/
def appendTable (name : Bytes) : Buf → List (Bytes × Bytes) → Option Buf
  | b, [] => some b
  | b, e :: es =>
    if e.1.length = name.length ∧ e.1 = name then (append b e.2).bind fun b => appendTable name b es
    else appendTable name b es

/-- `ngx_rtmp_eval_append_var` (ngx_rtmp_eval.c:83-101) -/
def appendVar (name : Bytes) : Buf → Tables → Option Buf
  | b, [] => some b
  | b, t :: ts => (appendTable name b t).bind fun b => appendVar name b ts

/-- The states (ngx_rtmp_eval.c:113-118); `acc` are the bytes from `name.data` on. -/
inductive State where
  | normal
  | escape
  | name (acc : Bytes)
  | sname (acc : Bytes)
deriving DecidableEq, Repr

/-- Letters (ngx_rtmp_eval.c:151) -/
def letter (c : UInt8) : Bool := (c ≥ 97 && c ≤ 122) || (c ≥ 65 && c ≤ 90)

/-- A byte in state NORMAL (ngx_rtmp_eval.c:171-183), and the same lines at the end of state NAME (157-169). -/
def plain (b : Buf) (c : UInt8) : Option (Buf × State) :=
  if c = 36 then some (b, .name [])
  else if c = 92 then some (b, .escape)
  else (append b [c]).map (·, .normal)

/-- The loop body (ngx_rtmp_eval.c:129-190) -/
def step (e : Tables) (b : Buf) (c : UInt8) : State → Option (Buf × State)
  | .sname acc => if c ≠ 125 then some (b, .sname (acc ++ [c])) else (appendVar acc b e).map (·, .normal)
  | .name acc =>
    if c = 123 ∧ acc = [] then some (b, .sname [])
    else if letter c then some (b, .name (acc ++ [c]))
    else (appendVar acc b e).bind fun b => plain b c
  | .normal => plain b c
  | .escape => (append b [c]).map (·, .normal)

/-- The loop (ngx_rtmp_eval.c:128-191) and the name at the end (193-197) -/
def loop (e : Tables) : Buf → State → Bytes → Option Buf
  | b, .name acc, [] => appendVar acc b e
  | b, _, [] => some b
  | b, s, c :: l => (step e b c s).bind fun p => loop e p.1 p.2 l

/-- `ngx_rtmp_eval` (ngx_rtmp_eval.c:104-206): the memory at `out->data` and `out->len`. -/
def eval (e : Tables) (input : Bytes) : Option (Bytes × Nat) :=
  (loop e ⟨[], BUFLEN⟩ .normal input).bind fun b => (append b [0]).map fun b => (b.data, b.data.length - 1)

end Verif.Eval
