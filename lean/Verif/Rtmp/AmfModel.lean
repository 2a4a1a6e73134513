import Verif.Base.Bytes
/-
Model of the AMF0 decoder and encoder (modules/nginx-rtmp-module/ngx_rtmp_amf.c, ngx_rtmp_amf.h) and of the two callers that
build outgoing commands (ngx_rtmp_send.c:366-440).

The decoder is written over an abstract byte source (`Reader`), instantiated with the chain walk of `ngx_rtmp_amf_get` (`chainGet`)
and with a plain byte string (`flatGet`). Destinations are memory cells (`Data.mem loc cap`: `cap` bytes at location `loc`) or tables of
sub-elements (`Data.elts`). Storing more than `cap` bytes, using a pointer as the wrong kind of thing and dereferencing a NULL
`elts` are the outcome `ub`.

Simplified: `NGX_RTMP_AMF_CONTEXT` (never used in /repo) is left out; a table's `len / sizeof(elt)` is the length of the list; what an
interrupted copy leaves in a destination before NGX_ERROR is not described, but its size is checked; `ngx_strncmp` of
names is equality (names in element tables contain no NUL); the debug dump is left out.
-/
namespace Verif.Amf
open Verif

/-! ### Byte sources -/

/-- A byte source: `get r n` delivers exactly `n` bytes or (NGX_DONE) leaves the source as it was. -/
structure Reader (R : Type) where
  get : R → Nat → Option (Bytes × R)

/-- `link` and `offset` of `ngx_rtmp_amf_ctx_t` (ngx_rtmp_amf.h:49-55); `link` is the list of the parts [pos, last) of the buffers. -/
structure Ctx where
  link : List Bytes
  offset : Nat
deriving DecidableEq, Repr

/-- The loop of `ngx_rtmp_amf_get` (ngx_rtmp_amf.c:81-106). -/
def getLoop : List Bytes → Nat → Nat → Option (Bytes × Ctx)
  | [], _, _ => none
  | b :: r, off, n =>
    if off + n ≤ b.length then some ((b.drop off).take n, ⟨b :: r, off + n⟩)
    else
      match getLoop r 0 (n - (b.length - off)) with
      | none => none
      | some (x, c) => some (b.drop off ++ x, c)

/-- `ngx_rtmp_amf_get` (ngx_rtmp_amf.c:66-113). -/
def chainGet (c : Ctx) (n : Nat) : Option (Bytes × Ctx) :=
  if n = 0 then some ([], c) else getLoop c.link c.offset n

def chainReader : Reader Ctx := ⟨chainGet⟩

/-- The same over one contiguous byte string. -/
def flatGet (bs : Bytes) (n : Nat) : Option (Bytes × Bytes) :=
  if n ≤ bs.length then some (bs.take n, bs.drop n) else none

def flatReader : Reader Bytes := ⟨flatGet⟩

/-! ### Element descriptions (ngx_rtmp_amf.h:40-45) -/

def tNumber := 0x00
def tBoolean := 0x01
def tString := 0x02
def tObject := 0x03
def tNull := 0x05
def tArrayNull := 0x06
def tMixedArray := 0x08
def tEnd := 0x09
def tArray := 0x0a
def tInt8 := 0x0100
def tInt16 := 0x0101
def tInt32 := 0x0102
def tVariant := 0x0103

mutual
/-- `ngx_rtmp_amf_elt_t` (ngx_rtmp_amf.h:40-45); the flag bits of `type` (31-33) are separate members. -/
inductive Elt where
  | mk (ty : Nat) (optional typeless : Bool) (name : Bytes) (data : Data) (len : Nat)
/-- What the `data` pointer points at. -/
inductive Data where
  | null
  | mem (loc cap : Nat)
  | elts (es : List Elt)
end

def Elt.ty : Elt → Nat | .mk t _ _ _ _ _ => t
def Elt.optional : Elt → Bool | .mk _ o _ _ _ _ => o
def Elt.typeless : Elt → Bool | .mk _ _ t _ _ _ => t
def Elt.name : Elt → Bytes | .mk _ _ _ n _ _ => n
def Elt.data : Elt → Data | .mk _ _ _ _ d _ => d
def Elt.len : Elt → Nat | .mk _ _ _ _ _ l => l

/-- Undefined behaviour the decoder can run into. -/
inductive UB where
  | nullElt     -- `elts->type` with `elts == NULL`
  | overflow    -- copy beyond the destination
  | confusion   -- a data pointer used as the wrong kind
deriving DecidableEq, Repr

/-- A store: location and the bytes put there. -/
abbrev Write := Nat × Bytes

/-- Outcome of a decoder call: NGX_OK with the new position and the stores done, an error code, or undefined behaviour.
`stuck`: the model's step budget ran out. -/
inductive Res (R : Type) where
  | ok (r : R) (log : List Write)
  | err
  | ub (u : UB)
  | stuck
deriving DecidableEq, Repr

/-- Sequencing: any result other than NGX_OK ends the call. -/
def Res.bind {R : Type} : Res R → (R → Res R) → Res R
  | .ok r l, f =>
    match f r with
    | .ok r' l' => .ok r' (l ++ l')
    | x => x
  | x, _ => x

/-- Copying `bs` to a destination (`ngx_rtmp_amf_reverse_copy`, ngx_rtmp_amf.c:14-28, which ignores NULL). -/
def store {R : Type} (d : Data) (bs : Bytes) (r : R) : Res R :=
  match d with
  | .null => .ok r []
  | .mem loc cap => if bs.length ≤ cap then .ok r [(loc, bs)] else .ub .overflow
  | .elts _ => .ub .confusion

/-- `n` bytes read into a local buffer and stored reversed (NUMBER, INT16, INT32: ngx_rtmp_amf.c:356-361, 445-457). -/
def readRev {R : Type} (G : Reader R) (r : R) (d : Data) (n : Nat) : Res R :=
  match G.get r n with
  | none => .err
  | some (b, r) => store d b.reverse r

/-- One byte read directly into the destination (BOOLEAN, INT8: ngx_rtmp_amf.c:363-367, 439-443). -/
def readByte {R : Type} (G : Reader R) (r : R) (d : Data) : Res R :=
  match G.get r 1 with
  | none => .err
  | some (b, r) => store d b r

/-- The STRING case (ngx_rtmp_amf.c:369-395); `L` is `elts->len`. -/
def readStr {R : Type} (G : Reader R) (r : R) (d : Data) (L : Nat) : Res R :=
  match G.get r 2 with
  | none => .err
  | some (b, r) =>
    let len := beDec b
    match d with
    | .null =>
      match G.get r len with
      | none => .err
      | some (_, r) => .ok r []
    | .elts _ => .ub .confusion
    | .mem loc cap =>
      if L ≤ len then
        if L = 0 then .ub .overflow                  -- `elts->len - 1` is SIZE_MAX
        else if cap < L then .ub .overflow
        else
          match G.get r (L - 1) with
          | none => .err
          | some (s, r) =>
            match G.get r (len - L + 1) with
            | none => .err
            | some (_, r) => .ok r [(loc, s ++ [0])]
      else if cap < len + 1 then .ub .overflow
      else
        match G.get r len with
        | none => .err
        | some (s, r) => .ok r [(loc, s ++ [0])]

/-- `ngx_rtmp_amf_is_compatible_type` (ngx_rtmp_amf.c:300-306). -/
def compatible (t1 t2 : Nat) : Bool :=
  t1 == t2 || (t1 == tObject && t2 == tMixedArray) || (t2 == tObject && t1 == tMixedArray)

/-- Decoder calls in progress. -/
inductive Call (R : Type) where
  /-- `ngx_rtmp_amf_read`: the elements still to be read; `none` is the NULL pointer. -/
  | read (r : R) (es : List (Option Elt))
  /-- the loop of `ngx_rtmp_amf_read_object` -/
  | obj (r : R) (es : List Elt)
  /-- the loop of `ngx_rtmp_amf_read_array`: descriptions left, elements left -/
  | arr (r : R) (es : List Elt) (left : Nat)
  /-- `ngx_rtmp_amf_read_variant` -/
  | var (r : R) (es : List Elt)

/-- First half of the loop body of `ngx_rtmp_amf_read` (ngx_rtmp_amf.c:322-353): result to return at once, or position, type,
data pointer and `elts->len`. -/
inductive Head (R : Type) where
  | ret (x : Res R)
  | go (r : R) (ty : Nat) (d : Data) (len : Nat)

def head {R : Type} (G : Reader R) (r : R) : Option Elt → Head R
  | none =>
    match G.get r 1 with
    | none => .ret (.ub .nullElt)                            -- line 331 with elts == NULL
    | some (t, r) => .go r (beDec t) .null 0
  | some e =>
    if e.typeless then
      if e.optional then .ret .err                           -- no case of the switch matches
      else .go r e.ty e.data e.len
    else
      match G.get r 1 with
      | none => if e.optional then .ret (.ok r []) else .ret .err
      | some (t, r) =>
        .go r (beDec t) (if compatible (e.ty % 256) (beDec t) then e.data else .null) e.len

/-- The table a `data` pointer stands for when it is passed to the object, array or variant reader. -/
def Data.table : Data → Option (List Elt)
  | .null => some []
  | .elts es => some es
  | .mem _ _ => none

/-- Description chosen by `ngx_rtmp_amf_read_object` for a key (ngx_rtmp_amf.c:229-235). -/
def lookup (es : List Elt) (name : Bytes) : Option Elt := es.find? (fun e => e.name == name)

/-- Description built by `ngx_rtmp_amf_read_variant` (ngx_rtmp_amf.c:287-296): the last entry of that type. -/
def variantElt (es : List Elt) (ty : Nat) : Elt :=
  match es.reverse.find? (fun e => e.ty == ty && !e.typeless && !e.optional) with
  | none => .mk ty false true [] .null 0
  | some e => .mk ty false true [] e.data e.len

/-- Longest name of a table (ngx_rtmp_amf.c:182-187). -/
def maxName (es : List Elt) : Nat := es.foldl (fun m e => max m e.name.length) 0

/-- Reading a key of `len` bytes (ngx_rtmp_amf.c:215-227): the part beyond `maxlen` is skipped and the comparison fails. -/
def readKey {R : Type} (G : Reader R) (r : R) (es : List Elt) (len : Nat) : Option (Option Elt × R) :=
  if len ≤ maxName es then
    match G.get r len with
    | none => none
    | some (name, r) => some (lookup es name, r)
  else
    match G.get r (maxName es) with
    | none => none
    | some (_, r) =>
      match G.get r (len - maxName es) with
      | none => none
      | some (_, r) => some (none, r)

/-- The `switch` of `ngx_rtmp_amf_read` (ngx_rtmp_amf.c:355-464) on a value of type `ty`; `obj`, `arr`, `var` are the calls of the container
readers. `none`: the END case, which returns NGX_OK from the whole call. -/
def body {R : Type} (G : Reader R) (obj : R → List Elt → Res R) (arr : R → List Elt → Nat → Res R) (var : R → List Elt → Res R)
    (r : R) (ty : Nat) (d : Data) (len : Nat) : Option (Res R) :=
  if ty = tNumber then some (readRev G r d 8)
  else if ty = tBoolean then some (readByte G r d)
  else if ty = tString then some (readStr G r d len)
  else if ty = tNull then some (.ok r [])
  else if ty = tArrayNull then some (.ok r [])
  else if ty = tMixedArray then some <|
    match G.get r 4 with
    | none => .err
    | some (_, r) =>
      match d.table with
      | none => .ub .confusion
      | some t => obj r t
  else if ty = tObject then some <|
    match d.table with
    | none => .ub .confusion
    | some t => obj r t
  else if ty = tArray then some <|
    match d.table with
    | none => .ub .confusion
    | some t =>
      match G.get r 4 with
      | none => .err
      | some (b, r) => arr r t (beDec b)
  else if ty = tVariant then some <|
    match d.table with
    | none => .ub .confusion
    | some t => var r t
  else if ty = tInt8 then some (readByte G r d)
  else if ty = tInt16 then some (readRev G r d 2)
  else if ty = tInt32 then some (readRev G r d 4)
  else if ty = tEnd then none
  else some .err

/-- The decoder with a step budget: `ngx_rtmp_amf_read` (ngx_rtmp_amf.c:309-472), `ngx_rtmp_amf_read_object` (172-246),
`ngx_rtmp_amf_read_array` (249-269), `ngx_rtmp_amf_read_variant` (272-297). -/
def run {R : Type} (G : Reader R) : Nat → Call R → Res R
  | 0, _ => .stuck
  | _ + 1, .read r [] => .ok r []
  | n + 1, .read r (e :: es) =>
    match head G r e with
    | .ret x => x
    | .go r ty d len =>
      match body G (fun r t => run G n (.obj r t)) (fun r t k => run G n (.arr r t k)) (fun r t => run G n (.var r t)) r ty d len with
      | none => .ok r []
      | some x => x.bind fun r => run G n (.read r es)
  | n + 1, .obj r es =>
    match G.get r 2 with
    | none => .ok r []                                        -- "Envivio sends unfinalized arrays"
    | some (b, r) =>
      if beDec b = 0 then
        match G.get r 1 with
        | none => .err
        | some (t, r) => if beDec t = tEnd then .ok r [] else .err
      else
        match readKey G r es (beDec b) with
        | none => .err
        | some (e, r) => (run G n (.read r [e])).bind fun r => run G n (.obj r es)
  | _ + 1, .arr r _ 0 => .ok r []
  | n + 1, .arr r es (k + 1) =>
    (run G n (.read r [es.head?])).bind fun r => run G n (.arr r es.tail k)
  | n + 1, .var r es =>
    match G.get r 1 with
    | none => .err
    | some (t, r) => run G n (.read r [some (variantElt es (beDec t))])

/-- `ngx_rtmp_amf_read(ctx, elts, nelts)`. -/
def read {R : Type} (G : Reader R) (fuel : Nat) (r : R) (es : List Elt) : Res R :=
  run G fuel (.read r (es.map some))

/-! ### Encoder -/

mutual
/-- An element to be written; `data` is memory holding a value or a table. -/
inductive WElt where
  | mk (ty : Nat) (typeless : Bool) (name : Bytes) (data : WData) (len : Nat)
inductive WData where
  | null
  | mem (bs : Bytes)      -- the memory from the pointer on
  | elts (es : WElts)
inductive WElts where
  | nil
  | cons (e : WElt) (es : WElts)
end

def WElts.length : WElts → Nat
  | .nil => 0
  | .cons _ es => es.length + 1

/-- Outcome of the encoder: the sequence of arguments of `ngx_rtmp_amf_put`, NGX_ERROR, or a read outside the given memory. -/
inductive WRes where
  | puts (l : List Bytes)
  | err
  | ub
deriving DecidableEq, Repr

def WRes.append : WRes → WRes → WRes
  | .puts a, .puts b => .puts (a ++ b)
  | .puts _, x => x
  | x, _ => x

/-- Reading `n` bytes through the data pointer; a zero-length read touches nothing. -/
def peek (n : Nat) : WData → Option Bytes
  | .mem bs => if n ≤ bs.length then some (bs.take n) else none
  | _ => if n = 0 then some [] else none

/-- `ngx_strlen`: `none` when no terminator is found inside the memory. -/
def strlen (bs : Bytes) : Option Nat :=
  if (0 : UInt8) ∈ bs then some (bs.takeWhile (· ≠ 0)).length else none

/-- `len` of the STRING case (ngx_rtmp_amf.c:553, 580-582). -/
def strLen (d : WData) (len : Nat) : Option Nat :=
  if len % 65536 = 0 then
    match d with
    | .null => some 0
    | .mem bs => (strlen bs).map (· % 65536)
    | .elts _ => none
  else some (len % 65536)

def putOf : Option Bytes → WRes
  | none => .ub
  | some b => .puts [b]

mutual
/-- One element of `ngx_rtmp_amf_write` (ngx_rtmp_amf.c:549-660). `put` with a NULL result of `reverse_copy` would read
through NULL: `ub`. -/
def writeElt : WElt → WRes
  | .mk ty typeless _ data len =>
    let hd : WRes := if typeless then .puts [] else .puts [[UInt8.ofNat ty]]
    hd.append <|
      if ty = tNumber then putOf ((peek 8 data).map List.reverse)
      else if ty = tBoolean then putOf (peek 1 data)
      else if ty = tString then
        match strLen data len with
        | none => .ub
        | some l => (WRes.puts [beEnc 2 l]).append (putOf (peek l data))
      else if ty = tNull then .puts []
      else if ty = tArrayNull then .puts []
      else if ty = tMixedArray then
        match data with
        | .elts es => (WRes.puts [[0, 0, 0, 0]]).append ((writeObj es).append (.puts [[9]]))
        | .null => .puts [[0, 0, 0, 0], [0, 0], [9]]          -- elements with NULL data have len 0
        | .mem _ => .ub
      else if ty = tObject then
        match data with
        | .elts es => (writeObj es).append (.puts [[9]])
        | .null => .puts [[0, 0], [9]]
        | .mem _ => .ub
      else if ty = tArray then
        match data with
        | .elts es => (WRes.puts [beEnc 4 es.length]).append (writeArr es)
        | .null => .puts [[0, 0, 0, 0]]
        | .mem _ => .ub
      else if ty = tInt8 then putOf (peek 1 data)
      else if ty = tInt16 then putOf ((peek 2 data).map List.reverse)
      else if ty = tInt32 then putOf ((peek 4 data).map List.reverse)
      else .err
/-- `ngx_rtmp_amf_write_object` (ngx_rtmp_amf.c:475-508). -/
def writeObj : WElts → WRes
  | .nil => .puts [[0, 0]]
  | .cons e es =>
    match e with
    | .mk ty typeless name data len =>
      (WRes.puts [beEnc 2 name.length, name.take (name.length % 65536)]).append
        ((writeElt (.mk ty typeless name data len)).append (writeObj es))
/-- The elements of `ngx_rtmp_amf_write_array` (ngx_rtmp_amf.c:511-534), and the loop of `ngx_rtmp_amf_write`. -/
def writeArr : WElts → WRes
  | .nil => .puts []
  | .cons e es => (writeElt e).append (writeArr es)
end

/-- An output buffer: contents and capacity (`end - start`). -/
structure OBuf where
  data : Bytes
  cap : Nat
deriving DecidableEq, Repr

/-- The buffer the next bytes go to (ngx_rtmp_amf.c:135-153): the current one, or a new one if there is none or it is full. -/
def target (cap : Nat) (pre : List OBuf) : Option OBuf → List OBuf × OBuf
  | none => (pre, ⟨[], cap⟩)
  | some b => if b.data.length = b.cap then (pre ++ [b], ⟨[], cap⟩) else (pre, b)

/-- `ngx_rtmp_amf_put` (ngx_rtmp_amf.c:116-169): `pre` are the buffers before `link`, `link` the current one if any, `cap` the
capacity of buffers from `alloc`. Allocation does not fail. `fuel`: rounds of the loop. -/
def put (cap : Nat) : Nat → List OBuf × Option OBuf → Bytes → Option (List OBuf × Option OBuf)
  | _, st, [] => some st
  | 0, _, _ :: _ => none
  | fuel + 1, (pre, link), x :: xs =>
    let p := x :: xs
    match target cap pre link with
    | (pre, b) =>
      let size := b.cap - b.data.length
      if p.length ≤ size then some (pre, some { b with data := b.data ++ p })
      else put cap fuel (pre, some { b with data := b.data ++ p.take size }) (p.drop size)

/-- The `put` calls of a whole encoder run. -/
def putAll (cap : Nat) (st : List OBuf × Option OBuf) : List Bytes → Option (List OBuf × Option OBuf)
  | [] => some st
  | p :: ps =>
    match put cap p.length st p with
    | none => none
    | some st => putAll cap st ps

/-- The buffers of a chain in order. -/
def chainOf (st : List OBuf × Option OBuf) : List OBuf := st.1 ++ st.2.toList

/-- Contents of a chain. -/
def contents (c : List OBuf) : Bytes := (c.map OBuf.data).flatten

/-- `ngx_rtmp_append_amf(s, first, last, ...)` (ngx_rtmp_send.c:378-412) on success: `*first = act.first; *last = act.link`. `act.first` is the
head of the whole chain, `act.link` its last buffer. Returns the chains `first` and `last` point to afterwards. -/
def appendAmf (cap : Nat) (st : List OBuf × Option OBuf) (ps : List Bytes) : Option (List OBuf × List OBuf) :=
  (putAll cap st ps).map fun st => (chainOf st, st.2.toList)

/-- `ngx_rtmp_create_amf` (ngx_rtmp_send.c:416-440) on success: the frame starts with one empty buffer of `chunk_size`; both `first` and
`last` are `&frame->chain`, so the second assignment wins. The result is `frame->chain`. -/
def createAmf (cap : Nat) (ps : List Bytes) : Option (List OBuf) :=
  (appendAmf cap ([], some ⟨[], cap⟩) ps).map fun p => p.2

end Verif.Amf
