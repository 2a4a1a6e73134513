/-
Reading the body of an HTTP response: modules/nginx-client-module/ngx_http_client.c, `ngx_http_client_body_length` (:1174-1211),
`ngx_http_client_body_chunked` (:1214-1322) and `ngx_http_client_read_body` (:1716-1827).
The parser of the chunk framing, `ngx_http_parse_chunked`, is nginx core (1.17.5, release.sh:197) and not in the repository; it is modelled as it
is known: one state per field, `size` an `off_t`, the check for the greatest sizes when it returns.
A buffer is the list of its unread bytes. Buffers read from the socket hold at least one byte and at most `body_buffer_size`; the reads of a call and
whether it ends by "would block", the end of the stream or an error are inputs. Failing allocations are left out, and so is the
counting of `rbytes`.
-/
namespace Verif.Client

abbrev Bytes := List UInt8

/-- `ngx_http_parse_chunked`: its states. -/
inductive CkSt where
  | start
  | size
  | ext
  | extDone
  | data
  | after
  | afterDone
  | lastExt
  | lastExtDone
  | trailer
  | trailerDone
  | trHead
  | trHeadDone
  deriving DecidableEq

/-- `ngx_http_chunked_t`: state and what is left of the chunk (`length` is only a hint for reading ahead). -/
structure Ck where
  st : CkSt := .start
  size : Nat := 0
  deriving DecidableEq

/-- The greatest `off_t`. -/
def maxOff : Nat := 9223372036854775807

/-- Value of a hexadecimal digit, in the tests of the parser (`ch | 0x20`). -/
def hexVal (ch : UInt8) : Option Nat :=
  if 48 ≤ ch.toNat ∧ ch.toNat ≤ 57 then some (ch.toNat - 48)
  else
    let c := ch ||| 32
    if 97 ≤ c.toNat ∧ c.toNat ≤ 102 then some (c.toNat - 97 + 10) else none

inductive CkStep where
  | go (c : Ck)
  | data
  | done
  | err
  deriving DecidableEq

/-- One round of the loop of `ngx_http_parse_chunked`: CR is 13, LF 10, `;` 59, space 32, tab 9. -/
def ckStep (c : Ck) (ch : UInt8) : CkStep :=
  match c.st with
  | .start =>
    match hexVal ch with
    | some v => .go ⟨.size, v⟩
    | none => .err
  | .size =>
    if c.size > maxOff / 16 then .err
    else
      match hexVal ch with
      | some v => .go ⟨.size, c.size * 16 + v⟩
      | none =>
        if c.size = 0 then
          if ch = 13 then .go ⟨.lastExtDone, c.size⟩
          else if ch = 10 then .go ⟨.trailer, c.size⟩
          else if ch = 59 ∨ ch = 32 ∨ ch = 9 then .go ⟨.lastExt, c.size⟩
          else .err
        else
          if ch = 13 then .go ⟨.extDone, c.size⟩
          else if ch = 10 then .go ⟨.data, c.size⟩
          else if ch = 59 ∨ ch = 32 ∨ ch = 9 then .go ⟨.ext, c.size⟩
          else .err
  | .ext =>
    if ch = 13 then .go ⟨.extDone, c.size⟩
    else if ch = 10 then .go ⟨.data, c.size⟩
    else .go c
  | .extDone => if ch = 10 then .go ⟨.data, c.size⟩ else .err
  | .data => .data
  | .after =>
    if ch = 13 then .go ⟨.afterDone, c.size⟩
    else if ch = 10 then .go ⟨.start, c.size⟩
    else .go c
  | .afterDone => if ch = 10 then .go ⟨.start, c.size⟩ else .err
  | .lastExt =>
    if ch = 13 then .go ⟨.lastExtDone, c.size⟩
    else if ch = 10 then .go ⟨.trailer, c.size⟩
    else .go c
  | .lastExtDone => if ch = 10 then .go ⟨.trailer, c.size⟩ else .err
  | .trailer =>
    if ch = 13 then .go ⟨.trailerDone, c.size⟩
    else if ch = 10 then .done
    else .go ⟨.trHead, c.size⟩
  | .trailerDone => if ch = 10 then .done else .err
  | .trHead =>
    if ch = 13 then .go ⟨.trHeadDone, c.size⟩
    else if ch = 10 then .go ⟨.trailer, c.size⟩
    else .go c
  | .trHeadDone => if ch = 10 then .go ⟨.trailer, c.size⟩ else .err

inductive CkRes where
  | ok (rest : Bytes) (c : Ck)
  | again (c : Ck)
  | done (rest : Bytes)
  | err
  deriving DecidableEq

/-- The loop over the bytes of a buffer. -/
def ckLoop : Ck → Bytes → CkRes
  | c, [] => if c.size > maxOff - 5 then .err else .again c
  | c, ch :: t =>
    match ckStep c ch with
    | .go c' => ckLoop c' t
    | .data => if c.size > maxOff - 5 then .err else .ok (ch :: t) c
    | .done => .done t
    | .err => .err

/-- `ngx_http_parse_chunked`. -/
def ckParse (c : Ck) (b : Bytes) : CkRes := ckLoop (if c.st = .data ∧ c.size = 0 then ⟨.after, 0⟩ else c) b

/-- `ngx_http_client_ctx_t`, what reading a body uses: `headers_in.chunked`, `length` (`none` is -1), `chunked`, the chain `in`. -/
structure Ctx where
  chunked : Bool := false
  length : Option Nat := none
  ck : Ck := {}
  inn : List Bytes := []
  deriving DecidableEq

/-- What a call returns; `crash` is the use of a NULL pointer, `stuck` an endless loop. -/
inductive Rc where
  | again
  | done
  | error
  | closed
  | crash
  | stuck
  deriving DecidableEq

inductive Copied where
  | again (size : Nat) (full : List Bytes) (cur : Option Bytes)
  | cont (b : Bytes) (cl : List Bytes) (full : List Bytes) (cur : Option Bytes)
  | stuck

/-- The inner loop of `body_chunked` (:1241-1281): `full` are the buffers of `in` before `*ll`, `cur` is `*ll`; `b` is the buffer read from, `cl` the ones behind it. -/
def copyLoop (cap : Nat) : Nat → Bytes → List Bytes → Nat → List Bytes → Option Bytes → Copied
  | 0, _, _, _, _, _ => .stuck
  | n + 1, b, cl, size, full, cur =>
    let buf := cur.getD []
    let len := if b.length ≥ size then min (cap - buf.length) size else min (cap - buf.length) b.length
    let buf' := buf ++ b.take len
    let b' := b.drop len
    let size' := size - len
    let full' := if buf'.length = cap then full ++ [buf'] else full
    let cur' := if buf'.length = cap then none else some buf'
    if b' = [] then
      match cl with
      | [] => .again size' full' cur'
      | b2 :: cl2 => if size' = 0 then .cont b2 cl2 full' cur' else copyLoop cap n b2 cl2 size' full' cur'
    else if size' = 0 then .cont b' cl full' cur'
    else copyLoop cap n b' cl size' full' cur'

/-- Bytes and buffers to go through. -/
def work (b : Bytes) (cl : List Bytes) : Nat := b.length + (cl.map (fun x => x.length + 1)).sum

/-- The outer loop of `body_chunked` (:1230-1320). -/
def chunkLoop (cap : Nat) : Nat → Ctx → Bytes → List Bytes → List Bytes → Option Bytes → Rc × Ctx
  | 0, x, _, _, _, _ => (.stuck, x)
  | n + 1, x, b, cl, full, cur =>
    match ckParse x.ck b with
    | .ok rest c =>
      match copyLoop cap (work rest cl + 1) rest cl c.size full cur with
      | .again size full cur => (.again, { x with ck := ⟨c.st, size⟩, inn := full ++ cur.toList })
      | .cont b cl full cur => chunkLoop cap n { x with ck := ⟨c.st, 0⟩ } b cl full cur
      | .stuck => (.stuck, x)
    | .again c =>
      match cl with
      | [] => (.again, { x with ck := c, inn := full ++ cur.toList })
      | b2 :: cl2 => chunkLoop cap n { x with ck := c } b2 cl2 full cur
    | .done _ => (.done, { x with ck := {}, inn := full ++ cur.toList })
    | .err => (.error, x)

/-- `ngx_http_client_body_chunked` (:1214-1322): it begins with `cl->buf`. -/
def bodyChunked (cap : Nat) (x : Ctx) : List Bytes → Rc × Ctx
  | [] => (.crash, x)
  | b :: cl => chunkLoop cap (work b cl + 1) x b cl x.inn none

/-- `ngx_http_client_body_length` (:1174-1211). -/
def bodyLength (x : Ctx) : List Bytes → Rc × Ctx
  | [] => (.again, x)
  | b :: cl =>
    let x1 := { x with inn := x.inn ++ [b] }
    match x.length with
    | none => bodyLength x1 cl
    | some l =>
      let l' := l - min b.length l
      let x2 := { x1 with length := some l' }
      if l' = 0 then (.done, x2) else bodyLength x2 cl

/-- "recycle bufs" (:1733-1742). -/
def recycle : List Bytes → List Bytes
  | [] => []
  | b :: bs => if b ≠ [] then bs else recycle bs

/-- How the reading of a call ends (:1765-1808). -/
inductive End where
  | block
  | close
  | fail
  deriving DecidableEq

/-- `ngx_http_client_read_body` (:1716-1827): `head` is what is left of the buffer of the header (:1747-1763), `reads` the bytes of each successful read. -/
def readBody (cap : Nat) (x : Ctx) (head : Bytes) (reads : List Bytes) (e : End) : Rc × Ctx :=
  let x := { x with inn := recycle x.inn }
  let cl := (if head ≠ [] then [head] else []) ++ reads
  match e with
  | .close => (.closed, x)
  | .fail => (.error, x)
  | .block => if x.chunked then bodyChunked cap x cl else bodyLength x cl

/-- What a reader does between calls: it reads bytes of the buffers in order, up to some point. -/
def eat : Nat → List Bytes → Bytes × List Bytes
  | _, [] => ([], [])
  | n, b :: bs =>
    let r := eat (n - b.length) bs
    (b.take n ++ r.1, b.drop n :: r.2)

/-- A call of `read_body` with what it meets, and how much the reader then reads (`none`: everything). -/
structure Call where
  head : Bytes := []
  reads : List Bytes
  fin : End := .block
  eats : Option Nat := none
  deriving DecidableEq

structure World where
  x : Ctx
  rc : Rc := .again
  got : Bytes := []
  deriving DecidableEq

/-- A call; after anything but `NGX_AGAIN` there is none (for errors see ngx_live_relay_httpflv.c:365-374; the others end the response). The reader looks at the buffers after `NGX_AGAIN` and `NGX_DONE`. -/
def step (cap : Nat) (w : World) (c : Call) : World :=
  if w.rc ≠ .again then w
  else
    let r := readBody cap w.x c.head c.reads c.fin
    if r.1 = .again ∨ r.1 = .done then
      let t :=
        match c.eats with
        | none => (r.2.inn.flatten, r.2.inn.map (fun _ => []))
        | some n => eat n r.2.inn
      { x := { r.2 with inn := t.2 }, rc := r.1, got := w.got ++ t.1 }
    else { x := r.2, rc := r.1, got := w.got }

def run (cap : Nat) (w : World) (cs : List Call) : World := cs.foldl (step cap) w

end Verif.Client
