import Verif.Base.Bytes
/-
Model of the MPEG-TS reader of nginx-ts-module, src/ngx_ts_stream.c:173-351, 354-933 and 1367-1443, with the structures of src/ngx_ts_stream.h:33-80.

A buffer of a packet is the list of its bytes from `pos` to `last`; the list `ts->free` of unused buffers is left out (buffers are lists, so they can not be
shared; every buffer that goes to `ts->free` is dropped here). Memory can be had, and handlers return `NGX_OK`: what they are called with is logged.
Numbers are naturals that are cut where the C types cut them.
-/
namespace Verif.TsIn
open Verif

/-- What a function does: a value read that was never set or memory outside of the packet, `NGX_ERROR`, or a result. -/
inductive Res (α : Type) where
  | ub
  | error
  | ok (a : α)
  deriving DecidableEq

def Res.bind {α β : Type} (r : Res α) (f : α → Res β) : Res β :=
  match r with
  | .ub => .ub
  | .error => .error
  | .ok a => f a

/-! ### Reading from a chain -/

/-- `ngx_ts_byte_read` (:181-203) from the chain, whose first buffer begins at `br->p`: the bytes, and where it then is; nothing for `NGX_AGAIN`. -/
def rd : Nat → List Bytes → Option (Bytes × List Bytes)
  | len, [] => if len = 0 then some ([], []) else none
  | len, b :: r =>
    if len = 0 then some ([], b :: r)
    else if len < b.length then some (b.take len, b.drop len :: r)
    else (rd (len - b.length) r).map fun x => (b ++ x.1, x.2)

/-- `ngx_ts_byte_read16` (:220-232) -/
def rd16 (c : List Bytes) : Option (Nat × List Bytes) := (rd 2 c).map fun x => (beDec x.1, x.2)

/-- `ngx_ts_byte_read8` (:213-217) -/
def rd8 (c : List Bytes) : Option (Nat × List Bytes) := (rd 1 c).map fun x => (beDec x.1, x.2)

/-! ### The head of a packet -/

/-- `ngx_ts_header_t` (:22-29) -/
structure Header where
  pusi : Bool
  pid : Nat
  cont : Nat
  rand : Bool := false
  pcr : Option Nat := none
  deriving DecidableEq

/-- `program_clock_reference` (:422-433), from the packet. -/
def pcrAt (p : Bytes) : Option Nat :=
  match p[6]?, p[7]?, p[8]?, p[9]?, p[10]?, p[11]? with
  | some b0, some b1, some b2, some b3, some b4, some b5 =>
    some ((((((b0.toNat * 256 + b1.toNat) * 256 + b2.toNat) * 256 + b3.toNat) * 2 + b4.toNat / 128)) * 300 + (b4.toNat % 2 * 256 + b5.toNat))
  | _, _, _, _, _, _ => none

/-- The part of `ngx_ts_read_header` for the adaptation field (:394-436): the header and whether there is payload (`n` bytes from the start); a payload that
would begin after the packet is `ub`. -/
def readAdaptation (p : Bytes) (h : Header) (afic : Nat) : Res (Header × Nat) :=
  match p[4]? with
  | none => .ub
  | some l =>
    let alen := l.toNat
    if 183 < alen then .error
    else
      let n := if afic % 2 = 1 then 4 + alen + 1 else p.length
      if p.length < n then .ub
      else if alen = 0 then .ok (h, n)
      else
        match p[5]? with
        | none => .ub
        | some fl =>
          let h := { h with rand := fl.toNat / 64 % 2 = 1 }
          if fl.toNat / 16 % 2 = 1 then
            match pcrAt p with
            | none => .ub
            | some v => .ok ({ h with pcr := some v }, n)
          else .ok (h, n)

/-- `ngx_ts_read_header` (:354-444): the header and the offset of the payload (`p.length` for `NGX_DONE`, :308-310). -/
def readHeader (p : Bytes) : Res (Header × Nat) :=
  match p[0]? with
  | none => .ub
  | some s =>
    if s ≠ 0x47 then .error
    else
      match p[1]?, p[2]?, p[3]? with
      | some a, some b, some c =>
        let h : Header := { pusi := a.toNat / 64 % 2 = 1, pid := a.toNat % 32 * 256 + b.toNat, cont := c.toNat % 16 }
        let afic := c.toNat / 16 % 4
        if afic = 0 then .error
        else if afic / 2 % 2 = 1 then readAdaptation p h afic
        else .ok (h, 4)
      | _, _, _ => .ub

/-! ### State -/

/-- `ngx_ts_es_t` (ngx_ts_stream.h:40-51); `cont` is of the writer -/
structure Es where
  type : Nat
  pid : Nat
  video : Bool
  sid : Nat := 0
  cont : Nat := 0
  pts : Nat := 0
  dts : Nat := 0
  ptsf : Bool := false
  rand : Bool := false
  bufs : List Bytes := []
  deriving DecidableEq

/-- `ngx_ts_program_t` (ngx_ts_stream.h:54-63) -/
structure Prog where
  number : Nat
  pid : Nat
  pcrPid : Nat := 0
  pcr : Nat := 0
  video : Bool := false
  es : List Es := []
  bufs : List Bytes := []
  deriving DecidableEq

/-- What handlers are called with (:148-170): the programs; a program; a program (whose list
of streams is as it was before the packet) and an elementary stream as it is then, and the payload. -/
inductive Event where
  | pat (progs : List Prog)
  | pmt (prog : Prog)
  | pes (prog : Prog) (es : Es) (bufs : List Bytes)
  deriving DecidableEq

/-- `ngx_ts_stream_t` (ngx_ts_stream.h:69-79): the part of a packet in `buf`, the packets of the PAT in `bufs`, and the calls so far. -/
structure St where
  progs : List Prog := []
  buf : Bytes := []
  bufs : List Bytes := []
  events : List Event := []
  deriving DecidableEq

/-- `ngx_ts_append_buf` (:1407-1443) -/
def appendBuf (pusi : Bool) (c : List Bytes) (b : Bytes) : List Bytes :=
  if !pusi && c.isEmpty then [] else if pusi then [b] else c ++ [b]

/-! ### Tables -/

/-- A table that is not all there yet, or is not one, or the value. -/
inductive Table (α : Type) where
  | again
  | bad
  | ub
  | full (a : α)
  deriving DecidableEq

/-- The section (:474-508, :585-619): the pointer field, skipped bytes and `table_id`, `section_length`; whether all of it is there. -/
def readSection (least : Nat) (c : List Bytes) : Table (Nat × List Bytes) :=
  match rd8 c with
  | none => .again
  | some (ptr, c) =>
    match rd (ptr + 1) c with
    | none => .again
    | some (_, c) =>
      match rd16 c with
      | none => .again
      | some (len, c) =>
        if len % 4096 < least then .bad
        else if 0x3fd < len % 4096 then .bad
        else
          match rd (len % 4096) c with
          | none => .again
          | some _ => .full (len % 4096, c)

/-- The programs of the PAT (:525-543) -/
def readProgs : Nat → List Bytes → Option (List Prog)
  | 0, _ => some []
  | n + 1, c =>
    match rd16 c with
    | none => none
    | some (number, c) =>
      match rd16 c with
      | none => none
      | some (pid, c) => (readProgs n c).map fun l => if number = 0 then l else { number := number, pid := pid % 8192 } :: l

/-- `ngx_ts_read_pat` (:447-554), the table in the chain (:474-545) -/
def patOf (c : List Bytes) : Table (List Prog) :=
  match readSection 9 c with
  | .again => .again
  | .bad => .bad
  | .ub => .ub
  | .full (len, c) =>
    match rd 5 c with
    | none => .ub
    | some (_, c) =>
      match readProgs ((len - 9) / 4) c with
      | none => .ub
      | some l => .full l

/-- `ngx_ts_read_pat` (:447-554) -/
def readPat (s : St) (h : Header) (b : Bytes) : Res St :=
  if s.progs ≠ [] then .ok s
  else
    let bufs := appendBuf h.pusi s.bufs b
    match patOf bufs with
    | .again => .ok { s with bufs := bufs }
    | .bad => .error
    | .ub => .ub
    | .full l => .ok { s with progs := l, bufs := [], events := s.events ++ [.pat l] }

/-- The first loop over the streams of the PMT (:647-660): how many there are. -/
def countEs (len : Nat) (c : List Bytes) : Option Nat :=
  if _ : len = 0 then some 0
  else
    match rd 3 c with
    | none => none
    | some (_, c) =>
      match rd16 c with
      | none => none
      | some (elen, c) =>
        match rd (elen % 4096) c with
        | none => none
        | some (_, c) => if len < 5 + elen % 4096 then none else (countEs (len - (5 + elen % 4096)) c).map (· + 1)
termination_by len
decreasing_by omega

/-- Which types are video (:686-693) -/
def videoType (t : Nat) : Bool := t = 0x01 || t = 0x02 || t = 0x10 || t = 0x1b

/-- The second loop (:668-698) -/
def readEss : Nat → List Bytes → Option (List Es)
  | 0, _ => some []
  | n + 1, c =>
    match rd8 c with
    | none => none
    | some (type, c) =>
      match rd16 c with
      | none => none
      | some (pid, c) =>
        match rd16 c with
        | none => none
        | some (elen, c) =>
          match rd (elen % 4096) c with
          | none => none
          | some (_, c) => (readEss n c).map fun l => { type := type, pid := pid % 8192, video := videoType type } :: l

/-- `ngx_ts_read_pmt` (:557-707), the table in the chain (:585-698): the PCR PID and the streams -/
def pmtOf (c : List Bytes) : Table (Nat × List Es) :=
  match readSection 13 c with
  | .again => .again
  | .bad => .bad
  | .ub => .ub
  | .full (len, c) =>
    match rd 5 c with
    | none => .ub
    | some (_, c) =>
      match rd16 c with
      | none => .ub
      | some (pcrPid, c) =>
        match rd16 c with
        | none => .ub
        | some (pilen, c) =>
          match rd (pilen % 4096) c with
          | none => .bad
          | some (_, c) =>
            if len < 13 + pilen % 4096 then .bad
            else
              match countEs (len - (13 + pilen % 4096)) c with
              | none => .bad
              | some n =>
                match readEss n c with
                | none => .ub
                | some l => .full (pcrPid % 8192, l)

/-- `ngx_ts_read_pmt` (:557-707): the program, and the event if there is one -/
def readPmt (prog : Prog) (h : Header) (b : Bytes) : Res (Prog × List Event) :=
  if prog.es ≠ [] then .ok (prog, [])
  else
    let bufs := appendBuf h.pusi prog.bufs b
    match pmtOf bufs with
    | .again => .ok ({ prog with bufs := bufs }, [])
    | .bad => .error
    | .ub => .ub
    | .full (pcrPid, l) =>
      let prog := { prog with pcrPid := pcrPid, es := l, video := prog.video || l.any (·.video), bufs := bufs }
      .ok ({ prog with bufs := [] }, [.pmt prog])

/-! ### PES packets -/

/-- What is in the chain of an elementary stream: not all yet, with the stream id if that is there; not a PES packet; padding; a packet. -/
inductive Parsed where
  | again (sid : Option Nat)
  | bad
  | padding (sid : Nat)
  | full (sid : Nat) (stamps : Option (Nat × Nat)) (bufs : List Bytes)
  deriving DecidableEq

/-- A time stamp (:827-846) -/
def rdStamp (c : List Bytes) : Option (Nat × List Bytes) :=
  match rd8 c with
  | none => none
  | some (v8, c) =>
    match rd16 c with
    | none => none
    | some (a, c) =>
      match rd16 c with
      | none => none
      | some (b, c) => some (v8 / 2 % 8 * 2 ^ 30 + a / 2 * 2 ^ 15 + b / 2, c)

/-- Stream ids without the optional header (:791-797) -/
def plainSid (sid : Nat) : Bool := sid = 0xbc || sid = 0xbf || sid = 0xf0 || sid = 0xf1 || sid = 0xff || sid = 0xf2 || sid = 0xf8

/-- The end of the payload (:912-922): the buffer where `left` bytes end ends there, if there is one; later ones stay as they are. -/
def limit : Nat → List Bytes → List Bytes
  | _, [] => []
  | left, b :: r => if left = 0 then [] :: r else if left < b.length then b.take left :: r else b :: limit (left - b.length) r

/-- The payload given to handlers (:908-926); `len` is 0 for all there is. -/
def payload (sid : Nat) (stamps : Option (Nat × Nat)) (len : Nat) (c : List Bytes) : Parsed :=
  if len = 0 then .full sid stamps c
  else
    match rd len c with
    | none => .again (some sid)
    | some _ => .full sid stamps (limit len c)

/-- The optional header (:799-906) -/
def optHeader (sid len : Nat) (c : List Bytes) : Parsed :=
  match rd16 c with
  | none => .again (some sid)
  | some (flags, c) =>
    match rd8 c with
    | none => .again (some sid)
    | some (hlen, c) =>
      if len ≠ 0 ∧ len < 3 + hlen then .bad
      else
        let len := if len = 0 then 0 else len - (3 + hlen)
        match rd hlen c with
        | none => .again (some sid)
        | some (_, c') =>
          if flags % 256 / 64 = 2 then
            match rdStamp c with
            | none => .again (some sid)
            | some (pts, _) => payload sid (some (pts, pts)) len c'
          else if flags % 256 / 64 = 3 then
            match rdStamp c with
            | none => .again (some sid)
            | some (pts, c) =>
              match rdStamp c with
              | none => .again (some sid)
              | some (dts, _) => payload sid (some (pts, dts)) len c'
          else payload sid none len c'

/-- What `ngx_ts_read_pes` makes of the chain (:746-922); `flush` is a call without a buffer. -/
def parsePes (flush : Bool) (c : List Bytes) : Parsed :=
  match rd 3 c with
  | none => .again none
  | some (pfx, c) =>
    if pfx ≠ [0, 0, 1] then .bad
    else
      match rd8 c with
      | none => .again none
      | some (sid, c) =>
        match rd16 c with
        | none => .again (some sid)
        | some (len, c) =>
          if len ≠ 0 ∧ (rd len c).isNone then .again (some sid)
          else if len = 0 ∧ !flush then .again (some sid)
          else if sid = 0xbe then .padding sid
          else if plainSid sid then payload sid none len c
          else optHeader sid len c

/-- `ngx_ts_read_pes` (:710-933) after the buffer was appended (:746-932): the stream with the buffers `es.bufs`, and the event. -/
def finishPes (prog : Prog) (es : Es) (flush : Bool) : Res (Es × List Event) :=
  match parsePes flush es.bufs with
  | .again sid => .ok ({ es with sid := sid.getD es.sid }, [])
  | .bad => .error
  | .padding sid => .ok ({ es with sid := sid, bufs := [] }, [])
  | .full sid stamps bufs =>
    let es := { es with sid := sid, pts := (stamps.map (·.1)).getD es.pts, dts := (stamps.map (·.2)).getD es.dts, ptsf := stamps.isSome }
    .ok ({ es with bufs := [] }, [.pes prog es bufs])

/-- `prog->pcr` (:738-740) -/
def setPcr (prog : Prog) (es : Es) (h : Header) : Prog :=
  match h.pcr with
  | some v => if prog.pcrPid = es.pid then { prog with pcr := v } else prog
  | none => prog

/-- `es->rand` (:734-736) -/
def setRand (es : Es) (h : Header) : Es := if es.bufs = [] then { es with rand := h.rand } else es

/-- `ngx_ts_read_pes` (:710-933) with a buffer: the call for the packet before that (:728-732), which has no buffer and the header of this one, comes first. -/
def readPes (prog : Prog) (es : Es) (h : Header) (b : Bytes) : Res (Prog × Es × List Event) :=
  let flushed : Res (Prog × Es × List Event) :=
    if es.bufs ≠ [] ∧ h.pusi then
      let prog := setPcr prog es h
      (finishPes prog es true).bind fun x => .ok (prog, x.1, x.2)
    else .ok (prog, es, [])
  flushed.bind fun x =>
    let es := setRand x.2.1 h
    let prog := setPcr x.1 es h
    (finishPes prog { es with bufs := appendBuf h.pusi es.bufs b } false).bind fun y => .ok (prog, y.1, x.2.2 ++ y.2)

/-! ### Packets -/

/-- The inner loop (:328-335): the first stream with the PID takes the packet. -/
def toEs (prog : Prog) (h : Header) (b : Bytes) : List Es → Option (Res (Prog × List Es × List Event))
  | [] => none
  | e :: l =>
    if h.pid = e.pid then some ((readPes prog e h b).bind fun x => .ok (x.1, x.2.1 :: l, x.2.2))
    else (toEs prog h b l).map fun r => r.bind fun x => .ok (x.1, e :: x.2.1, x.2.2)

/-- The outer loop (:321-336): the first program that knows the PID takes the packet. -/
def toProg (h : Header) (b : Bytes) : List Prog → Option (Res (List Prog × List Event))
  | [] => none
  | p :: l =>
    if h.pid = p.pid then some ((readPmt p h b).bind fun x => .ok (x.1 :: l, x.2))
    else
      match toEs p h b p.es with
      | some r => some (r.bind fun x => .ok ({ x.1 with es := x.2.1 } :: l, x.2.2))
      | none => (toProg h b l).map fun r => r.bind fun x => .ok (p :: x.1, x.2)

/-- `ngx_ts_read_packet` (:294-351) -/
def readPacket (s : St) (p : Bytes) : Res St :=
  (readHeader p).bind fun x =>
    let b := p.drop x.2
    if x.1.pid = 0 then readPat s x.1 b
    else
      match toProg x.1 b s.progs with
      | some r => r.bind fun y => .ok { s with progs := y.1, events := s.events ++ y.2 }
      | none => .ok s

/-- `ngx_ts_read` (:235-291) for one buffer of input -/
def feed (s : St) (d : Bytes) : Res St :=
  if h : d = [] then .ok s
  else if _hb : s.buf.length < 188 then
    let n := min (188 - s.buf.length) d.length
    let buf := s.buf ++ d.take n
    if buf.length = 188 then (readPacket { s with buf := [] } buf).bind fun s => feed s (d.drop n)
    else feed { s with buf := buf } (d.drop n)
  else .ub
termination_by d.length
decreasing_by
  all_goals
    have := List.length_pos_iff.2 h
    simp only [List.length_drop]
    omega

/-- `ngx_ts_read` (:235-291) -/
def read (s : St) : List Bytes → Res St
  | [] => .ok s
  | d :: r => (feed s d).bind fun s => read s r

end Verif.TsIn
