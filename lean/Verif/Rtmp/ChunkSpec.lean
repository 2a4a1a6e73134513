import Verif.Rtmp.ChunkModel
/-
Specification of a conforming sender of an RTMP chunk stream, written from the RTMP specification (section 5.3), not from
the receiver. It is used by C02, C03 and C05.

A sender transmits a list of events; each event is one chunk: the first chunk of a new message on some chunk stream
(`start`, header format 0..3) or the next chunk of the unfinished message of a chunk stream (`cont`, format 3).
Chunks of different chunk streams may be interleaved in any order.
-/
namespace Verif.Chunk.Spec
open Verif Verif.Chunk

/-- What the protocol makes the sender remember per chunk stream. -/
structure SS where
  used : Bool := false
  ts : Nat := 0          -- timestamp of the last (or unfinished) message
  delta : Nat := 0       -- its timestamp delta, 0 if its header was of format 0
  mlen : Nat := 0
  type : Nat := 0
  msid : Nat := 0
  fmt0 : Bool := false   -- its header was of format 0
  ext : Bool := false    -- its header carried an extended timestamp field
  extv : Nat := 0        -- the last extended timestamp sent
  sent : Bytes := []     -- payload of the unfinished message sent so far
  rest : Bytes := []     -- payload still to be sent; empty = no unfinished message

structure Snd where
  chunk : Nat
  st : Nat → SS

def Snd.init (chunk : Nat) : Snd := ⟨chunk, fun _ => {}⟩

def Snd.set (s : Snd) (i : Nat) (t : SS) : Snd := { s with st := fun j => if j = i then t else s.st j }

/-- One chunk. `t` is the timestamp for format 0 and the timestamp delta for formats 1-3; `wide` asks for the
three-byte basic header where the two-byte one would do. -/
inductive Ev where
  | start (csid : Nat) (wide : Bool) (fmt t type msid : Nat) (payload : Bytes)
  | cont (csid : Nat) (wide : Bool)

/-- Chunk basic header (section 5.3.1.1). -/
def encBasic (wide : Bool) (fmt csid : Nat) : Bytes :=
  if csid < 64 then [UInt8.ofNat (fmt * 64 + csid)]
  else if csid < 320 ∧ wide = false then [UInt8.ofNat (fmt * 64), UInt8.ofNat (csid - 64)]
  else UInt8.ofNat (fmt * 64 + 1) :: leEnc 2 (csid - 64)

/-- Message header and extended timestamp (sections 5.3.1.2, 5.3.1.3). `rep`: does the sender repeat the extended
timestamp in chunks of format 3. -/
def encMsgHdr (rep : Bool) (fmt t mlen type msid : Nat) : Bytes :=
  (if fmt ≤ 2 then beEnc 3 (min t 0xffffff) else []) ++
  (if fmt ≤ 1 then beEnc 3 mlen ++ [UInt8.ofNat type] else []) ++
  (if fmt = 0 then leEnc 4 msid else []) ++
  (if t ≥ 0xffffff ∧ (fmt ≤ 2 ∨ rep = true) then beEnc 4 t else [])

/-- Bytes of a chunk. -/
def Ev.bytes (rep : Bool) (s : Snd) : Ev → Bytes
  | .start csid wide fmt t type msid payload =>
    encBasic wide fmt csid ++ encMsgHdr rep fmt t payload.length type msid ++ payload.take s.chunk
  | .cont csid wide =>
    encBasic wide 3 csid ++ (if (s.st csid).ext && rep then beEnc 4 (s.st csid).extv else []) ++
      (s.st csid).rest.take s.chunk

/-- Timestamp of the message started by a `start` event. -/
def startTs (t : SS) (fmt v : Nat) : Nat := if fmt = 0 then v else (t.ts + v) % 2 ^ 32

/-- Sender state of the chunk stream right after the header of a new message was fixed. -/
def startSS (t : SS) (fmt v type msid : Nat) (payload : Bytes) : SS :=
  { used := true, ts := startTs t fmt v, delta := if fmt = 0 then 0 else v, mlen := payload.length, type := type,
    msid := msid, fmt0 := fmt = 0, ext := v ≥ 0xffffff, extv := if v ≥ 0xffffff then v else t.extv,
    sent := [], rest := payload }

/-- Take the next chunk from the unfinished message: new state, and the message if this completes it. -/
def SS.take (t : SS) (csid chunk : Nat) : SS × Option Msg :=
  if t.rest.length ≤ chunk then
    ({ t with sent := [], rest := [] }, some ⟨⟨csid, t.ts, t.mlen, t.type, t.msid⟩, t.sent ++ t.rest⟩)
  else ({ t with sent := t.sent ++ t.rest.take chunk, rest := t.rest.drop chunk }, none)

def Ev.csid : Ev → Nat
  | .start c .. => c
  | .cont c .. => c

/-- State of the chunk stream before its chunk is taken. -/
def Ev.cur (s : Snd) : Ev → SS
  | .start csid _ fmt t type msid payload => startSS (s.st csid) fmt t type msid payload
  | .cont csid _ => s.st csid

/-- Sender state after the chunk, and the message it completes. -/
def Ev.next (s : Snd) (e : Ev) : Snd × Option Msg :=
  let r := (e.cur s).take e.csid s.chunk
  (s.set e.csid r.1, r.2)

/-- Rules of the protocol for one chunk (and the limits the receiver announces in its configuration). A format 3 chunk
starting a message repeats the previous delta; after a format 0 header that is read as 0 here, and not used at all after
an extended timestamp (see DESIGN.md on this corner of the RTMP specification). -/
def Ev.valid (cfg : Cfg) (s : Snd) : Ev → Prop
  | .start csid _ fmt t type msid payload =>
    2 ≤ csid ∧ csid < 65600 ∧ csid < cfg.maxStreams ∧ fmt ≤ 3 ∧ (s.st csid).rest = [] ∧
    payload.length < 2 ^ 24 ∧ payload.length ≤ cfg.maxMessage ∧ type < 256 ∧ msid < 2 ^ 32 ∧ t < 2 ^ 32 ∧
    (fmt ≠ 0 → (s.st csid).used = true ∧ msid = (s.st csid).msid) ∧
    (2 ≤ fmt → type = (s.st csid).type ∧ payload.length = (s.st csid).mlen) ∧
    (fmt = 3 → t = (s.st csid).delta ∧ ((s.st csid).fmt0 = true → (s.st csid).ext = false))
  | .cont csid _ =>
    2 ≤ csid ∧ csid < 65600 ∧ csid < cfg.maxStreams ∧ (s.st csid).rest ≠ []

instance (cfg : Cfg) (s : Snd) (e : Ev) : Decidable (e.valid cfg s) := by
  cases e <;> (unfold Ev.valid; infer_instance)

variable {σ : Type}

/-- What the receiving application has seen, in terms of the sender. -/
inductive Exp (σ : Type) where
  | live (x : σ) (s : Snd)
  | closed (x : σ)

/-- Reaction of the protocol to the answer of the application to a message: after a set-chunk-size message the sender uses
the new size. -/
def react (s : Snd) : σ × HRc → Exp σ
  | (x, .fail) => .closed x
  | (x, .ok) => .live x s
  | (x, .newChunk c) => .live x { s with chunk := c }

/-- Effect of one chunk. -/
def Ev.effect (h : σ → Msg → σ × HRc) (x : σ) (s : Snd) (e : Ev) : Exp σ :=
  match e.next s with
  | (s', none) => .live x s'
  | (s', some m) => react s' (h x m)

/-- The bytes of a list of chunks and what the application has seen at the end: every completed message is given to
`h` once, in the order of completion; after a failure nothing more is sent. -/
def trace (rep : Bool) (h : σ → Msg → σ × HRc) : σ → Snd → List Ev → Bytes × Exp σ
  | x, s, [] => ([], .live x s)
  | x, s, e :: es =>
    match e.effect h x s with
    | .live x' s' => let r := trace rep h x' s' es; (e.bytes rep s ++ r.1, r.2)
    | .closed x' => (e.bytes rep s, .closed x')

/-- All chunks of the list obey the protocol, when they are sent one after the other. -/
def Valid (cfg : Cfg) (h : σ → Msg → σ × HRc) : σ → Snd → List Ev → Prop
  | _, _, [] => True
  | x, s, e :: es => e.valid cfg s ∧
    match e.effect h x s with
    | .live x' s' => Valid cfg h x' s' es
    | .closed _ => True

/-- Whenever the chunk size changes, the new size is at least 1 and the part of each unfinished message already sent fits
one receive buffer of the new size. -/
def SmallPending (h : σ → Msg → σ × HRc) : σ → Snd → List Ev → Prop
  | _, _, [] => True
  | x, s, e :: es =>
    (match e.next s with
     | (s', some m) => (match (h x m).2 with
       | .newChunk c => 1 ≤ c ∧ ∀ i, (s'.st i).sent.length ≤ c + 18
       | _ => True)
     | (_, none) => True) ∧
    match e.effect h x s with
    | .live x' s' => SmallPending h x' s' es
    | .closed _ => True

end Verif.Chunk.Spec
