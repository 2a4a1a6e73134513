import Verif.Rtmp.RecModel
import Verif.Rtmp.FlvSpec
/-
What a recording should contain. The file format is that of FlvSpec.
-/
namespace Verif.Rec
open Verif Verif.Flv

/-- Well-formed audio or video message: 32-bit timestamp, the length announced is the length of the payload and fits FLV; the codec headers fit, too.
The first two bytes of a video message are in one buffer. -/
structure Av.Ok (e : Av) : Prop where
  hType : e.type = 8 ∨ e.type = 9
  hTs : e.ts < 2 ^ 32
  hLen : e.mlen = e.bufs.flatten.length
  hMax : e.bufs.flatten.length < 2 ^ 24
  hFirst : e.type = 9 → ∃ b bs, e.bufs = b :: bs ∧ b ≠ [] ∧ (b.length = 1 → bs.flatten = [])
  hAac : ∀ h, e.codec.bind Codec.aacHeader = some h → h.flatten.length < 2 ^ 24
  hAvc : ∀ h, e.codec.bind Codec.avcHeader = some h → h.flatten.length < 2 ^ 24

/-- The first byte of the payload says key frame. -/
def isKey (e : Av) : Bool :=
  match e.bufs.flatten with
  | b :: _ => b.toNat / 16 = 1
  | [] => false

/-- The second byte of the payload says codec header. -/
def isHeader (e : Av) : Bool :=
  match e.bufs.flatten with
  | _ :: b :: _ => b = 0
  | _ => false

/-- The stream is known to have this codec. -/
def isH264 (e : Av) : Bool :=
  match e.codec with
  | some k => k.h264
  | none => false
def isAac (e : Av) : Bool :=
  match e.codec with
  | some k => k.aac
  | none => false

/-- Something written to a file on behalf of a message: the AAC or AVC header known at that time, or the message. -/
inductive Item where
  | aacHdr (e : Av) (h : List Bytes)
  | avcHdr (e : Av) (h : List Bytes)
  | frame (e : Av)
deriving DecidableEq, Repr

/-- What a message may give rise to, in this order. -/
def sources (e : Av) : List Item :=
  (e.codec.bind Codec.aacHeader).toList.map (Item.aacHdr e) ++ (e.codec.bind Codec.avcHeader).toList.map (Item.avcHdr e) ++ [.frame e]

/-- The tag of an item, given the translation of timestamps. -/
def Item.tag (time : Nat → Nat) : Item → Tag
  | .aacHdr e h => ⟨8, time e.ts, 0, h.flatten⟩
  | .avcHdr e h => ⟨9, time e.ts, 0, h.flatten⟩
  | .frame e => ⟨e.type, time e.ts, 0, e.bufs.flatten⟩

def Item.isFrame : Item → Bool
  | .frame _ => true
  | _ => false

/-- Messages among items. -/
def framesOf : List Item → List Av
  | [] => []
  | .frame e :: is => e :: framesOf is
  | _ :: is => framesOf is

/-- The configuration asks for this message: audio, video, or key frames only. -/
def asked (c : Conf) (e : Av) : Bool := (e.type = 8 && c.audio) || (e.type = 9 && (c.video || (c.keyframes && isKey e)))

/-- A message at which decoding video can start. -/
def startsVideo (e : Av) : Bool := e.type = 9 && isKey e && ((e.codec.isSome && !isH264 e) || !isHeader e)

/-- Time in a file: `t0` (the time of the first message) becomes `shift`. -/
def rebase (t0 shift ts : Nat) : Nat := if ts + shift < t0 then 0 else ts + shift - t0

/-- Flags that announce exactly the kinds of tags present. -/
def maskOf (ts : List Tag) : UInt8 := UInt8.ofNat ((if ts.any (fun t => t.type == 8) then 4 else 0) + (if ts.any (fun t => t.type == 9) then 1 else 0))

/-- Limits, with one tag to go over them: without its last tag a file is shorter than `maxSize` (or has just the 13 bytes of the header); besides two codec headers,
no more than `maxFrames` messages. -/
def Within (c : Conf) (ts : List Tag) : Prop :=
  (c.maxSize ≠ 0 → ts = [] ∨ 13 + (ts.dropLast.flatMap Tag.bytes).length < max c.maxSize 14) ∧ (c.maxFrames ≠ 0 → ts.length ≤ c.maxFrames + 2)

/-- A file at rest: empty, or a whole FLV file. Unless `append` is on, its flags announce what it contains, and the limits hold. -/
def Whole (c : Conf) (b : Bytes) : Prop :=
  b = [] ∨ ∃ (fl : UInt8) (ts : List Tag), b = fileHeader fl 9 ++ ts.flatMap Tag.bytes ∧ (∀ t ∈ ts, t.Ok) ∧ (c.append = false → fl = maskOf ts ∧ Within c ts)

/-- A key to what a recording contains: the items written for the messages `es`. -/
structure Recording (c : Conf) (es : List Av) (is : List Item) : Prop where
  order : is.Sublist (es.flatMap sources)
  hAsked : ∀ e ∈ framesOf is, asked c e = true
  audioHeader : ∀ pre e post, is = pre ++ .frame e :: post → e.type = 8 → isAac e = true → ∃ e' h, Item.aacHdr e' h ∈ pre
  videoHeader : ∀ pre e post, is = pre ++ .frame e :: post → e.type = 9 → isH264 e = true → ∃ e' h, Item.avcHdr e' h ∈ pre
  keyFirst : ∀ pre e post, is = pre ++ .frame e :: post → e.type = 9 → ∃ k ∈ framesOf pre ++ [e], startsVideo k = true
  oneAac : (is.filter fun i => match i with | .aacHdr _ _ => true | _ => false).length ≤ 1
  oneAvc : (is.filter fun i => match i with | .avcHdr _ _ => true | _ => false).length ≤ 1
  /-- From the first message at which video can start, nothing asked for is missing. -/
  complete : (∀ e ∈ es, (isH264 e = true → (e.codec.bind Codec.avcHeader).isSome) ∧ (isAac e = true → (e.codec.bind Codec.aacHeader).isSome)) →
    ∀ pre k post, es = pre ++ k :: post → startsVideo k = true → asked c k = true →
      ∃ before, framesOf is = before ++ (k :: post).filter (asked c)
  /-- No audio asked for is missing. -/
  audioComplete : c.manual = false → (∀ e ∈ es, isAac e = true → (e.codec.bind Codec.aacHeader).isSome) →
    (framesOf is).filter (fun e => e.type = 8) = es.filter (fun e => e.type = 8 && asked c e)

/-- The file after the messages `es`, put after the tags `old`, from time `shift` on. `was`: what the file contained. Either nothing was recorded, or the file starts
with a message `e0`; in automatic mode with the first one asked for. -/
def FileFor (c : Conf) (es : List Av) (shift : Nat) (old : List Tag) (was now : Bytes) : Prop :=
  ∃ is, Recording c es is ∧ ((is = [] ∧ now = was ∧ (c.manual = false → ∀ e ∈ es, asked c e = false)) ∨
    ∃ pre e0 post, es = pre ++ e0 :: post ∧ asked c e0 = true ∧ is.Sublist ((e0 :: post).flatMap sources) ∧
      (c.manual = false → ∀ e ∈ pre, asked c e = false) ∧
      now = fileHeader (maskOf (is.map (Item.tag (rebase e0.ts shift)))) 9 ++ (old ++ is.map (Item.tag (rebase e0.ts shift))).flatMap Tag.bytes)

/-- Where a file may be cut: at key frames; without video anywhere. -/
def mayCut (c : Conf) (e : Av) : Bool := if e.type = 9 then isKey e else !c.video

/-- Milliseconds of a time in seconds and milliseconds. -/
def ms (t : Nat × Nat) : Nat := t.1 * 1000 + t.2

/-- More than `i` milliseconds after the file was opened at `t`, and the file may be cut. -/
def due (c : Conf) (i : Nat) (t : Nat × Nat) (e : Av) : Prop := mayCut c e = true ∧ ms e.env.now > ms t + i

/-- Pieces of a stream are right: the first one, `a`, in a file opened at `t`, has no message where it should have been cut; the next one begins with a message where the first one
is to be cut, and is in a file opened at that moment under the path of that moment; and so on. -/
def CutRight (c : Conf) (i : Nat) : Nat × Nat → List Av → List (Nat × List Av) → Prop
  | t, a, [] => ∀ x ∈ a, ¬ due c i t x
  | _, _, (_, []) :: _ => False
  | t, a, (q, e :: b) :: rest => (∀ x ∈ a, ¬ due c i t x) ∧ due c i t e ∧ q = e.env.path ∧ CutRight c i e.env.now (e :: b) rest

/-- Times less than 2^31 ms (24.8 days) apart, `shift` added on one side. -/
def Near (shift : Nat) (es : List Av) : Prop := ∀ x ∈ es, ∀ y ∈ es, x.ts + shift < y.ts + 2 ^ 31 ∧ y.ts ≤ x.ts + shift + 2 ^ 31

end Verif.Rec
