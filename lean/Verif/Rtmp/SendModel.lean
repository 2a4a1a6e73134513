import Verif.Rtmp.ChunkModel
/-
Model of the outgoing side of RTMP: repacking of payload into chunk buffers (`ngx_rtmp_shared_append_chain`,
ngx_rtmp_shared_module.c:166-208) and serialisation of a frame (`ngx_rtmp_prepare_out_chain`, ngx_rtmp_handler.c:517-688).
Buffers are byte strings [buf->pos, buf->last); allocation does not fail.
-/
namespace Verif.Send
open Verif Verif.Chunk

/-- Inner `while` loop of append_chain (ngx_rtmp_shared_module.c:193-202) followed by the partial copy (:204-206).
`cur` is the destination buffer, `p` the rest of the current source buffer, `cls` the source buffers after it.
Returns the destination buffer and, if the source is not exhausted, what is left of it. -/
def fill (cap : Nat) : Bytes → Bytes → List Bytes → Bytes × Option (Bytes × List Bytes)
  | cur, p, cls =>
    if cap - cur.length ≥ p.length then
      match cls with
      | [] => (cur ++ p, none)
      | q :: qs => fill cap (cur ++ p) q qs
    else (cur ++ p.take (cap - cur.length), some (p.drop (cap - cur.length), cls))

/-- Outer `for` loop (ngx_rtmp_shared_module.c:184-207). `done` are the destination buffers before `*ll`, `cur` is `*ll`
(`none`: NULL). `none` as result: out of fuel (the C loop does not end when buffers of size 0 are used). -/
def appendLoop (cap : Nat) : Nat → List Bytes → Option Bytes → Bytes → List Bytes → Option (List Bytes)
  | 0, _, _, _, _ => none
  | n + 1, done, cur, p, cls =>
    let (done, cur) := match cur with
      | some b => if b.length = cap then (done ++ [b], none) else (done, some b)
      | none => (done, none)
    let b := cur.getD []      -- ngx_get_chainbuf(size, 1): a new, empty buffer
    match fill cap b p cls with
    | (b, none) => some (done ++ [b])
    | (b, some (p, cls)) => appendLoop cap n done (some b) p cls

/-- `ngx_rtmp_shared_append_chain` with a source chain that is not NULL; all destination buffers have capacity `cap`. -/
def appendChain (cap : Nat) (dst : List Bytes) (cl : Bytes) (cls : List Bytes) : Option (List Bytes) :=
  appendLoop cap (cl.length + cls.flatten.length + 2) dst.dropLast dst.getLast? cl cls

/-- Basic header written by prepare_out_chain (ngx_rtmp_handler.c:595-605); `csid` is uint32_t. -/
def outBasic (fmt csid : Nat) : Bytes :=
  if 2 ≤ csid ∧ csid ≤ 63 then [UInt8.ofNat (fmt * 64 + csid % 64)]
  else if 64 ≤ csid ∧ csid < 320 then [UInt8.ofNat (fmt * 64), UInt8.ofNat (csid - 64)]
  else [UInt8.ofNat (fmt * 64 + 1), UInt8.ofNat ((csid + 2 ^ 32 - 64) % 2 ^ 32), UInt8.ofNat ((csid + 2 ^ 32 - 64) % 2 ^ 32 / 256)]

/-- `ngx_rtmp_prepare_out_chain` (ngx_rtmp_handler.c:517-688): the bytes of the resulting chain, `none` when the
session is finalized. `ngx_rtmp_relative_timestamp` always returns 0 (:511-515), so the format is always 0. `hdr.mlen` is
not used: the length is computed from the chain. -/
def prepareOut (maxStreams : Nat) (playTimeFix : Bool) (hdr : Hdr) (bufs : List Bytes) : Option Bytes :=
  if hdr.csid ≥ maxStreams then none
  else
    let mlen := (bufs.map List.length).sum % 2 ^ 32
    let ext := hdr.ts ≥ 0xffffff
    let ts := if ext then 0xffffff else hdr.ts
    let th := outBasic 3 hdr.csid ++ (if ext ∧ playTimeFix = true then beEnc 4 hdr.ts else [])
    let head := outBasic 0 hdr.csid ++ beEnc 3 ts ++ beEnc 3 mlen ++ [UInt8.ofNat hdr.type] ++ leEnc 4 hdr.msid ++
      (if ext then beEnc 4 hdr.ts else [])
    match bufs.dropWhile (· = []) with
    | [] => some head
    | b :: bs => some (head ++ b ++ bs.flatMap (fun b => th ++ b))

end Verif.Send
