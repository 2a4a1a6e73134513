import Verif.Base.Bytes
/-
H.264 messages turned into Annex B byte streams. The code exists three times:
hls/ngx_rtmp_hls_module.c, mpegts/ngx_mpegts_live_module.c, ngx_live_record.c (all under modules/nginx-rtmp-module).
-/
namespace Verif.Annex
open Verif

/-- The pair `(*in, *src)` of `ngx_rtmp_hls_copy`: the bytes left in the current buffer, then the buffers behind it; `[]`: `*in == NULL`. -/
abbrev Cur := List Bytes

/-- hls/ngx_rtmp_hls_module.c:636-641: `while (*in && *src == (*in)->buf->last)`. -/
def skipEmpty : Cur → Cur
  | [] => []
  | [] :: bs => skipEmpty bs
  | b :: bs => b :: bs

/-- hls/ngx_rtmp_hls_module.c:616-664 (mpegts/ngx_mpegts_live_module.c:370-419, ngx_live_record.c:481-530): `copy` of `n` bytes. First component: what is stored at
`dst`, also when the call fails; second: the new cursor, `none` when `NGX_ERROR` is returned, and then `*in == NULL`. -/
def copy : Nat → Cur → Bytes × Option Cur
  | _, [] => ([], none)
  | n, b :: bs =>
    if n ≤ b.length then (b.take n, some (skipEmpty (b.drop n :: bs)))
    else (b ++ (copy (n - b.length) bs).1, (copy (n - b.length) bs).2)

/-- The three copies of the code. `logs`: the failure of the last `copy` is logged with `in->buf` (hls/ngx_rtmp_hls_module.c:2257-2260); `htype`: messages with a packet type
other than 1 are left out (:2085-2087; ngx_live_record.c:946-948 skips the byte); `pts32`: the time stamp is computed in 32 bits (ngx_live_record.c:1091). -/
structure Variant where
  logs : Bool
  htype : Bool
  pts32 : Bool

def hls : Variant := ⟨true, true, false⟩
def mpegts : Variant := ⟨false, true, false⟩
def record : Variant := ⟨false, false, true⟩

/-- The output buffer `out`: what is between `pos` and `last`; `aud`: aud_sent; `ps`: sps_pps_sent. -/
structure St where
  out : Bytes := []
  aud : Bool := false
  ps : Bool := false

/-- Storing `d` at `out->last`; `none`: behind the end of the buffer. -/
def put (cap : Nat) (out d : Bytes) : Option Bytes := if cap < out.length + d.length then none else some (out ++ d)

/-- hls/ngx_rtmp_hls_module.c:811-823: `append_aud`; without room nothing is appended. -/
def appendAud (cap : Nat) (out : Bytes) : Option Bytes :=
  if cap < out.length + 6 then some out else put cap out [0, 0, 0, 1, 0x09, 0xf0]

/-- hls/ngx_rtmp_hls_module.c:882-921: the loop over `nnals` parameter sets: output and cursor, the latter `none` for `NGX_ERROR`. -/
def appendNals (cap : Nat) : Nat → Cur → Bytes → Option (Bytes × Option Cur)
  | 0, c, out => some (out, some c)
  | k + 1, c, out =>
    match copy 2 c with
    | (_, none) => some (out, none)
    | (l, some c1) =>
      if cap < out.length + 4 then some (out, none)
      else
        (put cap out [0, 0, 0, 1]).bind fun out1 =>
          if cap < out1.length + beDec l then some (out1, none)
          else
            (put cap out1 (copy (beDec l) c1).1).bind fun out2 =>
              match (copy (beDec l) c1).2 with
              | none => some (out1, none)
              | some c2 => appendNals cap k c2 out2

/-- hls/ngx_rtmp_hls_module.c:826-935 (mpegts/ngx_mpegts_live_module.c:437-543, ngx_live_record.c:608-713): `append_sps_pps`, the output whether it fails or not (the
callers only log the failure). The number of PPS is an `int8_t` counted down to 0, so it is the value of the byte. -/
def appendParams (cap : Nat) (hdr : Cur) (out : Bytes) : Option Bytes :=
  match copy 10 hdr with
  | (_, none) => some out
  | (_, some c1) =>
    match copy 1 c1 with
    | (_, none) => some out
    | (n, some c2) =>
      (appendNals cap (beDec n % 32) c2 out).bind fun r =>
        match r with
        | (out1, none) => some out1
        | (out1, some c3) =>
          match copy 1 c3 with
          | (_, none) => some out1
          | (m, some c4) => (appendNals cap (beDec m) c4 out1).map Prod.fst

/-- What becomes of a message. `crash`: a NULL pointer is followed; `overflow`: a byte is stored behind the end of the buffer; `stuck`: the model ran out of steps. -/
inductive Res where
  | frame (out : Bytes)
  | dropped
  | error
  | crash
  | overflow
  | stuck
  deriving DecidableEq

/-- hls/ngx_rtmp_hls_module.c:2135-2172: access unit delimiter and parameter sets in front of a NAL unit of type `ty`. -/
def before (cap : Nat) (hdr : Cur) (ty : Nat) (st : St) : Option St :=
  (if st.aud = false ∧ (ty = 1 ∨ ty = 5 ∨ ty = 6) then (appendAud cap st.out).map fun o => { st with out := o, aud := true } else some st).bind fun st1 =>
    if ty = 1 then some { st1 with ps := false }
    else if ty = 5 ∧ st1.ps = false then (appendParams cap hdr st1.out).map fun o => { st1 with out := o, ps := true }
    else some st1

/-- hls/ngx_rtmp_hls_module.c:2237-2244: the start code and the first byte; the first start code is long. -/
def startCode (out : Bytes) (t : UInt8) : Bytes := if out = [] then [0, 0, 0, 1, t] else [0, 0, 1, t]

/-- hls/ngx_rtmp_hls_module.c:2109-2264 without H.265 (mpegts/ngx_mpegts_live_module.c:1253-1345, ngx_live_record.c:969-1060): the loop over the NAL units. `nb`:
avc_nal_bytes; `hdr`: the chain of the codec header; `cap`: the size of the buffer. -/
def nals (v : Variant) (cap nb : Nat) (hdr : Cur) : Nat → Cur → St → Res
  | _, [], st => .frame st.out
  | 0, _ :: _, _ => .stuck
  | f + 1, c :: cs, st =>
    match copy nb (c :: cs) with
    | (_, none) => .dropped
    | (l, some c1) =>
      if beDec l = 0 then nals v cap nb hdr f c1 st
      else
        match copy 1 c1 with
        | ([t], some c2) =>
          let ty := t.toNat % 32
          if 7 ≤ ty ∧ ty ≤ 9 then
            match copy (beDec l - 1) c2 with
            | (_, none) => .error
            | (_, some c3) => nals v cap nb hdr f c3 st
          else
            match before cap hdr ty st with
            | none => .overflow
            | some st1 =>
              if cap < st1.out.length + 5 then .dropped
              else
                match put cap st1.out (startCode st1.out t) with
                | none => .overflow
                | some out2 =>
                  if cap < out2.length + beDec l then .dropped
                  else
                    match put cap out2 (copy (beDec l - 1) c2).1, (copy (beDec l - 1) c2).2 with
                    | none, _ => .overflow
                    | some _, none => if v.logs then .crash else .error
                    | some out3, some c3 => nals v cap nb hdr f c3 { st1 with out := out3 }
        | _ => .dropped

/-- hls/ngx_rtmp_hls_module.c:2068-2264 (mpegts/ngx_mpegts_live_module.c:1212-1345, ngx_live_record.c:888-1060): the payload of a video message to the access unit. The
checks for codec, pause and the state of the file are not part of the model. First component: frame type, composition time (24 bits, as the code reads them). -/
def video (v : Variant) (cap nb : Nat) (hdr msg : Cur) : Option (Nat × Nat) × Res :=
  match copy 1 msg with
  | (_, none) => (none, .error)
  | (fmt, some c1) =>
    match copy 1 c1 with
    | (_, none) => (none, .error)
    | (ht, some c2) =>
      if v.htype = true ∧ ht ≠ [1] then (none, .dropped)
      else
        match copy 3 c2 with
        | (_, none) => (none, .error)
        | (cts, some c3) => (some (beDec fmt / 16, beDec cts), nals v cap nb hdr (c3.flatten.length + 1) c3 {})

/-- hls/ngx_rtmp_hls_module.c:2268-2274 (mpegts/ngx_mpegts_live_module.c:1355-1362, ngx_live_record.c:1085-1094): dts and pts of the frame. -/
def times (v : Variant) (ts cts : Nat) : Nat × Nat :=
  (ts * 90, if v.pts32 then (ts + cts) * 90 % 2 ^ 32 else ts * 90 + cts * 90 % 2 ^ 32)

end Verif.Annex
