import Verif.Ts.CrcModel
import Verif.Ts.PacketModel
/-
Model of the segment file writer: `ngx_rtmp_mpegts_write_file` (hls/ngx_rtmp_mpegts.c:214-299), `write_header` (:302-321),
`init_encryption` (:485-507), `open_file` (:510-535) and `close_file` (:538-558).

The block cipher is a parameter `enc` on 16-byte blocks (AES itself is not modelled); `AES_cbc_encrypt` is cipher block chaining
over it. The result of each `ngx_write_fd` is decided by an environment `io`: `none` is -1, `some k` means `k` bytes were
written. Not modelled: opening failures, the `whandle` variant used by the recorder, `file_size`.
-/
namespace Verif.Ts
open Verif

/-- Result of the `i`-th `write` of `n` bytes. -/
abbrev Io := Nat → Nat → Option Nat

/-- `AES_cbc_encrypt(in, out, n, key, iv, AES_ENCRYPT)` for `n` a multiple of 16: output and updated `iv`. (A trailing
partial block would be padded by OpenSSL; it is left out here and never occurs, see `loop_spec`: the arguments are whole blocks.) -/
def cbc (enc : Bytes → Bytes) (iv : Bytes) (data : Bytes) : Bytes × Bytes :=
  if h : data.length < 16 then ([], iv)
  else
    let c := enc (List.zipWith (· ^^^ ·) iv (data.take 16))
    let r := cbc enc c (data.drop 16)
    (c ++ r.1, r.2)
termination_by data.length
decreasing_by simp only [List.length_drop]; omega

/-- `ngx_rtmp_mpegts_file_t` (hls/ngx_rtmp_mpegts.h:23-36) with the contents of the file. `buf` is the filled part of
`file->buf`, `file->size` is its length. -/
structure File where
  encrypt : Bool
  buf : Bytes
  iv : Bytes
  out : Bytes
  writes : Nat
deriving DecidableEq, Repr

/-- `ngx_write_fd(file->fd, b, n)`: false for -1. A short count is not looked at (hls/ngx_rtmp_mpegts.c:231-234, :280-283). -/
def File.writeFd (io : Io) (f : File) (b : Bytes) : File × Bool :=
  match io f.writes b.length with
  | none => ({ f with writes := f.writes + 1 }, false)
  | some k => ({ f with out := f.out ++ b.take k, writes := f.writes + 1 }, true)

/-- The loop (hls/ngx_rtmp_mpegts.c:264-289). `pend` are the bytes between `buf` and `out`. Returns the unconsumed input, or
`none` for NGX_ERROR. -/
def File.loop (enc : Bytes → Bytes) (io : Io) (f : File) (pend inp : Bytes) : File × Option Bytes :=
  if h : inp.length / 16 * 16 > 0 ∧ pend.length < 1024 then
    let n := min (inp.length / 16 * 16) (1024 - pend.length)
    let c := cbc enc f.iv (inp.take n)
    let w := ({ f with iv := c.2 } : File).writeFd io (pend ++ c.1)
    if w.2 then w.1.loop enc io [] (inp.drop n) else (w.1, none)
  else if h2 : pend = [] then (f, some inp)
  else
    let w := f.writeFd io pend
    if w.2 then w.1.loop enc io [] inp else (w.1, none)
termination_by (inp.length, pend.length)
decreasing_by
  · rw [Prod.lex_def]; left; simp only [List.length_drop]; omega
  · rw [Prod.lex_def]; right
    refine ⟨rfl, ?_⟩
    simpa using List.length_pos_iff.2 h2

/-- `ngx_rtmp_mpegts_write_file` (hls/ngx_rtmp_mpegts.c:214-299) -/
def File.write (enc : Bytes → Bytes) (io : Io) (f : File) (inp : Bytes) : File × Bool :=
  if !f.encrypt then f.writeFd io inp
  else
    let s : File × Bytes × Bytes :=
      if f.buf.length > 0 ∧ f.buf.length + inp.length ≥ 16 then
        let k := 16 - f.buf.length
        let c := cbc enc f.iv (f.buf ++ inp.take k)
        ({ f with iv := c.2, buf := [] }, c.1, inp.drop k)
      else (f, [], inp)
    match s.1.loop enc io s.2.1 s.2.2 with
    | (f, none) => (f, false)
    | (f, some rest) => ({ f with buf := f.buf ++ rest }, true)

/-- `ngx_rtmp_mpegts_init_encryption` (hls/ngx_rtmp_mpegts.c:485-507): the initialisation vector. -/
def ivOf (iv : Nat) : Bytes :=
  List.replicate 8 (0 : UInt8) ++
  [UInt8.ofNat (iv >>> 56), UInt8.ofNat (iv >>> 48), UInt8.ofNat (iv >>> 40), UInt8.ofNat (iv >>> 32),
   UInt8.ofNat (iv >>> 24), UInt8.ofNat (iv >>> 16), UInt8.ofNat (iv >>> 8), UInt8.ofNat iv]

/-- Successive writes, stopping at the first error as `write_header` and `write_frame` do
(hls/ngx_rtmp_mpegts.c:308-320, :476-479). -/
def File.writeAll (enc : Bytes → Bytes) (io : Io) (f : File) : List Bytes → File × Bool
  | [] => (f, true)
  | b :: bs =>
    match f.write enc io b with
    | (f, true) => f.writeAll enc io bs
    | (f, false) => (f, false)

/-- `ngx_rtmp_mpegts_open_file` (hls/ngx_rtmp_mpegts.c:510-535) on a new file: `size = 0`, PAT and PMT. -/
def File.open (enc : Bytes → Bytes) (io : Io) (encrypt : Bool) (keyId : Nat) (hevc vcodec acodec : Int) : File × Bool :=
  let f : File := { encrypt, buf := [], iv := ivOf keyId, out := [], writes := 0 }
  match genPmt hevc vcodec acodec with
  | none => ((f.write enc io pat).1, false)
  | some pmt => f.writeAll enc io [pat, pmt]

/-- `ngx_rtmp_mpegts_close_file` (hls/ngx_rtmp_mpegts.c:538-558) -/
def File.close (enc : Bytes → Bytes) (io : Io) (f : File) : File × Bool :=
  if f.encrypt then
    let k := 16 - f.buf.length
    let c := cbc enc f.iv (f.buf ++ List.replicate k (UInt8.ofNat k))
    ({ f with iv := c.2 } : File).writeFd io c.1
  else (f, true)

end Verif.Ts
