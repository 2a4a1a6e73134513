import Verif.Codec.Model
/-
Model of how the HEVC header is read: ngx_rtmp_codec_module.c:386-788.
-/
namespace Verif.Codec
open Verif Verif.BitOp

/-- `br.err` -/
def failed : Rd Bool := fun s => some (s.br.err, s)

/-- What may be undefined -/
def lift {α : Type} (o : Option α) : Rd α := fun s => o.map fun a => (a, s)

/-- The loop of `ngx_rtmp_codec_parse_hevc_nal_to_rbsp` (ngx_rtmp_codec_module.c:442-473): `n` bytes are still to be taken from memory `mem`, `z` zeros are before, `out` is in the buffer of
4096 bytes. The outer `none`: an access outside the message or the buffer; the inner: NGX_ERROR. -/
def rbspLoop : Nat → Bytes → Nat → Bytes → Option (Option Bytes)
  | 0, _, _, out => some (some out)
  | _ + 1, [], _, _ => none
  | n + 1, b :: rest, z, out =>
    if z = 2 ∧ b.toNat < 3 then some none
    else if z = 2 ∧ b.toNat = 3 then
      match rest with
      | [] => none
      | x :: _ => if 3 < x.toNat then some none else rbspLoop n rest 0 out
    else if 4096 ≤ out.length then none
    else rbspLoop n rest (if b = 0 then z + 1 else 0) (out ++ [b])

/-- `ngx_rtmp_codec_parse_hevc_nal_to_rbsp` (:389-474) of a unit of `len` bytes at the start of `mem`, the message from there on. The reader ends after `len` bytes, even if they are not there.
After the header the loop takes `len` bytes again. -/
def toRbsp (mem : Bytes) (len : Nat) : Option (Option Bytes) :=
  match len, mem with
  | 0, _ => some none
  | _ + 1, [] => none
  | 1, b :: rest => if b.toNat >>> 1 &&& 0x3f ≠ 33 then some none else rbspLoop 1 rest 0 []
  | len + 2, b :: rest =>
    if b.toNat >>> 1 &&& 0x3f ≠ 33 then some none
    else
      match rest with
      | [] => none
      | _ :: rest => rbspLoop (len + 2) rest 0 []

/-- Flags of sub-layers (:531-537) -/
def subFlags : Nat → Rd (List (Nat × Nat))
  | 0 => pure []
  | k + 1 => do
    let p ← u 1
    let l ← u 1
    let r ← subFlags k
    pure ((p, l) :: r)

/-- Sub-layers (:557-565) -/
def subLayers : List (Nat × Nat) → Rd Unit
  | [] => pure ()
  | f :: r => do
    let _ ← onlyIf (f.1 != 0) (u 88) 0
    let _ ← onlyIf (f.2 != 0) (u 8) 0
    subLayers r

/-- `ngx_rtmp_codec_parse_hevc_ptl` (:479-566), called with the flag set; `k` is below 8 -/
def hevcPtl (k : Nat) : Rd Unit := do
  let _ ← u 88
  let _ ← u 8
  let f ← subFlags k
  let _ ← onlyIf (k != 0) (times (u 2) (8 - k)) ()
  subLayers f

/-- `w - (sub * r + 1) - (sub * l)` of `ngx_uint_t` (:685-686) -/
def window64 (w sub l r : Nat) : Nat := ((w : Int) - ((sub * r : Nat) + 1) - (sub * l : Nat)) % (2 ^ 64 : Nat) |>.toNat

/-- SubWidthC and SubHeightC (:663-672) -/
def subSampling (cfi : Nat) : Nat × Nat := if cfi = 1 then (2, 2) else if cfi = 2 then (2, 1) else (1, 1)

/-- The conformance window (:654-690) -/
def hevcWindow (cfi w h : Nat) : Rd (Nat × Nat) := do
  let f ← u 1
  if f = 0 then pure (w, h)
  else do
    let l ← ue
    let r ← ue
    let t ← ue
    let b ← ue
    pure (window64 w (subSampling cfi).1 l r, window64 h (subSampling cfi).2 t b)

/-- `ngx_rtmp_codec_parse_hevc_sps` (:571-693), from the bytes of the set on; `none` in the result if it returns before the size is known -/
def hevcSps : Rd (Option (Nat × Nat)) := do
  let _ ← u 4
  let k ← u 3
  let _ ← u 1
  let _ ← hevcPtl k
  let psi ← ue
  let e ← failed
  if 16 < psi ∨ e = true then pure none
  else do
    let cfi ← ue
    let e ← failed
    if 3 < cfi ∨ e = true then pure none
    else do
      let _ ← onlyIf (cfi == 3) (u 1) 0
      let w ← ue
      let e ← failed
      if e then pure none
      else do
        let h ← ue
        let e ← failed
        if e then pure none
        else do
          let x ← hevcWindow cfi w h
          pure (some x)

/-- `ngx_rtmp_codec_parse_hevc_sps` (:571-693) -/
def hevcNal (mem : Bytes) (len : Nat) (c : Ctx) : Option Ctx :=
  (toRbsp mem len).bind fun r =>
    match r with
    | none => some c
    | some d => (parse hevcSps d).map fun x => match x.1 with | none => c | some (w, h) => { c with width := w, height := h }

/-- The NAL units of an array (:763-778) -/
def hevcNals (type : Nat) : Nat → Ctx → Rd Ctx
  | 0, c => pure c
  | n + 1, c => do
    let len ← u 16
    let s ← get
    let c ← lift (if type = 33 then hevcNal s.br.data len c else some c)
    let _ ← u (len * 8)
    hevcNals type n c

/-- The arrays (:751-779) -/
def hevcArrays : Nat → Ctx → Rd Ctx
  | 0, c => pure c
  | n + 1, c => do
    let t ← u 8
    let k ← u 16
    let c ← hevcNals (t % 64) k c
    hevcArrays n c

/-- `ngx_rtmp_codec_parse_hevc_header` (:695-788) -/
def hevcRead (c : Ctx) : Rd Ctx := do
  let _ ← u 48
  let _ ← u 160
  let nb ← u 8
  let n ← u 8
  hevcArrays n { c with nalBytes := nb % 4 + 1 }

def hevcHeader (c : Ctx) (first : Bytes) : Option Ctx := (parse (hevcRead c) first).map (·.1)

end Verif.Codec
