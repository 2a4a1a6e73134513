import Verif.Rtmp.ChunkModel
/- Specifications used by C02 and C10. -/
namespace Verif.Send
open Verif Verif.Chunk

/-- Specification of packing: `Packed c out bs` says that `out` is the byte string `bs` cut into pieces of exactly
`c` bytes, the last one shorter or equal, and not empty unless it is the only one. -/
inductive Packed (c : Nat) : List Bytes → Bytes → Prop
  | last (b : Bytes) : b.length ≤ c → Packed c [b] b
  | cons (b : Bytes) (r : List Bytes) (bs : Bytes) : b.length = c → bs ≠ [] → Packed c r bs → Packed c (b :: r) (b ++ bs)

/-- A message that may be sent. -/
structure OkMsg (cfg : Cfg) (m : Msg) : Prop where
  c2 : 2 ≤ m.hdr.csid
  cb : m.hdr.csid < 65600
  cm : m.hdr.csid < cfg.maxStreams
  ts : m.hdr.ts < 2 ^ 32
  type : m.hdr.type < 256
  msid : m.hdr.msid < 2 ^ 32
  mlen : m.hdr.mlen = m.payload.length
  small : m.payload.length < 2 ^ 24
  max : m.payload.length ≤ cfg.maxMessage

instance (cfg : Cfg) (m : Msg) : Decidable (OkMsg cfg m) :=
  decidable_of_iff (2 ≤ m.hdr.csid ∧ m.hdr.csid < 65600 ∧ m.hdr.csid < cfg.maxStreams ∧ m.hdr.ts < 2 ^ 32 ∧ m.hdr.type < 256 ∧
    m.hdr.msid < 2 ^ 32 ∧ m.hdr.mlen = m.payload.length ∧ m.payload.length < 2 ^ 24 ∧ m.payload.length ≤ cfg.maxMessage)
    ⟨fun ⟨a, b, c, d, e, f, g, h, i⟩ => ⟨a, b, c, d, e, f, g, h, i⟩, fun h => ⟨h.1, h.2, h.3, h.4, h.5, h.6, h.7, h.8, h.9⟩⟩

end Verif.Send
