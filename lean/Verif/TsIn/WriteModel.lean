import Verif.TsIn.ReadModel
/-
Model of the MPEG-TS writer of nginx-ts-module, src/ngx_ts_stream.c:59-124, 936-1364 and 1446-1459.

A chain of buffers is a list of lists of bytes. Memory can be had, so `NULL` is not returned; buffers taken from `ts->free` are written over entirely.
`ngx_ts_packetize` need not end, so it has a number of packets after which there is no result yet.
-/
namespace Verif.TsIn
open Verif

/-! ### CRC -/

/-- `ngx_ts_crc32_table_ieee` (:59-124), copied from the source text. -/
def crcTableIeee : List (BitVec 32) :=
  [0x00000000, 0xb71dc104, 0x6e3b8209, 0xd926430d, 0xdc760413, 0x6b6bc517, 0xb24d861a, 0x0550471e,
   0xb8ed0826, 0x0ff0c922, 0xd6d68a2f, 0x61cb4b2b, 0x649b0c35, 0xd386cd31, 0x0aa08e3c, 0xbdbd4f38,
   0x70db114c, 0xc7c6d048, 0x1ee09345, 0xa9fd5241, 0xacad155f, 0x1bb0d45b, 0xc2969756, 0x758b5652,
   0xc836196a, 0x7f2bd86e, 0xa60d9b63, 0x11105a67, 0x14401d79, 0xa35ddc7d, 0x7a7b9f70, 0xcd665e74,
   0xe0b62398, 0x57abe29c, 0x8e8da191, 0x39906095, 0x3cc0278b, 0x8bdde68f, 0x52fba582, 0xe5e66486,
   0x585b2bbe, 0xef46eaba, 0x3660a9b7, 0x817d68b3, 0x842d2fad, 0x3330eea9, 0xea16ada4, 0x5d0b6ca0,
   0x906d32d4, 0x2770f3d0, 0xfe56b0dd, 0x494b71d9, 0x4c1b36c7, 0xfb06f7c3, 0x2220b4ce, 0x953d75ca,
   0x28803af2, 0x9f9dfbf6, 0x46bbb8fb, 0xf1a679ff, 0xf4f63ee1, 0x43ebffe5, 0x9acdbce8, 0x2dd07dec,
   0x77708634, 0xc06d4730, 0x194b043d, 0xae56c539, 0xab068227, 0x1c1b4323, 0xc53d002e, 0x7220c12a,
   0xcf9d8e12, 0x78804f16, 0xa1a60c1b, 0x16bbcd1f, 0x13eb8a01, 0xa4f64b05, 0x7dd00808, 0xcacdc90c,
   0x07ab9778, 0xb0b6567c, 0x69901571, 0xde8dd475, 0xdbdd936b, 0x6cc0526f, 0xb5e61162, 0x02fbd066,
   0xbf469f5e, 0x085b5e5a, 0xd17d1d57, 0x6660dc53, 0x63309b4d, 0xd42d5a49, 0x0d0b1944, 0xba16d840,
   0x97c6a5ac, 0x20db64a8, 0xf9fd27a5, 0x4ee0e6a1, 0x4bb0a1bf, 0xfcad60bb, 0x258b23b6, 0x9296e2b2,
   0x2f2bad8a, 0x98366c8e, 0x41102f83, 0xf60dee87, 0xf35da999, 0x4440689d, 0x9d662b90, 0x2a7bea94,
   0xe71db4e0, 0x500075e4, 0x892636e9, 0x3e3bf7ed, 0x3b6bb0f3, 0x8c7671f7, 0x555032fa, 0xe24df3fe,
   0x5ff0bcc6, 0xe8ed7dc2, 0x31cb3ecf, 0x86d6ffcb, 0x8386b8d5, 0x349b79d1, 0xedbd3adc, 0x5aa0fbd8,
   0xeee00c69, 0x59fdcd6d, 0x80db8e60, 0x37c64f64, 0x3296087a, 0x858bc97e, 0x5cad8a73, 0xebb04b77,
   0x560d044f, 0xe110c54b, 0x38368646, 0x8f2b4742, 0x8a7b005c, 0x3d66c158, 0xe4408255, 0x535d4351,
   0x9e3b1d25, 0x2926dc21, 0xf0009f2c, 0x471d5e28, 0x424d1936, 0xf550d832, 0x2c769b3f, 0x9b6b5a3b,
   0x26d61503, 0x91cbd407, 0x48ed970a, 0xfff0560e, 0xfaa01110, 0x4dbdd014, 0x949b9319, 0x2386521d,
   0x0e562ff1, 0xb94beef5, 0x606dadf8, 0xd7706cfc, 0xd2202be2, 0x653deae6, 0xbc1ba9eb, 0x0b0668ef,
   0xb6bb27d7, 0x01a6e6d3, 0xd880a5de, 0x6f9d64da, 0x6acd23c4, 0xddd0e2c0, 0x04f6a1cd, 0xb3eb60c9,
   0x7e8d3ebd, 0xc990ffb9, 0x10b6bcb4, 0xa7ab7db0, 0xa2fb3aae, 0x15e6fbaa, 0xccc0b8a7, 0x7bdd79a3,
   0xc660369b, 0x717df79f, 0xa85bb492, 0x1f467596, 0x1a163288, 0xad0bf38c, 0x742db081, 0xc3307185,
   0x99908a5d, 0x2e8d4b59, 0xf7ab0854, 0x40b6c950, 0x45e68e4e, 0xf2fb4f4a, 0x2bdd0c47, 0x9cc0cd43,
   0x217d827b, 0x9660437f, 0x4f460072, 0xf85bc176, 0xfd0b8668, 0x4a16476c, 0x93300461, 0x242dc565,
   0xe94b9b11, 0x5e565a15, 0x87701918, 0x306dd81c, 0x353d9f02, 0x82205e06, 0x5b061d0b, 0xec1bdc0f,
   0x51a69337, 0xe6bb5233, 0x3f9d113e, 0x8880d03a, 0x8dd09724, 0x3acd5620, 0xe3eb152d, 0x54f6d429,
   0x7926a9c5, 0xce3b68c1, 0x171d2bcc, 0xa000eac8, 0xa550add6, 0x124d6cd2, 0xcb6b2fdf, 0x7c76eedb,
   0xc1cba1e3, 0x76d660e7, 0xaff023ea, 0x18ede2ee, 0x1dbda5f0, 0xaaa064f4, 0x738627f9, 0xc49be6fd,
   0x09fdb889, 0xbee0798d, 0x67c63a80, 0xd0dbfb84, 0xd58bbc9a, 0x62967d9e, 0xbbb03e93, 0x0cadff97,
   0xb110b0af, 0x060d71ab, 0xdf2b32a6, 0x6836f3a2, 0x6d66b4bc, 0xda7b75b8, 0x035d36b5, 0xb440f7b1]

/-- A round of the loop of `ngx_ts_crc32` (:1453-1455); the index is a byte, so the access is in range (`ieee_get` in `WriteLemmas`). -/
def crcStep (crc : BitVec 32) (b : UInt8) : BitVec 32 :=
  (crcTableIeee[((crc ^^^ b.toBitVec.setWidth 32) &&& 0xff#32).toNat]?.getD 0) ^^^ (crc >>> 8)

/-- `ngx_ts_crc32` (:1446-1459) -/
def crcIeee (d : Bytes) : BitVec 32 := d.foldl crcStep 0xffffffff#32

/-- The CRC as it is written (:999-1002, :1089-1092) -/
def crcBytes (crc : BitVec 32) : Bytes :=
  [⟨crc.setWidth 8⟩, ⟨(crc >>> 8).setWidth 8⟩, ⟨(crc >>> 16).setWidth 8⟩, ⟨(crc >>> 24).setWidth 8⟩]

/-! ### Packets -/

/-- `ngx_ts_header_t` as the writer uses it (:22-29); `pcr` if `pcrf`. -/
structure WHead where
  pid : Nat
  cont : Nat := 0
  rand : Bool := false
  pcr : Option Nat := none
  stuff : Bool := false

/-- The clock (:1304-1317) -/
def pcrBytes (pcr : Nat) : Bytes :=
  let pcrb := pcr / 300
  let pcre := pcr % 300
  [UInt8.ofNat (pcrb / 2 ^ 25), UInt8.ofNat (pcrb / 2 ^ 17), UInt8.ofNat (pcrb / 2 ^ 9), UInt8.ofNat (pcrb / 2),
   UInt8.ofNat (pcrb * 128) ||| UInt8.ofNat (pcre / 256 % 2), UInt8.ofNat pcre]

/-- The loop over data bytes (:1334-1351) for `room` bytes up to the end of the packet: the bytes of the chain, how many bytes 0xff
follow, and the chain after that, which is empty when `in` is NULL. -/
def fill : Nat → List Bytes → Bytes × Nat × List Bytes
  | room, [] => ([], room, [])
  | room, b :: r =>
    if room = 0 then ([], 0, b :: r)
    else if b.length ≤ room then
      (if r = [] then (b, room - b.length, [])
       else
        let x := fill (room - b.length) r
        (b ++ x.1, x.2))
    else (b.take room, 0, b.drop room :: r)

/-- The adaptation field after its length, without stuffing (:1297-1320) -/
def adaptation (h : WHead) : Bytes :=
  ((if h.rand then 0x40 else 0x00) ||| (if h.pcr.isSome then 0x10 else 0x00)) :: (match h.pcr with | some v => pcrBytes v | none => [])

/-- One packet (:1279-1354): its bytes, and the chain and `left` after it -/
def packet (h : WHead) (first : Bool) (left : Nat) (c : List Bytes) : Bytes × List Bytes × Nat :=
  let start := [0x47, (if first then 0x40 else 0x00) ||| UInt8.ofNat (h.pid / 256), UInt8.ofNat h.pid]
  if h.rand || h.pcr.isSome || (h.stuff && left < 184) then
    let af := adaptation h
    let room := 188 - 5 - af.length
    let n := if h.stuff && left < room then room - left else 0
    let x := fill (room - n) c
    (start ++ [0x10 ||| UInt8.ofNat h.cont ||| 0x20, UInt8.ofNat (af.length + n)] ++ af ++ List.replicate n 0xff ++ x.1 ++ List.replicate x.2.1 0xff,
      x.2.2, left - x.1.length)
  else
    let x := fill 184 c
    (start ++ [0x10 ||| UInt8.ofNat h.cont] ++ x.1 ++ List.replicate x.2.1 0xff, x.2.2, left - x.1.length)

/-- The loop of `ngx_ts_packetize` (:1253-1359), at most `n` rounds of it: the packets, and `h->cont` then -/
def rounds : Nat → WHead → Bool → Nat → List Bytes → Option (List Bytes × Nat)
  | 0, _, _, _, _ => none
  | n + 1, h, first, left, c =>
    let x := packet h first left c
    let cont := (h.cont + 1) % 16
    if x.2.1 = [] then some ([x.1], cont)
    else (rounds n { h with cont := cont, rand := false, pcr := none } false x.2.2 x.2.1).map fun y => (x.1 :: y.1, y.2)

/-- `ngx_ts_packetize` (:1234-1364) with at most `n` packets -/
def packetize (n : Nat) (h : WHead) (c : List Bytes) : Option (List Bytes × Nat) := rounds n h true c.flatten.length c

/-! ### Tables -/

/-- A section (:962-1002, :1039-1092): pointer field, `table_id`, length, what follows, CRC -/
def sectionData (table len : Nat) (body : Bytes) : Bytes :=
  let d := [UInt8.ofNat table, 0x80 ||| UInt8.ofNat (len / 256), UInt8.ofNat len] ++ body
  0 :: d ++ crcBytes (crcIeee d)

/-- A program in the PAT (:987-995) -/
def progData (p : Prog) : Bytes := [UInt8.ofNat (p.number / 256), UInt8.ofNat p.number, UInt8.ofNat (p.pid / 256), UInt8.ofNat p.pid]

/-- `ngx_ts_write_pat` (:936-1017) for the programs it is to tell: one, or all (:947-953) -/
def writePat (n : Nat) (progs : List Prog) : Option (List Bytes × Nat) :=
  packetize n { pid := 0 } [sectionData 0 (9 + progs.length * 4) ([0, 0, 0x01, 0, 0] ++ progs.flatMap progData)]

/-- A stream in the PMT (:1072-1085) -/
def esData (e : Es) : Bytes := [UInt8.ofNat e.type, UInt8.ofNat (e.pid / 256), UInt8.ofNat e.pid, 0, 0]

/-- `ngx_ts_write_pmt` (:1020-1109) -/
def writePmt (n : Nat) (p : Prog) : Option (List Bytes × Nat) :=
  packetize n { pid := p.pid } [sectionData 2 (13 + 5 * p.es.length)
    ([UInt8.ofNat (p.number / 256), UInt8.ofNat p.number, 0x01, 0, 0, UInt8.ofNat (p.pcrPid / 256), UInt8.ofNat p.pcrPid, 0, 0] ++ p.es.flatMap esData)]

/-! ### PES packets -/

/-- A time stamp (:1164-1169, :1175-1187) -/
def stamp (first : UInt8) (t : Nat) : Bytes :=
  [first ||| (UInt8.ofNat (t / 2 ^ 29) &&& 0x0e), UInt8.ofNat (t / 2 ^ 22), 0x01 ||| UInt8.ofNat (t / 2 ^ 14), UInt8.ofNat (t / 2 ^ 7), 0x01 ||| UInt8.ofNat (t * 2)]

/-- The optional header (:1138-1189) -/
def optData (e : Es) : Bytes :=
  if e.sid = 0xbc || e.sid = 0xbe || e.sid = 0xbf || e.sid = 0xf0 || e.sid = 0xf1 || e.sid = 0xff || e.sid = 0xf2 || e.sid = 0xf8 then []
  else if e.pts = e.dts then [0x80, 0x80, 5] ++ stamp 0x21 e.pts
  else [0x80, 0xc0, 10] ++ stamp 0x31 e.pts ++ stamp 0x11 e.dts

/-- The start of a PES packet (:1123-1199) -/
def pesData (e : Es) (data : Nat) : Bytes :=
  let len := (optData e).length + data
  [0, 0, 1, UInt8.ofNat e.sid] ++ (if len ≤ 0xffff then [UInt8.ofNat (len / 256), UInt8.ofNat len] else [0, 0]) ++ optData e

/-- `ngx_ts_write_pes` (:1112-1231): the packets and `es->cont` then -/
def writePes (n : Nat) (p : Prog) (e : Es) (bufs : List Bytes) : Option (List Bytes × Nat) :=
  packetize n { pid := e.pid, rand := e.rand, cont := e.cont, stuff := true, pcr := if p.pcrPid = e.pid then some p.pcr else none }
    (pesData e bufs.flatten.length :: bufs)

/-- Units written one after another with `ngx_ts_write_pes` (ngx_ts_hls.c:319, for instance), which keeps `es->cont` (:1215, :1228); `k` has `es->cont` of each PID. -/
def writeEach (n : Nat) : (Nat → Nat) → List (Prog × Es × List Bytes) → Option (List Bytes × (Nat → Nat))
  | k, [] => some ([], k)
  | k, (P, e, b) :: us =>
    (writePes n P { e with cont := k e.pid } b).bind fun r => (writeEach n (fun q => if q = e.pid then r.2 else k q) us).map fun x => (r.1 ++ x.1, x.2)

end Verif.TsIn
