import Verif.Base.Bytes
/-
Model of modules/nginx-rtmp-module/ngx_rtmp_bitop.c (MSB-first bit reader).
-/
namespace Verif.BitOp

/-- `ngx_rtmp_bit_reader_t` (ngx_rtmp_bitop.h:16-21). `data` is the memory `pos..last`;
`offs` is kept below 8 by the code (it is reset whenever it reaches 8, ngx_rtmp_bitop.c:45-48),
hence `Fin 8`. -/
structure Reader where
  data : Bytes
  offs : Fin 8
  err  : Bool
deriving DecidableEq, Repr

/-- `ngx_rtmp_bit_init_reader` (ngx_rtmp_bitop.c:12-19). -/
def init (data : Bytes) : Reader := ⟨data, 0, false⟩

/-- The `while (n)` loop of `ngx_rtmp_bit_read` (ngx_rtmp_bitop.c:30-49). `v` is the `uint64_t`
accumulator: the shift and the addition wrap at 2^64. -/
def readLoop (br : Reader) (v n : Nat) : Nat × Reader :=
  if hn : n = 0 then (v, br) else
  match br.data with
  | [] => (0, { br with err := true })
  | b :: rest =>
    let d := if br.offs.val + n > 8 then 8 - br.offs.val else n
    let v' := ((v <<< d) + ((b.toNat >>> (8 - br.offs.val - d)) &&& (0xff >>> (8 - d)))) % 2 ^ 64
    if br.offs.val + d = 8 then
      readLoop { br with data := rest, offs := 0 } v' (n - d)
    else
      readLoop { br with offs := Fin.ofNat 8 (br.offs.val + d) } v' (n - d)
termination_by n
decreasing_by
  all_goals
    have := br.offs.isLt
    split <;> omega

/-- `ngx_rtmp_bit_read` (ngx_rtmp_bitop.c:22-52). -/
def read (br : Reader) (n : Nat) : Nat × Reader := readLoop br 0 n

/-- The counting loop of `ngx_rtmp_bit_read_golomb` (ngx_rtmp_bitop.c:60): number of
zero bits skipped, and the reader after the stop bit. It stops on error, and the reader fails
once the data is used up; the recursion is on an upper bound of the bits left plus one. -/
def zerosLoop : Nat → Reader → Nat → Nat × Reader
  | 0, br, n => (n, br)
  | fuel+1, br, n =>
    let r := read br 1
    if r.1 = 0 ∧ r.2.err = false then zerosLoop fuel r.2 (n + 1) else (n, r.2)

/-- `ngx_rtmp_bit_read_golomb` (ngx_rtmp_bitop.c:55-63). `none` is undefined behaviour:
`(uint64_t) 1 << n` with `n >= 64`. -/
def readGolomb (br : Reader) : Option (Nat × Reader) :=
  let z := zerosLoop (8 * br.data.length + 1) br 0
  if z.1 ≥ 64 then none
  else
    let r := read z.2 z.1
    some (((1 <<< z.1) + r.1 + 2 ^ 64 - 1) % 2 ^ 64, r.2)

end Verif.BitOp
