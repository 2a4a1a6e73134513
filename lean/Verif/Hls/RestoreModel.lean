import Verif.Hls.FragModel
/-
The text of an HLS playlist and reading it back: modules/nginx-rtmp-module/hls/ngx_rtmp_hls_module.c. Bytes are `Char`.
-/
namespace Verif.HlsRestore
open Verif.HlsFrag

abbrev Text := List Char

/-- `%uL`, `%ui` of ngx_slprintf (nginx core, not in the repository): decimal digits; `fuel` is enough for numbers up to 10^fuel. -/
def decGo : Nat → Nat → Text
  | 0, _ => []
  | fuel + 1, n => if n < 10 then [Char.ofNat (48 + n)] else decGo fuel (n / 10) ++ [Char.ofNat (48 + n % 10)]

def dec (n : Nat) : Text := decGo (n + 1) n

def hexDigit (n : Nat) : Char := if n < 10 then Char.ofNat (48 + n) else Char.ofNat (55 + n)

/-- `%0kXL`: `k` upper case hexadecimal digits, enough for the number. -/
def hex : Nat → Nat → Text
  | 0, _ => []
  | k + 1, n => hex k (n / 16) ++ [hexDigit (n % 16)]

/-- `%.3f`: ngx_slprintf rounds the fraction half up and carries. -/
def fixed3 (ticks : Nat) : Text :=
  let ms := (ticks + 45) / 90
  dec (ms / 1000) ++ '.' :: [Char.ofNat (48 + ms / 100 % 10), Char.ofNat (48 + ms / 10 % 10), Char.ofNat (48 + ms % 10)]

/-- What of the configuration goes into the text: hls/ngx_rtmp_hls_module.c:92-117. -/
structure Names where
  keys : Bool := false
  event : Bool := false
  nested : Bool := false
  baseUrl : Text := []
  keyUrl : Text := []
  name : Text

/-- hls/ngx_rtmp_hls_module.c:544-556: what comes before the number of a file. -/
def prefixOf (nested : Bool) (url name : Text) : Text :=
  url ++ (if nested = false ∨ url ≠ [] then name else []) ++ (if nested = true then (if url ≠ [] then ['/'] else []) else ['-'])

/-- hls/ngx_rtmp_hls_module.c:520-534. -/
def header (c : Names) (p : Playlist) : Text :=
  ("#EXTM3U\n#EXT-X-VERSION:3\n#EXT-X-MEDIA-SEQUENCE:".toList ++ dec p.seq ++ "\n#EXT-X-TARGETDURATION:".toList ++ dec p.target ++ "\n".toList ++
    (if c.event = true then "#EXT-X-PLAYLIST-TYPE: EVENT\n".toList else [])).take 1024

/-- hls/ngx_rtmp_hls_module.c:561-582: an entry; `newKey`: a key line is needed. What does not fit into 1024 bytes is left out. -/
def entry (c : Names) (newKey : Bool) (f : Frag) : Text :=
  ((if f.discont = true then "#EXT-X-DISCONTINUITY\n".toList else []) ++
   (if c.keys = true ∧ newKey = true then
      "#EXT-X-KEY:METHOD=AES-128,URI=\"".toList ++ prefixOf c.nested c.keyUrl c.name ++ dec f.keyId ++ ".key\",IV=0x".toList ++ hex 32 f.keyId ++ "\n".toList
    else []) ++
   "#EXTINF:".toList ++ fixed3 f.dur ++ ",\n".toList ++ prefixOf c.nested c.baseUrl c.name ++ dec f.id ++ ".ts\n".toList).take 1024

/-- hls/ngx_rtmp_hls_module.c:558-597; `prev`: the key of the entry before. -/
def entries (c : Names) : Option Nat → List Frag → Text
  | _, [] => []
  | prev, f :: fs => entry c (decide (prev ≠ some f.keyId)) f ++ entries c (some f.keyId) fs

/-- hls/ngx_rtmp_hls_module.c:482-613. -/
def render (c : Names) (p : Playlist) : Text := header c p ++ entries c none p.entries

/-- What `restore_stream` keeps between lines: hls/ngx_rtmp_hls_module.c:1147-1152. -/
structure R where
  st : St
  dur : Nat := 0
  discont : Bool := false
  keyId : Nat := 0

def digit? (c : Char) : Option Nat := if '0' ≤ c ∧ c ≤ '9' then some (c.toNat - 48) else none

/-- The integer part of a number for `strtod`, and what follows it. Exact, although a double has 53 bits; white space, signs, exponents, "0x", "inf" and "nan" are not modelled. -/
def intPart (acc : Nat) : Text → Nat × Text
  | [] => (acc, [])
  | c :: cs => match digit? c with
    | some d => intPart (acc * 10 + d) cs
    | none => (acc, c :: cs)

/-- The fraction in units of `unit`; smaller digits are ignored. -/
def fraction (unit : Nat) : Text → Nat
  | [] => 0
  | c :: cs => match digit? c with
    | some d => d * unit + fraction (unit / 10) cs
    | none => 0

/-- `strtod` for a duration: in ticks, to a millisecond. -/
def seconds (t : Text) : Nat :=
  match intPart 0 t with
  | (n, '.' :: cs) => (n * 1000 + fraction 100 cs) * 90
  | (n, _) => n * 90000

/-- hls/ngx_rtmp_hls_module.c:1203-1241: hexadecimal digits from the end of the line to an `x` or another character, in 64 bits. The argument is the line backwards. -/
def ivKey (base acc : Nat) : Text → Nat
  | [] => acc
  | c :: cs =>
    if c = 'x' then acc
    else if '0' ≤ c ∧ c ≤ '9' then ivKey (base * 16 % 2 ^ 64) ((acc + base * (c.toNat - 48)) % 2 ^ 64) cs
    else if ('a' ≤ c ∧ c ≤ 'f') then ivKey (base * 16 % 2 ^ 64) ((acc + base * (c.toNat - 87)) % 2 ^ 64) cs
    else if ('A' ≤ c ∧ c ≤ 'F') then ivKey (base * 16 % 2 ^ 64) ((acc + base * (c.toNat - 55)) % 2 ^ 64) cs
    else acc

/-- hls/ngx_rtmp_hls_module.c:1285-1292: decimal digits backwards, in 64 bits. -/
def backDigits (mag acc : Nat) : Text → Nat
  | [] => acc
  | c :: cs => match digit? c with
    | some d => backDigits (mag * 10 % 2 ^ 64) ((acc + d * mag) % 2 ^ 64) cs
    | none => acc

def strip (pre l : Text) : Option Text := if pre.isPrefixOf l then some (l.drop pre.length) else none

/-- hls/ngx_rtmp_hls_module.c:1173-1303: one line, without its newline. The comparisons of the code read past the end of a short line; as no pattern has a newline in it they fail there. -/
def line (cfg : Cfg) (r : R) (l0 : Text) : R :=
  let l := if l0.getLast? = some '\r' then l0.dropLast else l0
  let r1 := match strip "#EXT-X-MEDIA-SEQUENCE:".toList l with
    | some t => { r with st := { r.st with frag := (intPart 0 t).1 } }
    | none => r
  let r2 := match strip "#EXT-X-KEY:".toList l with
    | some _ => { r1 with keyId := ivKey 1 0 l.reverse }
    | none => r1
  let r3 := match strip "#EXTINF:".toList l with
    | some t => { r2 with dur := seconds t }
    | none => r2
  let r4 := match strip "#EXT-X-DISCONTINUITY".toList l with
    | some _ => { r3 with discont := true }
    | none => r3
  if 4 ≤ l.length ∧ l.drop (l.length - 3) = ".ts".toList then
    let f : Frag := { id := backDigits 1 0 (l.reverse.drop 3), keyId := r4.keyId, dur := r4.dur, discont := r4.discont }
    { r4 with st := nextFrag cfg (setFrag cfg r4.st r4.st.nfrags f), discont := false }
  else r4

/-- hls/ngx_rtmp_hls_module.c:1163-1306: the lines of a buffer; also what is left after the last newline. -/
def inner (cfg : Cfg) (r : R) (acc : Text) : Text → R × Text
  | [] => (r, acc)
  | c :: cs => if c = '\n' then inner cfg (line cfg r acc) [] cs else inner cfg r (acc ++ [c]) cs

/-- hls/ngx_rtmp_hls_module.c:1154-1307: 4096 bytes at a time, each time from the start of a line. `rest`: the file from `offset` on; every turn but the last takes a line off it, so `fuel` may be its length plus one. -/
def outer (cfg : Cfg) : Nat → R → Text → R
  | 0, r, _ => r
  | fuel + 1, r, rest =>
    let buf := rest.take 4096
    if buf = [] then r
    else
      let (r1, left) := inner cfg r [] buf
      if left.length = buf.length then r1 else outer cfg fuel r1 (rest.drop (buf.length - left.length))

/-- hls/ngx_rtmp_hls_module.c:1119-1311 for a new context. -/
def restore (cfg : Cfg) (keyFiles : Nat → Option Nat) (file : Text) : St :=
  (outer cfg (file.length + 1) { st := { keyFiles := keyFiles } } file).st

end Verif.HlsRestore
