import Verif.Base.Bytes
/-
Model of `ngx_parse_request_url` and `ngx_request_port` (nginx-toolkit-module/ngx_toolkit_misc.c).

A pointer into the URL is represented by the bytes between it and the end of the range it is used with, so that `p - q` bytes at `q` are a
list. `none` is NGX_ERROR. The nginx functions `ngx_strlchr`, `ngx_strnstr`, `ngx_atoi` (nginx core, src/core/ngx_string.c, not part of
/repo) are modelled by their documented loops.
-/
namespace Verif.Url
open Verif

/-- `ngx_strlchr` (nginx core): the part before the first `c` and the part after it. -/
def strlchr (c : UInt8) : Bytes → Option (Bytes × Bytes)
  | [] => none
  | b :: l => if b = c then some ([], l) else (strlchr c l).map fun p => (b :: p.1, p.2)

/-- `ngx_strnstr(s, "://", n)` (nginx core): the part before and the part after; a NUL byte ends the search. -/
def strScheme : Bytes → Option (Bytes × Bytes)
  | [] => none
  | b :: l =>
    if b = 0 then none
    else if b = 58 then
      match l with
      | c :: d :: l' => if c = 47 ∧ d = 47 then some ([], l') else (strScheme l).map fun p => (b :: p.1, p.2)
      | _ => none
    else (strScheme l).map fun p => (b :: p.1, p.2)

/-- `ngx_request_url_t` (ngx_toolkit_misc.h:17-28) -/
structure RequestUrl where
  scheme : Bytes := []
  user : Bytes := []
  host : Bytes := []
  port : Bytes := []
  path : Bytes := []
  args : Bytes := []
  fragment : Bytes := []
  hostWithPort : Bytes := []
  uriWithArgs : Bytes := []
deriving DecidableEq, Repr

/-- From the path on (ngx_toolkit_misc.c:246-288); `p` are the bytes after the slash, `none` if there is no slash. -/
def parsePath (r : RequestUrl) : Option Bytes → Option RequestUrl
  | none => some r
  | some [] => some r
  | some p =>
    match strlchr 63 p with
    | none => some { r with path := p, uriWithArgs := p }
    | some (path, args) =>
      if args = [] then none
      else
        match strlchr 35 args with
        | none => some { r with path := path, args := args, uriWithArgs := p }
        | some (a, f) => if f = [] then none else some { r with path := path, args := a, fragment := f, uriWithArgs := p }

/-- Host and port (ngx_toolkit_misc.c:225-244) -/
def parseHost (r : RequestUrl) (host : Bytes) : Option RequestUrl :=
  match strlchr 58 host with
  | none => some { r with host := host, hostWithPort := host }
  | some (h, port) => if port = [] then none else some { r with host := h, port := port, hostWithPort := host }

/-- The user (ngx_toolkit_misc.c:209-223) -/
def parseUser (r : RequestUrl) (auth : Bytes) : Option RequestUrl :=
  match strlchr 64 auth with
  | none => parseHost r auth
  | some (u, host) => if u = [] then none else if host = [] then none else parseHost { r with user := u } host

/-- `ngx_parse_request_url` (ngx_toolkit_misc.c:173-289); `r` is what the caller passes in, members that the URL does not have keep
their value. -/
def parse (r : RequestUrl) (url : Bytes) : Option RequestUrl :=
  if url = [] then none
  else
    match strScheme url with
    | none => none
    | some (scheme, rest) =>
      if rest = [] then none
      else
        match strlchr 47 rest with
        | none => (parseUser { r with scheme := scheme } rest).bind fun r => parsePath r none
        | some (auth, p) => (parseUser { r with scheme := scheme } auth).bind fun r => parsePath r (some p)

/-- NGX_MAX_INT_T_VALUE on a 64-bit platform (nginx core) -/
def maxInt : Nat := 9223372036854775807

/-- `ngx_atoi` (nginx core): `none` is NGX_ERROR. -/
def atoiLoop : Nat → Bytes → Option Nat
  | v, [] => some v
  | v, b :: l =>
    if b < 48 ∨ b > 57 then none
    else if v ≥ maxInt / 10 ∧ (v > maxInt / 10 ∨ b.toNat - 48 > maxInt % 10) then none
    else atoiLoop (v * 10 + (b.toNat - 48)) l

def atoi (l : Bytes) : Option Nat := if l = [] then none else atoiLoop 0 l

/-- The table `ngx_sheme_port` (ngx_toolkit_misc.c:16-21) -/
def schemePort : List (Bytes × Nat) :=
  [([104, 116, 116, 112], 80), ([104, 116, 116, 112, 115], 443), ([114, 116, 109, 112], 1935)]

/-- Search of the table (ngx_toolkit_misc.c:306-314) -/
def findPort (scheme : Bytes) : List (Bytes × Nat) → Nat
  | [] => 0
  | e :: es => if e.1.length = scheme.length ∧ e.1 = scheme then e.2 else findPort scheme es

/-- `ngx_request_port` (ngx_toolkit_misc.c:291-315) -/
def requestPort (scheme port : Bytes) : Nat :=
  if port.length ≠ 0 then
    match atoi port with
    | none => 0
    | some p => if p < 1 ∨ p > 65535 then 0 else p
  else findPort scheme schemePort

end Verif.Url
