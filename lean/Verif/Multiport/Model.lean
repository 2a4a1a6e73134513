import Verif.Toolkit.UrlModel
import Verif.Json.Model
/-
Model of nginx-multiport-module/ngx_multiport_misc.c: the address at which one worker can be reached, made from the address in the configuration and the slot of the worker's process.
`none` is undefined behaviour, `some none` is NGX_ERROR. Simplified: memory suffices, INET6 and Unix sockets are compiled in, the log is left out.
-/
namespace Verif.Multiport

/-- ngx_tolower (nginx core), as used by ngx_strncasecmp -/
def low (c : UInt8) : UInt8 := if 65 ≤ c ∧ c ≤ 90 then c ||| 0x20 else c

/-- ngx_snprintf (nginx core) into `len` bytes: what does not fit is left out. -/
def snprintf (len : Nat) (t : Bytes) : Bytes := t.take len

/-- ngx_multiport_get_port_unix (5-29): a zero is written behind the text (20); it may be outside of the buffer. -/
def unixPort (mp : Bytes) (slot : Nat) : Option (Option Bytes) :=
  let len := mp.length + 5
  let t := snprintf len (mp ++ 46 :: Json.dec slot)
  if t.length < len then some (some t) else none

/-- 59-77 and 113-135: `addr` is what stands before the port, `ds` the port. The sum of `n` and `pslot` is one of signed integers (63, 117). -/
def shift (mp addr ds : Bytes) (slot : Nat) : Option (Option Bytes) :=
  match Url.atoi ds with
  | none => some none
  | some n =>
    if n < 1 then some none
    else if Url.maxInt < n + slot then none
    else if 65408 < n + slot then some none
    else some (some (snprintf (mp.length + 3) (addr ++ Json.dec (n + slot))))

/-- ngx_multiport_get_port_inet6 (31-85) -/
def inet6Port (mp : Bytes) (slot : Nat) : Option (Option Bytes) :=
  match Url.strlchr 93 mp with
  | none => some none
  | some (_, []) => some none
  | some (a, c :: ds) => if c = 58 then shift mp (a ++ [93, 58]) ds slot else some none

/-- ngx_multiport_get_port_inet (87-138) -/
def inetPort (mp : Bytes) (slot : Nat) : Option (Option Bytes) :=
  match Url.strlchr 58 mp with
  | none => shift mp [] mp slot
  | some (a, ds) => if ds = [] then some none else shift mp (a ++ [58]) ds slot

/-- ngx_multiport_get_port (140-165) -/
def getPort (mp : Bytes) (pslot : Int) : Option (Option Bytes) :=
  if pslot < 0 ∨ 127 < pslot then some none
  else if 5 ≤ mp.length ∧ (mp.take 5).map low = [117, 110, 105, 120, 58] then unixPort mp pslot.toNat
  else if mp.head? = some 91 then inet6Port mp pslot.toNat
  else inetPort mp pslot.toNat

end Verif.Multiport
