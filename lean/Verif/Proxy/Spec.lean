/-
Version 1 of the PROXY protocol ("The PROXY protocol", Willy Tarreau, section 2.1): a line in front of the bytes of a client that says who the client is. `A` are addresses; `conv` reads one. It knows
nothing of any program.
-/
namespace Verif.Proxy

abbrev Bytes := List UInt8

def proxyW : Bytes := [0x50, 0x52, 0x4f, 0x58, 0x59, 0x20]
def unknownW : Bytes := [0x55, 0x4e, 0x4b, 0x4e, 0x4f, 0x57, 0x4e]
def crlfW : Bytes := [0x0d, 0x0a]

/-- A line has no end in it. -/
def NoEnd (l : Bytes) : Prop := ¬ crlfW <:+: l

/-- The family of a line -/
inductive Family where
  | tcp4
  | tcp6
  deriving DecidableEq

def Family.text : Family → Bytes
  | .tcp4 => [0x54, 0x43, 0x50, 0x34]
  | .tcp6 => [0x54, 0x43, 0x50, 0x36]

/-- Fields have no space and no end of a line in them. -/
def Field (l : Bytes) : Prop := ∀ x ∈ l, x ≠ 0x20 ∧ x ≠ 0x0d ∧ x ≠ 0x0a

/-- A line, and the client it tells of: family, source, destination, their ports. Behind UNKNOWN there is anything, up to the end of the line. Lines have 107 bytes at most. -/
inductive Header {A : Type} (conv : Bytes → Option A) : Bytes → Option A → Prop where
  | tcp (f : Family) (src dst sport dport : Bytes) (a : A) (hs : Field src) (hd : Field dst) (hp : Field sport) (hq : Field dport) (ha : conv src = some a)
      (hl : (proxyW ++ f.text ++ 0x20 :: src ++ 0x20 :: dst ++ 0x20 :: sport ++ 0x20 :: dport ++ crlfW).length ≤ 107) :
      Header conv (proxyW ++ f.text ++ 0x20 :: src ++ 0x20 :: dst ++ 0x20 :: sport ++ 0x20 :: dport ++ crlfW) (some a)
  | unknown (more : Bytes) (hm : NoEnd more) (hl : (proxyW ++ unknownW ++ more ++ crlfW).length ≤ 107) : Header conv (proxyW ++ unknownW ++ more ++ crlfW) none

end Verif.Proxy
