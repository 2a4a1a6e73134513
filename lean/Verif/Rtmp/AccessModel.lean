import Verif.Base.Bytes
/-
Model of modules/nginx-rtmp-module/ngx_rtmp_access_module.c ("allow"/"deny") together with the place where
the session's peer address comes from (ngx_rtmp_init.c:199-200).
-/
namespace Verif.Access

/-- A CIDR block as delivered by nginx core's `ngx_ptocidr` (address already masked; core, not modelled). -/
inductive Cidr where
  | v4 (addr mask : BitVec 32)
  | v6 (addr mask : List UInt8)
deriving DecidableEq, Repr

/-- `ngx_rtmp_access_rule_t` (ngx_rtmp_access_module.c:29-34). -/
structure Rule4 where
  mask : BitVec 32
  addr : BitVec 32
  deny : Bool
  flags : Nat
deriving DecidableEq, Repr

/-- `ngx_rtmp_access_rule6_t` (ngx_rtmp_access_module.c:39-44). -/
structure Rule6 where
  mask : List UInt8
  addr : List UInt8
  deny : Bool
  flags : Nat
deriving DecidableEq, Repr

/-- `ngx_rtmp_access_app_conf_t`: the two rule arrays. -/
structure Conf where
  rules : List Rule4
  rules6 : List Rule6
deriving DecidableEq, Repr

/-- `NGX_RTMP_ACCESS_PUBLISH`, `NGX_RTMP_ACCESS_PLAY` (ngx_rtmp_access_module.c:17-18). -/
def PUBLISH : Nat := 1
def PLAY : Nat := 2

/-- `ngx_rtmp_access_create_app_conf` (ngx_rtmp_access_module.c:104-131). -/
def createConf : Conf := ⟨[], []⟩

/-- The directive handler `ngx_rtmp_access_rule` (ngx_rtmp_access_module.c:323-436). `value` is the
argument array (directive name first); the directive takes one or two arguments (`NGX_CONF_TAKE12`), so
it has two or three entries. `ptocidr` is nginx core's CIDR parser. `none` is `NGX_CONF_ERROR`. -/
def accessRule (ptocidr : String → Option Cidr) (conf : Conf) (value : List String) : Option Conf :=
  let go (cmd : String) (flags : Nat) (net : String) : Option Conf :=
    let deny := cmd.toList.head? == some 'd'
    let all := net == "all"
    if all then
      some { rules := conf.rules ++ [⟨0, 0, deny, flags⟩],
             rules6 := conf.rules6 ++ [⟨List.replicate 16 0, List.replicate 16 0, deny, flags⟩] }
    else
      match ptocidr net with
      | none => none
      | some (.v6 a m) => some { conf with rules6 := conf.rules6 ++ [⟨m, a, deny, flags⟩] }
      | some (.v4 a m) => some { conf with rules := conf.rules ++ [⟨m, a, deny, flags⟩] }
  match value with
  | [cmd, net] => go cmd (PUBLISH ||| PLAY) net
  | [cmd, op, net] =>
    if op == "publish" then go cmd PUBLISH net
    else if op == "play" then go cmd PLAY net
    else none
  | _ => none

/-- All directives of one configuration block, in order. -/
def parseBlock (ptocidr : String → Option Cidr) : Conf → List (List String) → Option Conf
  | conf, [] => some conf
  | conf, d :: ds => match accessRule ptocidr conf d with
    | none => none
    | some conf' => parseBlock ptocidr conf' ds

/-- `ngx_rtmp_access_merge_rules` (ngx_rtmp_access_module.c:134-157): result for the child array. -/
def mergeRules {α : Type} (prev rules : List α) : List α :=
  if prev.isEmpty then rules
  else if rules.isEmpty then prev
  else rules ++ prev

/-- `ngx_rtmp_access_merge_app_conf` (ngx_rtmp_access_module.c:160-177). -/
def mergeConf (parent child : Conf) : Conf :=
  ⟨mergeRules parent.rules child.rules, mergeRules parent.rules6 child.rules6⟩

/-- Return codes; `ub` is an out-of-bounds read. -/
inductive Res where
  | ok | error | ub
deriving DecidableEq, Repr

/-- `ngx_rtmp_access_found` (ngx_rtmp_access_module.c:180-190). -/
def found (deny : Bool) : Res := if deny then .error else .ok

/-- `ngx_rtmp_access_inet` (ngx_rtmp_access_module.c:193-216). -/
def inet : List Rule4 → BitVec 32 → Nat → Res
  | [], _, _ => .ok
  | r :: rs, addr, flag =>
    if addr &&& r.mask = r.addr ∧ flag &&& r.flags ≠ 0 then found r.deny else inet rs addr flag

/-- The 16-byte comparison loop (ngx_rtmp_access_module.c:249-253). -/
def match6 : List UInt8 → List UInt8 → List UInt8 → Bool
  | p :: ps, m :: ms, a :: as => if p &&& m ≠ a then false else match6 ps ms as
  | _, _, _ => true

/-- `ngx_rtmp_access_inet6` (ngx_rtmp_access_module.c:221-263). -/
def inet6 : List Rule6 → List UInt8 → Nat → Res
  | [], _, _ => .ok
  | r :: rs, p, flag =>
    if match6 p r.mask r.addr = true ∧ flag &&& r.flags ≠ 0 then found r.deny else inet6 rs p flag

/-- A peer socket address as the kernel returns it: the bytes of the `sockaddr_*` structure. For AF_INET the
IPv4 address is at offset 4 (4 bytes), for AF_INET6 the IPv6 address is at offset 8 (16 bytes). -/
inductive Family where | inet | inet6 | unix
deriving DecidableEq, Repr

structure Sockaddr where
  family : Family
  bytes : List UInt8
deriving DecidableEq, Repr

/-- ngx_rtmp_init.c:199-200: the session keeps `sizeof(struct sockaddr)` = 16 bytes of the peer address. -/
def sessionSockaddr (sa : Sockaddr) : Sockaddr := { sa with bytes := sa.bytes.take 16 }

/-- Four bytes in network order as `in_addr_t` on the (little-endian) host; rules hold addresses in the
same representation, so any fixed injective reading of the four bytes will do: we use big-endian. -/
def addr4 (b : List UInt8) : BitVec 32 := BitVec.ofNat 32 (beDec b)

/-- `IN6_IS_ADDR_V4MAPPED`. -/
def v4mapped (p : List UInt8) : Bool := p.take 12 == [0,0,0,0,0,0,0,0,0,0,0xff,0xff]

/-- `ngx_rtmp_access` (ngx_rtmp_access_module.c:268-320). `sockaddr = none` is a relay session.
Reading an address that is not completely inside the stored structure is `ub`. -/
def access (conf : Conf) (sockaddr : Option Sockaddr) (flag : Nat) : Res :=
  match sockaddr with
  | none => .ok
  | some sa =>
    match sa.family with
    | .inet =>
      let a := (sa.bytes.drop 4).take 4
      if a.length < 4 then .ub else inet conf.rules (addr4 a) flag
    | .inet6 =>
      let p := (sa.bytes.drop 8).take 16
      if p.length < 16 then .ub
      else if v4mapped p then inet conf.rules (addr4 (p.drop 12)) flag
      else inet6 conf.rules6 p flag
    | .unix => .ok

/-- `ngx_rtmp_access_publish` (ngx_rtmp_access_module.c:439-453), result before chaining to the next
publish handler. -/
def accessPublish (conf : Conf) (interprocess : Bool) (sockaddr : Option Sockaddr) : Res :=
  if interprocess then .ok else access conf sockaddr PUBLISH

/-- `ngx_rtmp_access_play` (ngx_rtmp_access_module.c:456-464). -/
def accessPlay (conf : Conf) (sockaddr : Option Sockaddr) : Res := access conf sockaddr PLAY

end Verif.Access
