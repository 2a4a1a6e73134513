import Verif.Base.Bytes
/-
What a control request means: which of the sessions of the process it is about. Nothing of the code is used here.
-/
namespace Verif.Operate
open Verif

/-- A connection: its identity, the number that it was given and the text of the peer's address. -/
structure Sess where
  ref : Nat
  number : Nat
  addr : Bytes
deriving DecidableEq, Repr

/-- One who uses a stream; there need not be a connection (HLS, for one). -/
structure Ctx where
  session : Option Sess
  publishing : Bool
deriving DecidableEq, Repr

structure Stream where
  name : Bytes
  play : List Ctx
  pub : List Ctx
deriving DecidableEq, Repr

structure Server where
  id : Bytes
  streams : List (List Stream)
deriving DecidableEq, Repr

inductive Role where
  | publisher | subscriber | client
deriving DecidableEq, Repr

/-- What is asked for. An application or a stream that is not asked for is empty. -/
structure Query where
  srv : Bytes
  app : Bytes
  name : Bytes
  addr : Option Bytes
  clientid : Option Bytes
  role : Role
deriving DecidableEq, Repr

/-- The arguments that are looked at. -/
inductive Arg where
  | srv | app | name | addr | clientid | newname
deriving DecidableEq, Repr

/-- A request: its path and its arguments as `ngx_http_arg` (nginx core) finds them. -/
structure Req where
  uri : Bytes
  arg : Arg → Option Bytes

/-- What a request asks for, of server `id`. -/
def asked (r : Req) (id : Bytes) (f : Role) : Query :=
  { srv := id, app := (r.arg .app).getD [], name := (r.arg .name).getD [], addr := r.arg .addr, clientid := r.arg .clientid, role := f }

/-- The number that a text is. -/
def textNumber (t : Bytes) : Option Nat :=
  if t ≠ [] ∧ t.all (fun b => 48 ≤ b && b ≤ 57) then some (t.foldl (fun v b => v * 10 + (b.toNat - 48)) 0) else none

def roleFits : Role → Bool → Bool
  | .publisher, p => p
  | .subscriber, p => !p
  | .client, _ => true

/-- The stream `id/application/name` is asked for. Where a name is asked for without an application, every application counts. -/
def streamFits (q : Query) (id stream : Bytes) : Bool :=
  if q.app = [] then
    if q.name = [] then true
    else (47 :: q.name).isSuffixOf stream && !(q.name.contains 47)
  else if q.name = [] then (id ++ 47 :: q.app ++ [47]).isPrefixOf stream
  else stream == id ++ 47 :: q.app ++ 47 :: q.name

def sessFits (q : Query) (publishing : Bool) (s : Sess) : Bool :=
  roleFits q.role publishing && (match q.addr with | none => true | some a => s.addr == a) &&
    (match q.clientid with | none => true | some t => textNumber t == some s.number)

/-- The sessions of one stream that are asked for: those that play, then those that publish. -/
def streamHits (q : Query) (id : Bytes) (st : Stream) : List Sess :=
  if streamFits q id st.name then
    ((st.play ++ st.pub).filterMap fun c => c.session.bind fun s => if sessFits q c.publishing s then some s else none)
  else []

/-- All sessions that are asked for. -/
def hits (servers : List Server) (q : Query) : List Sess :=
  (servers.filter fun s => s.id == q.srv).flatMap fun s => s.streams.flatten.flatMap (streamHits q s.id)

/-- Where a request goes: `…/section/method`, both without slashes. -/
def Names (uri sec met : Bytes) : Prop := (∃ pre, uri = pre ++ 47 :: sec ++ 47 :: met) ∧ 47 ∉ sec ∧ 47 ∉ met

/-! Words -/

def tDrop : Bytes := [0x64, 0x72, 0x6f, 0x70]
def tPause : Bytes := [0x70, 0x61, 0x75, 0x73, 0x65]
def tResume : Bytes := [0x72, 0x65, 0x73, 0x75, 0x6d, 0x65]
def tRecord : Bytes := [0x72, 0x65, 0x63, 0x6f, 0x72, 0x64]
def tRedirect : Bytes := [0x72, 0x65, 0x64, 0x69, 0x72, 0x65, 0x63, 0x74]
def tPublisher : Bytes := [0x70, 0x75, 0x62, 0x6c, 0x69, 0x73, 0x68, 0x65, 0x72]
def tSubscriber : Bytes := [0x73, 0x75, 0x62, 0x73, 0x63, 0x72, 0x69, 0x62, 0x65, 0x72]
def tClient : Bytes := [0x63, 0x6c, 0x69, 0x65, 0x6e, 0x74]

def roleText : Role → Bytes
  | .publisher => tPublisher
  | .subscriber => tSubscriber
  | .client => tClient

end Verif.Operate
