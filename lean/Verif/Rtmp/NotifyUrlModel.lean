import Verif.Toolkit.UrlModel
/-
The URL of a callback: `ngx_rtmp_notify_common_url` (modules/nginx-rtmp-module/ngx_rtmp_notify_module.c:1091-1156) with its tables (:101-117).
The texts of the session (domain, app, name, the number of the client in decimal) and the expanded `args` (C32) are given as bytes; the part for records
(:1127-1136) is left out. `ngx_snprintf` (nginx core) writes at most the room it is given. A configured URL that does not parse counts as one without
arguments; the code would keep the arguments of one whose fragment is empty.
-/
namespace Verif.Notify
open Verif

def txt (s : String) : Bytes := s.toUTF8.toList

/-- `ngx_rtmp_notify_app_type` (:109-117) -/
def appType : List Bytes := ["play", "publish", "pull", "push", "stream", "meta", "record"].map txt

/-- `ngx_rtmp_notify_stage` (:101-107) -/
def stageName : List Bytes := ["", "start", "update", "", "done"].map txt

/-- NGX_NETCALL_MAX_URL_LEN (ngx_netcall.h:14) -/
def maxUrl : Nat := 2048

/-- One `ngx_snprintf` into what is left of the buffer. -/
def put (buf t : Bytes) : Bytes := buf ++ t.take (maxUrl - buf.length)

structure Fields where
  domain : Bytes
  app : Bytes
  name : Bytes
  clientid : Bytes
  groupid : Bytes := []
  args : Bytes := []

/-- :1091-1156; the tables are indexed without a test: `none` is an index outside. -/
def commonUrl (base : Bytes) (f : Fields) (type stage : Nat) : Option Bytes :=
  match appType[type]?, stageName[stage]? with
  | some t, some s =>
    let ru := (Url.parse {} base).getD {}
    let p := put [] base
    let rest := txt "call=" ++ t ++ txt "&act=" ++ s ++ txt "&domain=" ++ f.domain ++ txt "&app=" ++ f.app ++ txt "&name=" ++ f.name ++
      txt "&clientid=" ++ f.clientid
    let p := if ru.args.length ≠ 0 then put p (txt "&" ++ rest) else put p (txt "?" ++ rest)
    let p := if f.groupid.length ≠ 0 then put p (txt "&groupid=" ++ f.groupid) else p
    some (if f.args.length ≠ 0 then put p (txt "&" ++ f.args) else p)
  | _, _ => none

end Verif.Notify
