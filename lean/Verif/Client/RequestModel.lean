import Verif.Toolkit.UrlModel
/-
The head of an HTTP request: modules/nginx-client-module/ngx_http_client.c, the tables of methods and versions (:120-144), the default headers (:241-248, 451-496),
`ngx_http_client_set_url` (:942-980), `ngx_http_client_add_header` (:983-1028), `ngx_http_client_create_request_buf` (:1031-1125),
`ngx_http_client_create` (:1327-1439), `ngx_http_client_set_headers` (:1485-1498).
The map from names to headers is C23; its nodes are members of the array elements. `ngx_array_push` (nginx core) moves a full array to memory of
twice the size; the old elements stay where they are, and the map goes on pointing to them (64 elements are more than the pool of 4096 bytes has room for, so
the array is never extended in place). Failing allocations are left out.
-/
namespace Verif.Client.Req
open Verif

/-- `ngx_http_client_header_out_t` (:77-81) -/
structure Hdr where
  key : Bytes
  value : Bytes
  deriving DecidableEq

/-- `ngx_http_client_headers_out_t` (:84-87): the array and its room; the map points to old copies of the first `stale` elements. -/
structure Hdrs where
  elts : List Hdr := []
  nalloc : Nat := 64
  stale : Nat := 0
  deriving DecidableEq

/-- `ngx_http_client_add_header` (:983-1028): no two elements have the same key; an empty value leaves the element with length 0. -/
def addHeader (h : Hdrs) (k v : Bytes) : Hdrs :=
  if k ∈ (h.elts.take h.stale).map (·.key) then h
  else if k ∈ h.elts.map (·.key) then { h with elts := h.elts.map (fun e => if e.key = k then { e with value := v } else e) }
  else if h.elts.length = h.nalloc then { elts := h.elts ++ [⟨k, v⟩], nalloc := 2 * h.nalloc, stale := h.elts.length }
  else { h with elts := h.elts ++ [⟨k, v⟩] }

/-- `ngx_http_client_set_headers` (:1485-1498) and the loops of `create` (:1403-1428). -/
def addAll (h : Hdrs) (l : List (Bytes × Bytes)) : Hdrs := l.foldl (fun h p => addHeader h p.1 p.2) h

def str (s : String) : Bytes := s.toUTF8.toList

/-- :120-136 -/
def methods : List Bytes := ["GET", "HEAD", "POST", "PUT", "DELETE", "MKCOL", "COPY", "MOVE", "OPTIONS", "PROPFIND", "PROPPATCH", "LOCK", "UNLOCK", "PATCH", "TRACE"].map str

/-- :139-144 -/
def versions : List Bytes := ["HTTP/0.9", "HTTP/1.0", "HTTP/1.1", "HTTP/2.0"].map str

structure Request where
  method : Nat
  version : Nat := 2
  url : Url.RequestUrl
  headers : Hdrs := {}
  deriving DecidableEq

/-- The default headers (:241-248, 451-496) at the time they are set: the version is 1.1. `agent` is `NGINX_VER`, `date` the current time. -/
def defaults (url : Url.RequestUrl) (agent date : Bytes) : List (Bytes × Bytes) :=
  [(str "Host", url.host), (str "User-Agent", agent), (str "Connection", []), (str "Accept", str "*/*"), (str "Date", date)]

/-- `ngx_http_client_create` (:1327-1439): `none` if the URL is not accepted. -/
def create (method : Nat) (url : Bytes) (hs : List (Bytes × Bytes)) (agent date : Bytes) : Option Request :=
  match Url.parse {} url with
  | none => none
  | some u => some { method := method, url := u, headers := addAll (addAll {} (defaults u agent date)) hs }

/-- The size of the buffer (:1044-1079). -/
def reqLen (r : Request) (m : Bytes) : Nat :=
  (m.length + 1) + 1 + (if r.url.path ≠ [] then r.url.path.length else 0) + (if r.url.args ≠ [] then 1 + r.url.args.length else 0) + 1 + (8 + 2)
    + (r.headers.elts.map (fun h => if h.value = [] then 0 else h.key.length + 2 + h.value.length + 2)).sum + 2

/-- What is copied into it, piece by piece (:1081-1122). -/
def pieces (r : Request) (m v : Bytes) : List Bytes :=
  [m, [32], [47]] ++ (if r.url.path ≠ [] then [r.url.path] else []) ++ (if r.url.args ≠ [] then [[63], r.url.args] else []) ++ [[32], v, [13, 10]]
    ++ (r.headers.elts.map (fun h => if h.value = [] then [] else [h.key, [58, 32], h.value, [13, 10]])).flatten ++ [[13, 10]]

/-- Copies into a buffer with room for `cap` bytes; `none` is a write behind its end. -/
def fill (cap : Nat) : Bytes → List Bytes → Option Bytes
  | b, [] => some b
  | b, p :: ps => if b.length + p.length > cap then none else fill cap (b ++ p) ps

/-- `ngx_http_client_create_request_buf` (:1031-1125); `none` is an access outside a table or the buffer. -/
def requestBuf (r : Request) : Option Bytes :=
  match methods[r.method]?, versions[r.version]? with
  | some m, some v => fill (reqLen r m) [] (pieces r m v)
  | _, _ => none

end Verif.Client.Req
