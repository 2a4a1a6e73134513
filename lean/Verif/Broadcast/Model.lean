/-
Model of nginx-multiport-module/ngx_http_broadcast_module.c: a request is passed on to all workers and their answers are joined.
Texts are lists of bytes. Simplified: a call of the filter gets one buffer; after each answer nginx calls the filter of the main request again (nginx core); memory suffices; the address of a worker can be made (Multiport/*); the configured texts contain no zero byte. Not modelled: the headers, the subrequests themselves.
-/
namespace Verif.Broadcast

/-- ngx_http_broadcast_conf_t (12-18) without `multiport` and `uri`; `none` is a string that is not set. -/
structure Conf where
  pre : Option (List Nat)
  newPre : Option (List Nat)
  suffix : Option (List Nat)
deriving DecidableEq

/-- ngx_conf_merge_str_value (nginx core) with the default "" (118-122) -/
def mergeStr (conf prev : Option (List Nat)) : Option (List Nat) :=
  match conf, prev with
  | some v, _ => some v
  | none, some v => some v
  | none, none => some []

/-- ngx_http_broadcast_merge_conf (112-125): 121 merges into `prefix` once more. -/
def merge (prev conf : Conf) : Conf :=
  let conf := { conf with pre := mergeStr conf.pre prev.pre }
  let conf := { conf with pre := mergeStr conf.pre prev.newPre }
  { conf with suffix := mergeStr conf.suffix prev.suffix }

/-- The bytes of a string; one that is not set has none (260, 265, 297). -/
def bytes : Option (List Nat) → List Nat
  | some v => v
  | none => []

/-- 265-266: `ngx_slprintf` writes from `pos` and stops at `last`; the rest of the buffer stays. -/
def overwrite (b v : List Nat) : List Nat := v.take b.length ++ b.drop v.length

/-- The answer of a worker: its status and the buffers that arrive -/
structure Answer where
  status : Nat
  bufs : List (List Nat)

/-- ngx_http_broadcast_body_filter for a buffer of a subrequest (238-270): what is passed on, and `has_rewrite` -/
def buffer (c : Conf) (status : Nat) (has : Bool) (b : List Nat) : List Nat × Bool :=
  if status ≠ 200 then ([], has)
  else if b = [] then ([], has)
  else if has = false ∧ bytes c.pre ≠ [] ∧ (bytes c.pre).isPrefixOf b then (overwrite b (bytes c.newPre), true)
  else (b, has)

/-- All buffers of an answer (238-270) -/
def answer (c : Conf) (status : Nat) : Bool → List (List Nat) → List Nat × Bool
  | has, [] => ([], has)
  | has, b :: bs =>
    let r := buffer c status has b
    let q := answer c status r.2 bs
    (r.1 ++ q.1, q.2)

/-- ngx_http_broadcast_ctx_t (20-24), what was sent to the client, which workers were asked, and whether the last buffer was sent -/
structure State where
  workerid : Nat
  has : Bool
  out : List Nat
  asked : List Nat
  last : Bool

/-- 272-281 -/
def State.init : State := ⟨0, false, [], [], false⟩

/-- ngx_http_broadcast_body_filter for the main request (284-315) and the answer that follows; after the last buffer there are no more calls. -/
def call (c : Conf) (n : Nat) (ans : Nat → Answer) (s : State) : State :=
  if s.last then s
  else if s.workerid < n then
    let r := answer c (ans s.workerid).status s.has (ans s.workerid).bufs
    ⟨s.workerid + 1, r.2, s.out ++ r.1, s.asked ++ [s.workerid], false⟩
  else { s with out := s.out ++ bytes c.suffix, last := true }

/-- So many calls (284-315) -/
def calls (c : Conf) (n : Nat) (ans : Nat → Answer) : Nat → State
  | 0 => State.init
  | k + 1 => call c n ans (calls c n ans k)

end Verif.Broadcast
