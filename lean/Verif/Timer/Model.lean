/-
Model of nginx-toolkit-module/ngx_event_timer_module.c: a fixed array of timers with a list of free ones that is threaded through their `data`.
Not modelled: the time after which a timer expires (any timer that is set may expire next); running out of memory at the start; the log.
-/
namespace Verif.Timer

/-- A handler and its argument -/
abbrev Job := Nat × Nat

/-- The field `data`: the user's argument, or the next free timer -/
inductive Val where
  | user (d : Nat)
  | link (next : Option Nat)
  deriving DecidableEq

/-- ngx_event_timer_ctx_t (15-22); `armed` is `event.timer_set`. -/
structure Slot where
  handler : Option Nat
  data : Val
  armed : Bool

/-- ngx_event_timer_conf_t (24-31). `running` is the timer whose handler is being called; `calls` notes the calls of handlers, `gone` the timers that were deleted while set. -/
structure State where
  n : Nat
  slots : Nat → Slot
  head : Option Nat
  freeN : Nat
  running : Option Nat
  calls : List Job
  gone : List Job

/-- Writing one element of the array `timer_ctx` (114-132) -/
def upd {α : Type} (f : Nat → α) (i : Nat) (v : α) : Nat → α := fun j => if j = i then v else f j

/-- ngx_event_timer_process_init (101-141): each timer is linked to the one after it. -/
def State.init (n : Nat) : State :=
  ⟨n, fun i => ⟨none, .link (if i + 1 < n then some (i + 1) else none), false⟩, if n = 0 then none else some 0, n, none, [], []⟩

/-- ngx_event_timer_get_timer (143-162): `some none` is NULL; a missing or overwritten link is undefined behaviour. -/
def get (s : State) : Option (Option (State × Nat)) :=
  if s.freeN = 0 then some none
  else match s.head with
    | none => none
    | some i => match (s.slots i).data with
      | .link next => some (some ({ s with head := next, freeN := s.freeN - 1 }, i))
      | .user _ => none

/-- ngx_event_timer_free_timer (164-174) -/
def put (s : State) (i : Nat) : State :=
  { s with slots := upd s.slots i { s.slots i with data := .link s.head }, head := some i, freeN := s.freeN + 1 }

/-- ngx_event_timer_add_timer (190-217); the result is the number of the timer or NGX_ERROR. -/
def add (s : State) (h : Option Nat) (d : Nat) : Option (State × Option Nat) :=
  match h with
  | none => some (s, none)
  | some h => match get s with
    | none => none
    | some none => some (s, none)
    | some (some (s, i)) => some ({ s with slots := upd s.slots i ⟨some h, .user d, true⟩ }, some i)

/-- What is set in a timer -/
def Slot.job (t : Slot) : List Job :=
  match t.armed, t.handler, t.data with
  | true, some h, .user d => [(h, d)]
  | _, _, _ => []

/-- ngx_event_timer_del_timer (219-237); a number outside of the array is undefined behaviour. -/
def del (s : State) (i : Nat) : Option State :=
  if s.n ≤ i then none
  else if (s.slots i).armed then
    some (put { s with slots := upd s.slots i { s.slots i with armed := false }, gone := s.gone ++ (s.slots i).job } i)
  else some s

/-- A timer that is set expires: nginx clears `timer_set` and calls ngx_event_timer_event_handler (176-188), which calls the handler. -/
def expire (s : State) (i : Nat) : Option State :=
  if i < s.n ∧ (s.slots i).armed = true ∧ s.running = none then
    match (s.slots i).handler with
    | none => some { s with slots := upd s.slots i { s.slots i with armed := false }, running := some i }
    | some h => match (s.slots i).data with
      | .link _ => none
      | .user d => some { s with slots := upd s.slots i { s.slots i with armed := false }, running := some i, calls := s.calls ++ [(h, d)] }
  else some s

/-- The handler returns (187). -/
def finish (s : State) : State :=
  match s.running with
  | none => s
  | some i => put { s with running := none } i

/-- What happens, in the order in which it happens; what a handler does lies between `expire` and `finish`. -/
inductive Op where
  | add (h : Option Nat) (d : Nat)
  | del (i : Nat)
  | expire (i : Nat)
  | finish
  deriving DecidableEq

/-- One of them (176-237) -/
def step (s : State) : Op → Option State
  | .add h d => (add s h d).map Prod.fst
  | .del i => del s i
  | .expire i => expire s i
  | .finish => some (finish s)

/-- One after the other; `none`: undefined behaviour -/
def run : State → List Op → Option State
  | s, [] => some s
  | s, o :: os => (step s o).bind fun s' => run s' os

end Verif.Timer
