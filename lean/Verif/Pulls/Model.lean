/-
Model of the static pulls of nginx-rtmp-module/ngx_live_relay_static.c: the streams that a worker fetches because the dynamic configuration says so, when the configuration is read again and when a session ends.
Names of streams and sessions are numbers. `none` is undefined behaviour. Simplified: memory suffices; the maps are lists of records in the order of insertion; the list of free records is kept as a list, and putting a record into it twice is undefined (its `next` would be overwritten while it is in the list). Not modelled: connecting, the times of reconnecting, what a session does.
-/
namespace Verif.Pulls

/-- ngx_live_relay_static_relay_t (32-37) without `next`; `stream` is `relay->stream`. -/
structure Rec where
  stream : Nat
  session : Option Nat

/-- ngx_live_relay_static_main_conf_t (40-50). `pulls` is `pulls[used]`; the other map is empty between two readings. `live` are the sessions that exist and their streams, `ctx` is `relay` in the context of a session (58-60), `stopped` notes those that were given up. -/
structure State where
  recs : Nat → Rec
  next : Nat → Option Nat
  nalloc : Nat
  free : List Nat
  pulls : List Nat
  live : Nat → Option Nat
  ctx : Nat → Nat
  sids : Nat
  stopped : List Nat

/-- Writing one place (recs, next, live and ctx) -/
def upd {α : Type} (f : Nat → α) (i : Nat) (v : α) : Nat → α := fun j => if j = i then v else f j

/-- ngx_live_relay_static_create_main_conf (317-333) -/
def State.init : State := ⟨fun _ => ⟨0, none⟩, fun _ => none, 0, [], [], fun _ => none, fun _ => 0, 0, []⟩

/-- ngx_map_find (409, 425) -/
def find (s : State) (l : List Nat) (p : Nat) : Option Nat := l.find? fun i => (s.recs i).stream == p

/-- ngx_live_relay_get_static_relay (282-304) and 420-421: the record has no session and no `next`. -/
def get (s : State) (p : Nat) : State × Nat :=
  match s.free with
  | i :: l => ({ s with free := l, recs := upd s.recs i ⟨p, none⟩, next := upd s.next i none }, i)
  | [] => ({ s with nalloc := s.nalloc + 1, recs := upd s.recs s.nalloc ⟨p, none⟩, next := upd s.next s.nalloc none }, s.nalloc)

/-- ngx_live_relay_put_static_relay (307-314) -/
def put (s : State) (i : Nat) : State := { s with free := i :: s.free, next := upd s.next i s.free.head? }

/-- The variables of ngx_live_relay_static_init_main_dconf: `new` is `pulls[used]` for the new `used`, `head` is `sl`, `last` the record that `sll` points into. -/
structure Work where
  s : State
  new : List Nat
  head : Option Nat
  last : Option Nat

/-- 432-433: `old` is appended; its own `next` is not written. -/
def link (w : Work) (old : Nat) : Work :=
  match w.last with
  | none => { w with head := some old, last := some old }
  | some k => { w with s := { w.s with next := upd w.s.next k (some old) }, last := some old }

/-- One turn of the loop for a pull of this worker that is not a duplicate (415-434) -/
def enter (w : Work) (p : Nat) : Work :=
  let g := get w.s p
  let w := { w with s := g.1, new := w.new ++ [g.2] }
  match find w.s w.s.pulls p with
  | none => w
  | some old => link { w with s := { w.s with recs := upd w.s.recs g.2 ⟨p, (w.s.recs old).session⟩ } } old

/-- The loop (398-435); `false`: a duplicate (409-413) -/
def collect : Work → List Nat → Bool × Work
  | w, [] => (true, w)
  | w, p :: ps => if (find w.s w.new p).isSome then (false, w) else collect (enter w p) ps

/-- 438-444. The number bounds the turns: after as many as there are records one of them would be freed twice. -/
def walk : Nat → State → Option Nat → Option State
  | _, s, none => some s
  | 0, _, some _ => none
  | f + 1, s, some i =>
    if i ∈ s.free then none
    else walk f (put { s with pulls := s.pulls.filter fun j => (s.recs j).stream != (s.recs i).stream } i) (s.next i)

/-- 447-460: without a session, or with one that no longer exists, 453 follows a wrong pointer. -/
def stop : State → List Nat → Option State
  | s, [] => some s
  | s, i :: l =>
    match (s.recs i).session with
    | none => none
    | some d =>
      if (s.live d).isNone then none
      else stop (put { s with live := upd s.live d none, stopped := s.stopped ++ [d] } i) l

/-- ngx_live_relay_static_relay (163-256): a session for the record; `bad` are the streams for which it cannot be made (180-193). -/
def create (bad : List Nat) (s : State) (i : Nat) : State :=
  if (s.recs i).stream ∈ bad then s
  else { s with
    recs := upd s.recs i ⟨(s.recs i).stream, some s.sids⟩
    live := upd s.live s.sids (some (s.recs i).stream)
    ctx := upd s.ctx s.sids i
    sids := s.sids + 1 }

/-- 463-473 -/
def begin_ (bad : List Nat) : State → List Nat → Option State
  | s, [] => some s
  | s, i :: l =>
    match (s.recs i).session with
    | none => begin_ bad (create bad s i) l
    | some d => if (s.live d).isNone then none else begin_ bad { s with ctx := upd s.ctx d i } l

/-- ngx_live_relay_static_init_main_dconf (373-492) for the pulls that are this worker's (401-406) -/
def reload (s : State) (ps bad : List Nat) : Option State :=
  match collect ⟨s, [], none, none⟩ ps with
  | (false, w) => some (w.new.foldl put w.s)
  | (true, w) =>
    (walk (w.new.length + w.s.nalloc) w.s w.head).bind fun s =>
      (stop s s.pulls).bind fun s => (begin_ bad s w.new).map fun s => { s with pulls := w.new }

/-- A session ends without having been given up: ngx_live_relay_static_pull (260-279) makes another for its record; `ok` says whether it can. -/
def again (s : State) (d : Nat) (ok : Bool) : State :=
  match s.live d with
  | none => s
  | some _ => create (if ok then [] else [(s.recs (s.ctx d)).stream]) { s with live := upd s.live d none } (s.ctx d)

/-- The pulls of worker `w` of `n` (401-406); `hash` is ngx_hash_key_lc (nginx core). -/
def share (hash : Nat → Nat) (n w : Nat) (ps : List Nat) : List Nat := ps.filter fun p => hash p % n == w

/-- What happens -/
inductive Op where
  | reload (ps bad : List Nat)
  | again (d : Nat) (ok : Bool)

/-- One of them (260-279, 373-492) -/
def step (s : State) : Op → Option State
  | .reload ps bad => reload s ps bad
  | .again d ok => some (again s d ok)

/-- One after the other -/
def run : State → List Op → Option State
  | s, [] => some s
  | s, o :: os => (step s o).bind fun s' => run s' os

end Verif.Pulls
