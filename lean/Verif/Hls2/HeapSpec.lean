import Verif.Hls2.HeapModel
import Verif.Hls2.RunLemmas
/-
What is expected of the memory of HLS: as if a session were all that was fed to it, and a response were made from a copy of the fragment as it was when it was asked for.
-/
namespace Verif.Hls2.Mem.Spec
open Verif Verif.Hls2 Verif.Hls2.Mem

/-- A session: all that was fed to it, and the request it knows (the last one, if no request of the session has ended since) -/
structure ISess where
  conf : Conf
  fed : List (Codec × List Frame) := []
  last : Option Nat := none
  deriving DecidableEq, Repr

/-- What the session is then (C74) -/
def ISess.now (x : ISess) : Option Sess := feeds x.conf x.fed ⟨init x.conf, []⟩

/-- A response: a copy of the fragment, and how often it was sent from -/
structure IReq where
  sess : Nat
  frag : Frag
  sends : Nat := 0
  deriving DecidableEq, Repr

/-- Four frames each time, until the end -/
def IReq.sent (r : IReq) : Bytes := ((r.frag.content.take r.frag.last).take (4 * r.sends)).flatMap (·.data)

structure IWorld where
  sess : List (Option ISess) := []
  reqs : List (Option IReq) := []
  deriving DecidableEq, Repr

def IWorld.session (w : IWorld) (sid : Nat) : Option ISess := (w.sess[sid]?).join
def IWorld.request (w : IWorld) (rid : Nat) : Option IReq := (w.reqs[rid]?).join

/-- What a session answers to a name -/
def ISess.find (x : ISess) (name : HlsRestore.Text) (after : Char) : Option Frag := x.now.bind fun s => findFrag x.conf s.st name after

def IWorld.finish (w : IWorld) (rid : Nat) (r : IReq) : IWorld :=
  match w.session r.sess with
  | none => { w with reqs := w.reqs.set rid none }
  | some x => { sess := w.sess.set r.sess (some { x with last := none }), reqs := w.reqs.set rid none }

/-- A request of the session was over at once. -/
def IWorld.forget (w : IWorld) (sid : Nat) (x : ISess) : IWorld := { w with sess := w.sess.set sid (some { x with last := none }) }

/-- The request is none of this session. -/
def dropOf (sid : Nat) : Option IReq → Option IReq
  | none => none
  | some r => if r.sess = sid then none else some r

def istep (w : IWorld) : Op → IWorld
  | .join c => { w with sess := w.sess ++ [some { conf := c }] }
  | .feed sid k fs =>
    match w.session sid with
    | none => w
    | some x => { w with sess := w.sess.set sid (some { x with fed := x.fed ++ [(k, fs)] }) }
  | .ask sid name after =>
    match w.session sid with
    | none => w
    | some x =>
      match x.find name after with
      | none => w.forget sid x
      | some g => { sess := w.sess.set sid (some { x with last := some w.reqs.length }), reqs := w.reqs ++ [some { sess := sid, frag := g }] }
  | .askFails sid _ _ =>
    match w.session sid with
    | none => w
    | some x => w.forget sid x
  | .playlist sid =>
    match w.session sid with
    | none => w
    | some x => w.forget sid x
  | .send rid =>
    match w.request rid with
    | none => w
    | some r => { w with reqs := w.reqs.set rid (some { r with sends := r.sends + 1 }) }
  | .finish rid =>
    match w.request rid with
    | none => w
    | some r => w.finish rid r
  | .close sid =>
    match w.session sid with
    | none => w
    | some _ => { sess := w.sess.set sid none, reqs := w.reqs.map (dropOf sid) }

/-- Steps for which this has to be so: sessions have plain slicing and queues of the same size; times are below 2^63; what is asked for is not the fragment being written; headers can be sent;
and when a session is closed no request is going on that it does not know. -/
def Orderly (q : Nat) (w : IWorld) : Op → Prop
  | .join c => Plain c ∧ c.queue = q
  | .feed _ _ fs => ∀ f ∈ fs, f.pts < 2 ^ 63
  | .ask sid name after => ∀ x s i, w.session sid = some x → x.now = some s → findSlot x.conf s.st.nfrag s.st.nfrags name after = some i → s.st.opened = true → i ≠ (s.st.nfrag + s.st.nfrags) % x.conf.size
  | .askFails sid name after => ∀ x, w.session sid = some x → x.find name after = none
  | .playlist _ => True
  | .send _ => True
  | .finish _ => True
  | .close sid => ∀ x, w.session sid = some x → ∀ rid r, w.request rid = some r → r.sess = sid → x.last = some rid

/-- A run of such steps -/
def Runs (q : Nat) : List Op → IWorld → IWorld → Prop
  | [], w, w' => w' = w
  | o :: l, w, w' => Orderly q w o ∧ Runs q l (istep w o) w'

end Verif.Hls2.Mem.Spec
