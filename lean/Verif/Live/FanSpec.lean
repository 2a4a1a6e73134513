import Verif.Live.FanModel
/- What a subscriber of a live stream has to get. -/
namespace Verif.Live

/-- The messages among what was queued. -/
def avs : List Out → List Msg
  | [] => []
  | .av m :: os => m :: avs os
  | _ :: os => avs os

/-- The messages of an operation and of all. -/
def msgOf : Op → List Msg
  | .av _ _ _ m => [m]
  | _ => []

def published (ops : List Op) : List Msg := ops.flatMap msgOf

/-- A message is queued after a codec header of its kind. -/
def HeadersFirst (out : List Out) : Prop := ∀ pre m post, out = pre ++ .av m :: post → ∃ f ts, .header f m.video ts ∈ pre

/-- The first video message is a key frame. -/
def KeyFirst (ms : List Msg) : Prop := ∀ pre m post, ms = pre ++ m :: post → m.video = true → (∀ x ∈ pre, x.video = false) → m.ftype = 1

/-- The codec module has the headers. -/
def KnowsHeaders : Op → Prop
  | .av _ _ codec _ => ∃ k f g, codec = some k ∧ k.avc = some f ∧ k.aac = some g
  | _ => True

/-- Session `s` takes all messages. -/
def TakesAll (s : Nat) : Op → Prop
  | .av ok _ _ _ => ∀ o, ok s o = true
  | _ => True

/-- A session publishes or plays, not both. -/
def OneRole (ops : List Op) : Prop := ∀ id, (∃ pri, .publish id pri ∈ ops) → ¬ ∃ ok silent, .play ok id silent ∈ ops

/-- No publisher on the stream has a higher priority. -/
def Highest (st : St) (p : Ctx) : Prop := p ∈ st.ctxs ∧ p.publishing = true ∧ ∀ q ∈ st.ctxs, q.publishing = true → q.pri ≤ p.pri

/-- A message is a codec header for the publisher's codec. -/
def isHeader (k : Codec) (m : Msg) : Bool := m.hdr && (if m.video = true then k.isH264 else k.isAac)

/-- What a subscriber has to get of the messages `ms` (with what is known of the codec), each kind on its own: everything once it has begun, and it begins with
a key frame, or with any frame if it does not wait for one, and with any audio but a header. -/
def due (waitKey : Bool) : (vOn aOn : Bool) → List (Codec × Msg) → List Msg
  | _, _, [] => []
  | vOn, aOn, (k, m) :: ms =>
    if m.video = true then
      if vOn = true ∨ (isHeader k m = false ∧ (waitKey = true → m.ftype = 1)) then m :: due waitKey true aOn ms else due waitKey vOn aOn ms
    else
      if aOn = true ∨ isHeader k m = false then m :: due waitKey vOn true ms else due waitKey vOn aOn ms

/-- A message of an FLV stream: video frames are key frames or inter frames. -/
def validFrame (m : Msg) : Prop := m.video = true → m.ftype = 1 ∨ m.ftype = 2

/-- A channel of a subscriber goes on with the next message: it has begun, and no more was missed than is allowed. -/
def goesOn (cfg : Cfg) (x : Cs) : Bool := x.active && (cfg.sync == 0 || decide (x.dropped ≤ cfg.sync))

/-- A channel that has not begun has missed no more than is allowed (it has missed nothing if codec headers were known all the time). -/
def fresh (cfg : Cfg) (x : Cs) : Prop := x.active = true ∨ cfg.sync = 0 ∨ x.dropped ≤ cfg.sync

/-- A subscriber of the stream that is not paused. -/
def follows (cfg : Cfg) (st : St) (c : Ctx) : Prop := c ∈ st.ctxs ∧ c.publishing = false ∧ c.paused = false ∧ fresh cfg c.v ∧ fresh cfg c.a

end Verif.Live
