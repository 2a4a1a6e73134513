import Verif.Live.GopSendModel
/- Specification for C62: what a player may expect of the messages put in its queue. Frames are numbers, in the order of publication. -/
namespace Verif.GopSend
open Verif.Gop (Fr)

/-- The frames published by a sequence of operations. -/
def published : List Op → List Fr
  | [] => []
  | .pub fr _ :: os => fr :: published os
  | _ :: os => published os

/-- The audio and video frames among messages. -/
def avs : List Item → List Nat
  | [] => []
  | .av f :: is => f :: avs is
  | .md _ :: is => avs is

/-- The metadata among messages. -/
def mds : List Item → List Nat
  | [] => []
  | .av _ :: is => mds is
  | .md m :: is => m :: mds is

/-- Kinds of frames, for the frames `fr`. -/
def Header (fr : Nat → Fr) (x : Nat) : Bool := (fr x).header
def Media (fr : Nat → Fr) (x : Nat) : Bool := !(fr x).header
def Video (fr : Nat → Fr) (x : Nat) : Bool := (fr x).video && !(fr x).header
def Inter (fr : Nat → Fr) (x : Nat) : Bool := (fr x).video && !(fr x).header && !(fr x).key

/-- The `n`-th frame of a list; beyond its end it does not matter. -/
def nth (l : List Fr) (x : Nat) : Fr := (l[x]?).getD ⟨false, false, false⟩

/-- Codec headers come first (at most two), or when there has been a key frame. -/
def Regular (l : List Fr) : Prop :=
  ∀ x, x < l.length → (nth l x).header = true →
    (x < 2 ∧ ∀ y, y < x → (nth l y).header = true) ∨ ∃ y, y < x ∧ (nth l y).key = true ∧ (nth l y).header = false

/-- Codec headers come only first, at most two. -/
def HeadersFirst (l : List Fr) : Prop := ∀ x, x < l.length → (nth l x).header = true → x < 2 ∧ ∀ y, y < x → (nth l y).header = true

/-- Only video frames are key frames. -/
def Tagged (l : List Fr) : Prop := ∀ fr ∈ l, fr.key = true → fr.video = true

/-- In order and none twice. -/
def Ordered (fr : Nat → Fr) (log : List Item) : Prop := ((avs log).filter (Media fr)).Pairwise (· < ·)

/-- Every inter frame comes after the video frame that was published right before it, with no other video frame in between. -/
def Decodable (fr : Nat → Fr) (log : List Item) : Prop :=
  ∀ a x c, log = a ++ .av x :: c → Inter fr x = true →
    ∃ y, ((avs a).filter (Video fr)).getLast? = some y ∧ y < x ∧ ∀ z, y < z → z < x → Video fr z = false

/-- The last header of a kind. -/
def lastOf (fr : Nat → Fr) (v : Bool) (l : List Nat) : Option Nat := (l.filter fun f => (fr f).header && (fr f).video == v).getLast?

/-- Whenever a frame comes that is not a header, the last audio header and the last video header that came before it are those that were the last
ones when it was published. -/
def Configured (fr : Nat → Fr) (log : List Item) : Prop :=
  ∀ a x c, log = a ++ .av x :: c → (fr x).header = false → ∀ v, lastOf fr v (avs a) = lastOf fr v (List.range x)

/-- Every frame is taken by the cache when it is published. -/
def AllTaken (k : Conf) : World → List Op → Prop
  | _, [] => True
  | w, o :: os =>
    (match o with
      | .pub fr t => ∀ b, cachePub k w.b fr t = some b → b.st.acq w.b.st.n = 1
      | _ => True) ∧
    ∀ w', step k w o = some w' → AllTaken k w' os

/-- A player begins to play once, and before it goes on after a pause. `seen`: the players that have begun. -/
def Once : List Nat → List Op → Prop
  | _, [] => True
  | seen, .join i :: os => i ∉ seen ∧ Once (i :: seen) os
  | seen, .resume i :: os => Once (i :: seen) os
  | seen, _ :: os => Once seen os

/-- The cache holds the frames from number `D` to the newest, in the slots after `pos`. -/
def Held (k : Conf) (b : Pub) (D : Nat) : Prop :=
  D ≤ b.st.n ∧ b.st.n - D < k.c.q ∧ b.st.pos = D % k.c.q ∧ ∀ x, D ≤ x → x < b.st.n → b.st.cache (x % k.c.q) = some x

/-- The operation does not stop or restart the player `i`. -/
def Steady (i : Nat) : Op → Prop
  | .pause j => j ≠ i
  | .resume j => j ≠ i
  | _ => True

/-- The operation is not a change of the metadata. -/
def NoData : Op → Prop
  | .data _ => False
  | _ => True

end Verif.GopSend
