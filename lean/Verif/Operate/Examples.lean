import Verif.Operate.Props
/-
A process that meets the conditions of C84, and requests.
-/
namespace Verif.Operate
open Verif

def exHash (b : Bytes) : Nat := b.foldl (fun v x => v * 31 + x.toNat) 0

/-- `a/l/s` -/
def exName : Bytes := [0x61, 0x2f, 0x6c, 0x2f, 0x73]
/-- `a/m/s` -/
def exName2 : Bytes := [0x61, 0x2f, 0x6d, 0x2f, 0x73]

def exPub : Sess := { ref := 10, number := 1, addr := [0x31] }
def exSub : Sess := { ref := 11, number := 2, addr := [0x32] }
def exSub2 : Sess := { ref := 12, number := 3, addr := [0x31] }

def exStream : Stream := { name := exName, play := [{ session := some exSub, publishing := false }, { session := none, publishing := false }], pub := [{ session := some exPub, publishing := true }] }
def exStream2 : Stream := { name := exName2, play := [{ session := some exSub2, publishing := false }], pub := [] }

/-- One server with two streams in three buckets; a second server without streams. -/
def exWorld : World :=
  { servers := [[{ id := [0x62], streams := [[], [], []] }], [{ id := [0x61], streams := [[exStream], [exStream2], []] }]], hash := exHash }

example : (exHash exName % 3, exHash exName2 % 3, exHash [0x61] % 2, exHash [0x62] % 2) = (0, 1, 1, 0) := by decide

theorem exWF : WF exWorld := by
  have two : ∀ {α : Type} {x y : α} {P : Nat → α → Prop}, P 0 x → P 1 y → ∀ (i : Nat) b, [x, y][i]? = some b → P i b := by
    intro α x y P h0 h1 i b h
    match i with
    | 0 => cases h; exact h0
    | 1 => cases h; exact h1
    | n + 2 => cases h
  have three : ∀ {α : Type} {x y z : α} {P : Nat → α → Prop}, P 0 x → P 1 y → P 2 z → ∀ (i : Nat) b, [x, y, z][i]? = some b → P i b := by
    intro α x y z P h0 h1 h2 i b h
    match i with
    | 0 => cases h; exact h0
    | 1 => cases h; exact h1
    | 2 => cases h; exact h2
    | n + 3 => cases h
  refine ⟨two (P := fun i b => ∀ s ∈ b, exHash (Server.id s) % 2 = i) (by decide) (by decide), by decide, ?_, by decide, by decide, by decide⟩
  intro s hs
  rcases List.mem_cons.1 hs with e | hs
  · subst e
    exact three (P := fun i b => ∀ st ∈ b, exHash (Stream.name st) % 3 = i) (by decide) (by decide) (by decide)
  · rcases List.mem_cons.1 hs with e | hs
    · subst e
      exact three (P := fun i b => ∀ st ∈ b, exHash (Stream.name st) % 3 = i) (by decide) (by decide) (by decide)
    · cases hs

def exSt : St := { pause := fun _ => 0, dropped := fun _ => false, told := [] }

/-- `/c/<section>/<role>` with `srv=a` and what else is given -/
def exReq (a : Act) (f : Role) (app name addr : Option Bytes) : Req :=
  { uri := [0x2f, 0x63, 0x2f] ++ actText a ++ 0x2f :: roleText f
    arg := fun x => match x with | .srv => some [0x61] | .app => app | .name => name | .addr => addr | _ => none }

theorem exNames (a : Act) (f : Role) (app name addr : Option Bytes) : Names (exReq a f app name addr).uri (actText a) (roleText f) :=
  ⟨⟨[0x2f, 0x63], by cases a <;> cases f <;> rfl⟩, by cases a <;> decide, by cases f <;> decide⟩

theorem exGood (a : Act) (f : Role) (addr : Option Bytes) : Good (exReq a f (some [0x6c]) none addr) [0x61] :=
  ⟨rfl, (fun h => by cases h), (fun _ => show 1 + 1 + 2 ≤ 512 by decide), (show (0 : UInt8) ∉ [0x61] ∧ (0 : UInt8) ∉ [0x6c] by decide)⟩

/-- Everybody on the application `l` -/
example : (hits exWorld.servers.flatten (asked (exReq .drop .client (some [0x6c]) none none) [0x61] .client)).map Sess.ref = [11, 10] := by decide

/-- The conditions hold together: both of them are dropped, and the answer is 2. -/
example : ∃ st', handler exWorld (fun _ => true) (exReq .drop .client (some [0x6c]) none none) (fun _ => true) (fun _ => true) exSt = some (.count 2, st') ∧
    st'.dropped 10 = true ∧ st'.dropped 11 = true ∧ st'.dropped 12 = false := by
  obtain ⟨st', h1, h2, _⟩ := C84_drop_partial exWF (exGood .drop .client none) (fun _ => true) (fun _ => true) (fun _ => true) .client rfl (exNames _ _ _ _ _) exSt
  refine ⟨st', h1, (h2 10).2 (.inr ⟨exPub, by decide, rfl⟩), (h2 11).2 (.inr ⟨exSub, by decide, rfl⟩), ?_⟩
  cases e : st'.dropped 12 with
  | false => rfl
  | true =>
    rcases (h2 12).1 e with h | ⟨s, hs, he⟩
    · cases h
    · exact absurd he (by revert s; decide)

/-- A request to pause the publisher: it is paused, its players get nothing. -/
example : ∃ st', handler exWorld (fun _ => true) (exReq .pause .publisher (some [0x6c]) none none) (fun _ => true) (fun _ => true) exSt = some (.count 1, st') ∧
    deliver st'.pause 10 [11] { codec := none, video := true, key := true } = [] := by
  obtain ⟨st', h1, h2, _⟩ := C84_pause_partial exWF (exGood .pause .publisher none) (fun _ => true) (fun _ => true) (fun _ => true) .publisher rfl (exNames _ _ _ _ _) exSt
  refine ⟨st', h1, ?_⟩
  unfold deliver
  rw [show (10 : Nat) = exPub.ref from rfl, h2 exPub (by decide)]
  rfl

/-- A request to pause the player: it is answered with 1, and the player still gets the frame. -/
example : ∃ st', handler exWorld (fun _ => true) (exReq .pause .subscriber (some [0x6c]) none none) (fun _ => true) (fun _ => true) exSt = some (.count 1, st') ∧
    deliver st'.pause 10 [11] { codec := none, video := true, key := true } = [11] := by
  obtain ⟨st', h1, h2⟩ := C84_subscriber_violation exWF (exGood .pause .subscriber none) (fun _ => true) (fun _ => true) (fun _ => true) rfl
    (exNames _ .subscriber _ _ _) exSt 10 (by decide)
  exact ⟨st', h1, by rw [h2]; rfl⟩

/-- Without an application: the stream `x` is asked for, which is not there, and all three sessions are dropped. -/
example : hits exWorld.servers.flatten (asked (exReq .drop .client none (some [0x78]) none) [0x61] .client) = [] ∧
    (handler exWorld (fun _ => true) (exReq .drop .client none (some [0x78]) none) (fun _ => true) (fun _ => true) exSt).map
      (fun p => (p.1, [10, 11, 12].map p.2.dropped)) = some (.count 3, [true, true, true]) := by decide

/-- The address and the number of a client select. -/
example : (hits exWorld.servers.flatten (asked (exReq .drop .client none none (some [0x31])) [0x61] .client)).map Sess.ref = [10, 12] := by decide

/-- A paused and resumed publisher: audio and the frames in front of the key frame are held back. -/
example : (frames 2 [{ codec := some 7, video := false, key := false }, { codec := some 7, video := true, key := false },
    { codec := some 7, video := true, key := true }, { codec := some 7, video := false, key := false }]).2.length = 2 := by decide

/-- A player that is redirected from stream 7 to stream 9: on neither. -/
example : ∃ s a, LiveCtx.Reach s a ∧ a.on 0 = some (7, false) ∧
    (redirect s 0 9 false).map (fun s => (s.heads (7, false), s.heads (9, false), s.reg 9)) = some (none, none, false) := by
  have r1 := LiveCtx.Reach.step (o := .connect) LiveCtx.Reach.init trivial rfl
  have r2 := LiveCtx.Reach.step (o := .play 0 7) r1 (by decide) rfl
  exact ⟨_, _, r2, rfl, by decide⟩

/-- A long application. -/
example : handler exWorld (fun _ => true) (exReq .drop .client (some (List.replicate 510 0x78)) none none) (fun _ => true) (fun _ => true) exSt = none :=
  C84_bound_violation exWorld _ _ _ _ exSt .client [0x61] { id := [0x61], streams := [[exStream], [exStream2], []] } rfl (exNames _ _ _ _ _) rfl (by decide)
    (by decide) (List.replicate 510 0x78) rfl (fun h => by cases h) rfl
    (by rw [List.length_replicate]; decide)

end Verif.Operate
