import Verif.Json.StatProps
/-
The theorems of C81 are about something.
-/
namespace Verif.Json
open Spec

def exCodec : Codec := ⟨1280, 720, [0x33, 0x30, 0x2e, 0x30], [0x48, 0x32, 0x36, 0x34], 100, 31, [0x33, 0x2e, 0x31], [0x41, 0x41, 0x43], 2, false, false, 2, 2, 44100⟩

/-- A publisher, a viewer by RTMP and one by HTTP-FLV, and a session that hands the stream on -/
def exPub : Client := ⟨7, [0x31], [0x32], 1000, [0x46, 0x22], [], [], 0, 40, 60, 60, true, true, true, false, false, .rtmp, some exCodec⟩
def exPlay : Client := ⟨8, [0x33], [], 2000, [], [0x70], [], 3, 40, 40, 40, true, false, false, false, false, .rtmp, none⟩
def exFlv : Client := ⟨9, [], [], 2500, [], [], [], 0, 40, 20, 40, true, false, false, false, false, .flv, none⟩
def exRelay : Client := ⟨10, [], [], 2500, [], [], [], 0, 0, 0, 0, true, false, false, true, false, .rtmp, none⟩
def exHls : Client := ⟨11, [], [], 2600, [], [], [], 0, 0, 0, 0, true, false, false, false, false, .hls, none⟩

def exBw : Bandwidth.Bw := ⟨5000, 100, 20, 300⟩
def exStream : Stream := ⟨[0x61], 900, exBw, exBw, exBw, exBw, [exRelay, exFlv, exPlay, exPub], true⟩
def exServer : Server := ⟨[0x73], [[], [exStream], [{ exStream with name := [0x62], clients := [] }]]⟩
def exWorld : World := ⟨0, 1, 4711, 5000, 25, [0x31], [0x67], [0x4e], 4, exBw, exBw, [[exServer], [], [{ exServer with streams := [] }]]⟩

theorem exBw_sane : SaneBw exBw := ⟨by decide, by decide, by decide⟩

theorem exClients_sane : ∀ c ∈ exStream.clients, SaneClient c := by
  intro c hc
  simp only [exStream, List.mem_cons, List.not_mem_nil, or_false] at hc
  rcases hc with rfl | rfl | rfl | rfl
  · exact ⟨by decide, by decide, by decide, fun x hx => absurd hx (by simp [exRelay])⟩
  · exact ⟨by decide, by decide, by decide, fun x hx => absurd hx (by simp [exFlv])⟩
  · exact ⟨by decide, by decide, by decide, fun x hx => absurd hx (by simp [exPlay])⟩
  · refine ⟨by decide, by decide, by decide, fun x hx => ?_⟩
    simp only [exPub, Option.some.injEq] at hx
    rw [← hx]
    exact ⟨by decide, by decide, by decide, by decide, by decide⟩

theorem exWorld_sane : Sane exWorld := by
  refine ⟨by decide, by decide, by decide, by decide, by decide, by decide, exBw_sane, exBw_sane, fun s hs => ?_⟩
  have hs' : s = exServer ∨ s = { exServer with streams := [] } := by simpa [exWorld] using hs
  rcases hs' with rfl | rfl
  · refine ⟨fun x hx => ?_, by decide⟩
    have hx' : x = exStream ∨ x = { exStream with name := [0x62], clients := [] } := by simpa [exServer] using hx
    rcases hx' with rfl | rfl
    · exact ⟨by decide, exBw_sane, exBw_sane, exBw_sane, exBw_sane, exClients_sane⟩
    · exact ⟨by decide, exBw_sane, exBw_sane, exBw_sane, exBw_sane, fun c hc => absurd hc (by simp)⟩
  · exact ⟨fun x hx => absurd hx (by simp), by decide⟩

example : weight 0 (root exWorld) < 2147483646 := by decide +kernel

/-- Two watch: the publisher and the relay are not counted. -/
example : viewers exStream.clients = 2 ∧ ofKind .rtmp exStream.clients = 1 ∧ ofKind .flv exStream.clients = 1 := by decide

/-- Somebody watches by HLS, and is not in the list that is counted. -/
example : ((([Op.publish exPub, .play exHls, .play exFlv].foldl listStep {}).hls.map (·.number)) = [11]) ∧ (([Op.publish exPub, .play exHls, .play exFlv].foldl listStep {}).ctx.map (·.number)) = [9, 7] := by decide
example : ∀ o ∈ [Op.publish exPub, .play exHls, .play exFlv], Allowed o := by
  intro o ho
  simp only [List.mem_cons, List.not_mem_nil, or_false] at ho
  rcases ho with rfl | rfl | rfl
  · exact .inl rfl
  · trivial
  · trivial

example : exFlv.audioTs.toNat < exFlv.videoTs.toNat ∧ exPub.videoTs.toNat ≤ exPub.audioTs.toNat := by decide
example : exStream.clients.filter (·.joinedAsPublisher) = [exPub] := by rfl

end Verif.Json
