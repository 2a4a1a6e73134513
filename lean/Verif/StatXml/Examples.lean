import Verif.StatXml.Props
/-
Examples for C83: a worker with a server, a stream and a publisher meets the hypotheses.
-/
namespace Verif.StatXml

theorem wSaneBw {sec : Nat} {b : Bandwidth.Bw} (h1 : Spec.rate sec b < 2 ^ 64) (h2 : b.bytes < 2 ^ 64) : SaneBw sec b := ⟨h1, h2⟩

theorem wSaneClient : SaneClient (wWorld [0x68] [wStream [0x68, 0x2f, 0x6c, 0x2f, 0x78] [wClient]]) wClient := ⟨by decide, by decide, by decide, by decide⟩

theorem wSaneCodec : SaneCodec ⟨1280, 720, [0x32, 0x35], [0x48], 66, 31, 0, [0x33], [], 2, false, false, 2, 0, 44100⟩ :=
  ⟨by decide, by decide, ⟨by decide, by decide⟩, by decide, by decide, ⟨by decide, by decide⟩, by decide, by decide, by decide, by decide⟩

theorem wSane : Sane (wWorld [0x68] [wStream [0x68, 0x2f, 0x6c, 0x2f, 0x78] [wClient]]) where
  version := by decide
  rtmpVersion := by decide
  compiler := by decide
  built := by decide
  pid := by decide
  sec := by decide
  start := by decide
  naccepted := by decide
  bwIn := ⟨by decide, by decide⟩
  bwOut := ⟨by decide, by decide⟩
  servers := by
    intro s hs
    have hs : s ∈ [(⟨[0x68], [[wStream [0x68, 0x2f, 0x6c, 0x2f, 0x78] [wClient]]]⟩ : Server)] := hs
    rw [List.mem_singleton] at hs
    subst hs
    refine ⟨by decide, ?_, by decide⟩
    intro x hx
    have hx : x ∈ [wStream [0x68, 0x2f, 0x6c, 0x2f, 0x78] [wClient]] := hx
    rw [List.mem_singleton] at hx
    subst hx
    refine ⟨by decide, by decide, by decide, ⟨by decide, by decide⟩, ⟨by decide, by decide⟩, ⟨by decide, by decide⟩, ⟨by decide, by decide⟩, ?_, by decide, ?_⟩
    · intro c hc
      have hc : c ∈ [wClient] := hc
      rw [List.mem_singleton] at hc
      subst hc
      exact wSaneClient
    · intro c hc y hy
      have hc : c ∈ [wClient] := hc
      rw [List.mem_singleton] at hc
      subst hc
      cases hy
      exact wSaneCodec

example : ∃ a n, handler true [0x73] (wWorld [0x68] [wStream [0x68, 0x2f, 0x6c, 0x2f, 0x78] [wClient]]) = some a ∧ read a.body = some n ∧
    Spec.Says true (wWorld [0x68] [wStream [0x68, 0x2f, 0x6c, 0x2f, 0x78] [wClient]]) n := C83_says _ _ _ wSane

/-- Times and texts of that publisher can be told. -/
example : ((wClient.audioTs.toNat : Int) - wClient.videoTs.toNat).natAbs < 2 ^ 31 := by decide
example : (0x2f : UInt8) ∈ (wStream [0x68, 0x2f, 0x6c, 0x2f, 0x78] [wClient]).name.drop 1 := by decide

end Verif.StatXml
