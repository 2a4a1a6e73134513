import Verif.Hls.RestoreModel
/- What a continued stream has to find in its playlist. -/
namespace Verif.HlsRestore
open Verif.HlsFrag

/-- A playlist gives durations to the millisecond. -/
def rounded (f : Frag) : Frag := { f with dur := (f.dur + 45) / 90 * 90 }

/-- Names and numbers that make a proper playlist with lines short enough. -/
structure Fits (c : Names) (p : Playlist) : Prop where
  hSeq : p.seq < 2 ^ 64
  hTarget : p.target < 2 ^ 64
  hName : '\n' ∉ c.name
  hBase : '\n' ∉ c.baseUrl
  hKeyUrl : '\n' ∉ c.keyUrl
  hLen : 2 * c.name.length + c.baseUrl.length + c.keyUrl.length ≤ 800
  hTag : (c.baseUrl ++ c.name).head? ≠ some '#'
  hFrags : ∀ f ∈ p.entries, f.id < 2 ^ 64 ∧ f.keyId < 2 ^ 64 ∧ f.dur < 2 ^ 64 ∧ (c.keys = false → f.keyId = 0)

end Verif.HlsRestore
