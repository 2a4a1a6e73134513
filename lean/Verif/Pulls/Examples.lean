import Verif.Pulls.Props
/-
Cases that meet the hypotheses of C89.
-/
namespace Verif.Pulls

/-- Three configurations, a session that ends in between, a stream that comes back (C89_sessions_partial, C89_kept_partial) -/
def os : List Op := [.reload [3, 1, 2] [], .again 1 true, .reload [2, 4, 3] [], .reload [1, 3] []]

example : Calm os := by unfold os Calm; refine ⟨by decide, rfl, rfl, by decide, rfl, by decide, rfl, trivial⟩
example : wanted [] os = [1, 3] := by decide
example : (run State.init os).map (fun s => ((List.range 8).map s.live, s.stopped)) = some ([some 3, none, none, none, none, some 1, none, none], [3, 2, 4]) := by decide
example : (run State.init os).isSome = true ∧ [3, 5].Nodup ∧ ¬ [3, 5, 3].Nodup := by decide
-- C89_worker: three workers
example : (List.range 3).map (fun w => share (fun p => p * 7) 3 w [1, 2, 3, 4, 5]) = [[3], [1, 4], [2, 5]] := by decide

end Verif.Pulls
