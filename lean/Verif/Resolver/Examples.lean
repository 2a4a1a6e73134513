import Verif.Resolver.Props
/-
Cases that meet the hypotheses of the theorems.
-/
namespace Verif.Resolver

/-- Two callers ask for `a.b`, one of them in capitals, one for `c.d`; `a.b` is answered, `c.d` fails; the timer asks again; `c.d` is removed when nothing is under way. -/
def day : List Op :=
  [.add nameA, .start nameA 1 0, .start [65, 46, 66] 2 0, .start nameB 3 0, .result 0 [v4 10 0 0 1] fun _ => 0, .result 1 [] fun _ => 0, .result 0 [v4 10 0 0 1, v4 10 0 0 2] fun _ => 5, .start nameA 4 1, .del nameB, .timer]

/-- C86_once, C86_own_partial, C86_lookup_partial: the run is defined, everyone is called, and `A.b` is found. -/
example : (run plainConf State.init day).map (fun s => s.out) =
    some [(2, some (v4 10 0 0 1)), (1, some (v4 10 0 0 1)), (3, none), (4, some (v4 10 0 0 2))] := by decide +kernel
example : (run plainConf State.init day).map (fun s => (waiting s.recs s.nalloc, s.flights)) = some ([], [(0, nameA)]) := by decide +kernel
example : (run plainConf State.init day).bind (fun s => gethost plainConf s [65, 46, 98] 3) = some (some (v4 10 0 0 2)) := by decide +kernel
example : (run plainConf State.init day).bind (fun s => gethost plainConf s nameB 0) = some none := by decide +kernel
example : told (events plainConf State.init day) nameA = some [v4 10 0 0 1, v4 10 0 0 2] := by decide +kernel
example : told (events plainConf State.init day) nameB = none := by decide +kernel
example : asked day = [1, 2, 3, 4] := by decide
example : Plain plainConf nameA := by decide

def calmB (c : Conf) : State → List Op → Bool
  | _, [] => true
  | s, o :: os => (match o with
      | .del n => s.flights.all fun f => decide (small f.2 ≠ small n)
      | _ => true) && match step c s o with
      | none => true
      | some s' => calmB c s' os

theorem calm_of (c : Conf) : ∀ (os : List Op) (s : State), calmB c s os = true → Calm c s os
  | [], _, _ => trivial
  | o :: os, s, h => by
    simp only [calmB, Bool.and_eq_true] at h
    refine ⟨fun n hn f hf => ?_, fun s' hs => ?_⟩
    · subst hn
      have := List.all_eq_true.1 h.1 f hf
      simpa using this
    · have h2 := h.2
      rw [hs] at h2
      exact calm_of c os s' h2

/-- The day is calm: when `c.d` is removed no question for it is under way. -/
example : Calm plainConf State.init day := calm_of _ _ _ (by decide +kernel)

/-- C86_landed: with the question of the timer answered nothing is under way. -/
example : (run plainConf State.init (day ++ [.result 0 [] fun _ => 0])).map State.flights = some [] := by decide +kernel

/-- C86_share, C86_single_partial: a record with callers who wait and a question under way -/
example : (run plainConf State.init (day.take 3)).map (fun s => (s.flights[0]?, (s.recs 0).waiters)) = some (some (0, nameA), [2, 1]) := by decide +kernel

/-- C86_direct_partial: addresses are known when caller 4 asks. -/
example : told (events plainConf State.init (day.take 7)) nameA = some [v4 10 0 0 1, v4 10 0 0 2] := by decide +kernel

/-- C86_defined_partial: the addresses of the day are short. -/
example : ∀ o ∈ day, Short o := by
  intro o ho k as rnd h
  subst h
  simp only [day, List.mem_cons, List.not_mem_nil, or_false, reduceCtorEq, false_or, Op.result.injEq] at ho
  rcases ho with h | h | h <;> rw [h.2.1] <;> decide

/-- C86_numeric: a resolver that is off, and a name that is an address -/
example : ∃ (c : Conf) (n : Name) (a : Addr), c.on = false ∧ n ≠ [] ∧ c.addr n = some a ∧ a.length ≤ 16 :=
  ⟨⟨false, 0, fun n => if n = [49, 46, 49] then some (v4 1 0 0 1) else none⟩, [49, 46, 49], v4 1 0 0 1, rfl, by decide, rfl, by decide⟩

end Verif.Resolver
