import Verif.Rtmp.DispatchModel
/-
C37: event handlers run in order and stop at the first refusal.
-/
namespace Verif.Dispatch

/-- Run all handlers of a list in order, ignoring their codes. -/
def runAll {σ : Type} (hs : List (Handler σ)) (s : σ) : σ := hs.foldl (fun s h => (h s).1) s

/-- Every handler of `hs`, run in order from `s`, returns a code satisfying `ok`. -/
def AllReturn {σ : Type} (ok : Int → Prop) : List (Handler σ) → σ → Prop
  | [], _ => True
  | h :: hs, s => ok (h s).2 ∧ AllReturn ok hs (h s).1

/-- C37 (messages): processing a message either runs every handler once in registration order (none of
them returned error or done) and succeeds, or there is a first handler returning error/done: exactly the handlers up to
and including it ran, in order, and the result is error/success respectively. Types above the maximum are ignored. -/
theorem C37_receive_message {σ : Type} (events : Nat → List (Handler σ)) (type : Nat) (s : σ) :
    (type > MSG_MAX → receiveMessage events type s = (s, NGX_OK)) ∧
    (type ≤ MSG_MAX →
      (AllReturn (fun c => c ≠ NGX_ERROR ∧ c ≠ NGX_DONE) (events type) s ∧
        receiveMessage events type s = (runAll (events type) s, NGX_OK)) ∨
      (∃ pre h post, events type = pre ++ h :: post ∧
        AllReturn (fun c => c ≠ NGX_ERROR ∧ c ≠ NGX_DONE) pre s ∧
        (((h (runAll pre s)).2 = NGX_ERROR ∧
            receiveMessage events type s = (runAll (pre ++ [h]) s, NGX_ERROR)) ∨
         ((h (runAll pre s)).2 = NGX_DONE ∧
            receiveMessage events type s = (runAll (pre ++ [h]) s, NGX_OK))))) := by
  constructor
  · intro h; simp [receiveMessage, h]
  · intro h
    have hn : ¬ type > MSG_MAX := by omega
    simp only [receiveMessage, hn, ↓reduceIte]
    generalize events type = hs
    induction hs generalizing s with
    | nil => left; simp [AllReturn, receiveLoop, runAll]
    | cons f hs ih =>
      by_cases he : (f s).2 = NGX_ERROR
      · right
        exact ⟨[], f, hs, rfl, trivial, Or.inl ⟨he, by simp [receiveLoop, he, runAll]⟩⟩
      · by_cases hd : (f s).2 = NGX_DONE
        · right
          exact ⟨[], f, hs, rfl, trivial, Or.inr ⟨hd, by simp [receiveLoop, runAll, hd, NGX_DONE, NGX_ERROR]⟩⟩
        · have e : receiveLoop (f :: hs) s = receiveLoop hs (f s).1 := by simp [receiveLoop, he, hd]
          rw [e]
          rcases ih (f s).1 with ⟨ha, hr⟩ | ⟨pre, g, post, rfl, ha, hr⟩
          · left; exact ⟨⟨⟨he, hd⟩, ha⟩, by rw [hr]; rfl⟩
          · right
            refine ⟨f :: pre, g, post, rfl, ⟨⟨he, hd⟩, ha⟩, ?_⟩
            simpa [runAll] using hr

/-- C37 (internal events): all handlers run in order while they return OK; the first other code stops the
event with an error after exactly the handlers up to it have run. -/
theorem C37_fire_event {σ : Type} (hs : List (Option (Handler σ))) (s : σ) :
    (AllReturn (fun c => c = NGX_OK) (hs.filterMap id) s ∧
      fireEvent hs s = (runAll (hs.filterMap id) s, NGX_OK)) ∨
    (∃ pre h post, hs.filterMap id = pre ++ h :: post ∧ AllReturn (fun c => c = NGX_OK) pre s ∧
      (h (runAll pre s)).2 ≠ NGX_OK ∧ fireEvent hs s = (runAll (pre ++ [h]) s, NGX_ERROR)) := by
  induction hs generalizing s with
  | nil => left; simp [AllReturn, fireEvent, runAll]
  | cons o hs ih =>
    cases o with
    | none => simpa [fireEvent] using ih s
    | some f =>
      simp only [List.filterMap_cons, id]
      by_cases he : (f s).2 = NGX_OK
      · have e : fireEvent (some f :: hs) s = fireEvent hs (f s).1 := by simp [fireEvent, he]
        rw [e]
        rcases ih (f s).1 with ⟨ha, hr⟩ | ⟨pre, g, post, hp, ha, hne, hr⟩
        · left; exact ⟨⟨he, ha⟩, by rw [hr]; rfl⟩
        · right
          exact ⟨f :: pre, g, post, by rw [hp]; rfl, ⟨he, ha⟩, by simpa [runAll] using hne,
            by simpa [runAll] using hr⟩
      · right
        exact ⟨[], f, hs.filterMap id, rfl, trivial, he, by simp [fireEvent, he, runAll]⟩

/-- Witness: three handlers, the second says done, the third does not run. -/
example : receiveMessage (fun _ => [fun s => (s ++ ["a"], NGX_OK), fun s => (s ++ ["b"], NGX_DONE),
    fun s => (s ++ ["c"], NGX_ERROR)]) 9 [] = (["a", "b"], NGX_OK) := by decide
example : receiveMessage (fun _ => [fun s => (s ++ ["a"], NGX_AGAIN), fun s => (s ++ ["b"], NGX_ERROR)]) 22 []
  = (["a", "b"], NGX_ERROR) := by decide
example : fireEvent [some fun s => (s ++ ["a"], NGX_OK), none, some fun s => (s ++ ["b"], NGX_DONE),
    some fun s => (s ++ ["c"], NGX_OK)] [] = (["a", "b"], NGX_ERROR) := by decide

end Verif.Dispatch
