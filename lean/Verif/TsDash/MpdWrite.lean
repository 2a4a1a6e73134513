import Verif.TsDash.MpdStep
/- What writing the playlist does -/
namespace Verif.TsDash
open Verif Verif.TsIn
open Verif.HlsRestore (Text dec)

/-- Initialization segments that are written -/
def inits (now : Nat) (l : List Ent) : List (Text × Bytes) := (l.filter (·.rep.bandwidth != 0)).map fun x => (initName x.pid, initT now x.rep)

theorem initFile_enough (now : Nat) (r : Rep) {cap : Nat} (hc : 0 < cap) : ∃ cap', initFile now r ((initT now r).length + 1) cap = some (initT now r, cap') ∧ 0 < cap' := by
  have key : (initT now r).length < 2 ^ (initT now r).length := Nat.lt_two_pow_self
  have h2 : 1 * 2 ^ (initT now r).length ≤ cap * 2 ^ (initT now r).length := Nat.mul_le_mul_right _ hc
  obtain ⟨cap', h, hl⟩ := initFile_eq now r (initT now r).length cap (by omega)
  exact ⟨cap', h, by omega⟩

theorem updateInits_eq (now : Nat) : ∀ (l : List Ent) (cap : Nat) (fs : List (Text × Bytes)), 0 < cap → ∃ cap', updateInits now l cap fs = some (cap', fs ++ inits now l) ∧ 0 < cap'
  | [], cap, fs, hc => ⟨cap, by simp [updateInits, inits], hc⟩
  | x :: l, cap, fs, hc => by
    unfold updateInits
    by_cases hb : x.rep.bandwidth = 0
    · rw [if_pos hb]
      obtain ⟨cap', h, h'⟩ := updateInits_eq now l cap fs hc
      exact ⟨cap', by rw [h]; simp [inits, hb], h'⟩
    · rw [if_neg hb]
      obtain ⟨cap1, h1, h1'⟩ := initFile_enough now x.rep hc
      obtain ⟨cap', h, h'⟩ := updateInits_eq now l cap1 (fs ++ [(initName x.pid, initT now x.rep)]) h1'
      rw [h1, Option.bind_some]
      exact ⟨cap', by rw [h]; simp [inits, hb], h'⟩

theorem mpdLoop_eq (t : Text) : ∀ n cap, 0 < cap → t.length < cap * 2 ^ n → ∃ cap', mpdLoop t (n + 1) cap = some (t, cap') ∧ 0 < cap'
  | n, cap, hc, h => by
    unfold mpdLoop
    by_cases hl : t.length < cap
    · have e : t.take cap = t := List.take_of_length_le (by omega)
      rw [e, if_pos (by omega)]
      exact ⟨cap, rfl, hc⟩
    · rw [if_neg (by rw [List.length_take]; omega)]
      cases n with
      | zero => simp at h; omega
      | succ n => exact mpdLoop_eq t n (cap * 2) (by omega) (by rw [Nat.pow_succ] at h; rw [Nat.mul_assoc, Nat.mul_comm 2]; exact h)

structure Written (c : Conf) (date : Nat → Text) (now : Nat) (d d' : Dash) : Prop where
  sets : d'.sets = d.sets
  initLen : 0 < d'.initLen
  playlistLen : 0 < d'.playlistLen
  files : d'.files = d.files ++ inits now (entsOf d.sets)
  start : d'.start = some (d.start.getD now)
  mpd : (d'.mpd = d.mpd ∧ ∃ x ∈ entsOf d.sets, x.rep.bandwidth = 0) ∨ ((∀ x ∈ entsOf d.sets, x.rep.bandwidth ≠ 0) ∧ d'.mpd = some (mpdText c (date (d.start.getD now)) (date now) d.sets))

theorem updatePlaylist_eq (c : Conf) (date : Nat → Text) (now : Nat) (d : Dash) (h1 : 0 < d.initLen) (h2 : 0 < d.playlistLen) : ∃ d', updatePlaylist c date now d = some d' ∧ Written c date now d d' := by
  unfold updatePlaylist
  obtain ⟨cap, h3, h4⟩ := updateInits_eq now (entsOf d.sets) d.initLen d.files h1
  rw [h3, Option.bind_some]
  dsimp only
  cases hb : (entsOf d.sets).any (·.rep.bandwidth == 0) with
  | true =>
    rw [if_pos rfl]
    obtain ⟨x, hx, hx0⟩ := List.any_eq_true.1 hb
    exact ⟨_, rfl, rfl, h4, h2, rfl, rfl, .inl ⟨rfl, x, hx, by simpa using hx0⟩⟩
  | false =>
    rw [if_neg (by decide)]
    generalize ht : mpdText c (date (d.start.getD now)) (date now) d.sets = t
    have key : t.length < 2 ^ t.length := Nat.lt_two_pow_self
    have h5 : 1 * 2 ^ t.length ≤ d.playlistLen * 2 ^ t.length := Nat.mul_le_mul_right _ h2
    obtain ⟨cap', h6, h7⟩ := mpdLoop_eq t t.length d.playlistLen h2 (by omega)
    rw [h6]
    refine ⟨_, rfl, rfl, h4, h7, rfl, rfl, .inr ⟨?_, by rw [ht]⟩⟩
    intro x hx h0
    have : (entsOf d.sets).any (·.rep.bandwidth == 0) = true := List.any_eq_true.2 ⟨x, hx, by simpa using h0⟩
    rw [hb] at this
    exact nomatch this

/-! ### Sets -/

def setEnt (pid : Nat) (r : Rep) (x : Ent) : Ent := if x.pid == pid then { x with rep := r } else x

theorem ents_setRep (sets : List ReSet) (pid : Nat) (r : Rep) : entsOf (setRep sets pid r) = (entsOf sets).map (setEnt pid r) := by
  unfold entsOf setRep
  induction sets with
  | nil => rfl
  | cons s l ih => rw [List.map_cons, List.flatMap_cons, List.flatMap_cons, ih, List.map_append]; rfl

/-- What does not change: kinds of sets, pids, types -/
def shape (sets : List ReSet) : List (Bool × List (Nat × Nat × Bool)) := sets.map fun s => (s.video, s.ents.map fun x => (x.pid, x.rep.type, x.rep.video))

theorem shape_setRep (sets : List ReSet) (pid : Nat) (r : Rep) (h : ∀ x ∈ entsOf sets, x.pid = pid → x.rep.type = r.type ∧ x.rep.video = r.video) : shape (setRep sets pid r) = shape sets := by
  unfold shape setRep
  rw [List.map_map]
  refine List.map_congr_left fun s hs => ?_
  simp only [Function.comp, List.map_map]
  congr 1
  refine List.map_congr_left fun x hx => ?_
  have hm : x ∈ entsOf sets := List.mem_flatMap.2 ⟨s, hs, hx⟩
  simp only [Function.comp]
  by_cases hp : x.pid = pid
  · obtain ⟨h1, h2⟩ := h x hm hp
    simp [hp, h1, h2]
  · simp [hp]

theorem shape_pids {a b : List ReSet} (h : shape a = shape b) : (entsOf a).map (fun x => (x.pid, x.rep.type, x.rep.video)) = (entsOf b).map fun x => (x.pid, x.rep.type, x.rep.video) := by
  have e : ∀ s : List ReSet, (entsOf s).map (fun x => (x.pid, x.rep.type, x.rep.video)) = (shape s).flatMap (·.2) := by
    intro s
    unfold entsOf shape
    induction s with
    | nil => rfl
    | cons x l ih => rw [List.flatMap_cons, List.map_append, ih]; rfl
  rw [e, e, h]

end Verif.TsDash
