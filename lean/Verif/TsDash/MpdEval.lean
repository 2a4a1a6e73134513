import Verif.TsDash.MpdWrite
/- The same as `runDash`, for evaluation: initialization segments are not written byte by byte. -/
namespace Verif.TsDash
open Verif Verif.TsIn
open Verif.HlsRestore (Text)

def evalLoop (t : Bytes) : Nat → Nat → Option (Bytes × Nat)
  | 0, _ => none
  | n + 1, cap => if t.length < cap then some (t, cap) else evalLoop t n (cap * 2)

theorem evalLoop_eq (now : Nat) (r : Rep) : ∀ n cap, initFile now r n cap = evalLoop (initT now r) n cap
  | 0, cap => rfl
  | n + 1, cap => by
    have hl := (wr_init now r).len cap {} (by simp)
    have ha := (wr_init now r).all cap {}
    have hl : (initSegment now r cap {}).b.length = min cap (initT now r).length := by simpa using hl
    have ha : (initT now r).length ≤ cap → (initSegment now r cap {}).b = initT now r := by simpa using ha
    unfold initFile evalLoop
    dsimp only
    by_cases hc : (initT now r).length < cap
    · rw [if_pos (by omega), if_pos hc, ha (by omega)]
    · rw [if_neg (by omega), if_neg hc, evalLoop_eq now r n (cap * 2)]

def evalInits (now : Nat) : List Ent → Nat → List (Text × Bytes) → Option (Nat × List (Text × Bytes))
  | [], cap, fs => some (cap, fs)
  | x :: xs, cap, fs =>
    if x.rep.bandwidth = 0 then evalInits now xs cap fs
    else (evalLoop (initT now x.rep) ((initT now x.rep).length + 1) cap).bind fun y => evalInits now xs y.2 (fs ++ [(initName x.pid, y.1)])

theorem evalInits_eq (now : Nat) : ∀ l cap fs, updateInits now l cap fs = evalInits now l cap fs
  | [], cap, fs => rfl
  | x :: l, cap, fs => by
    unfold updateInits evalInits
    split
    · exact evalInits_eq now l cap fs
    · rw [evalLoop_eq]
      refine congrArg _ (funext fun y => evalInits_eq now l _ _)

def evalPlaylist (c : Conf) (date : Nat → Text) (now : Nat) (d : Dash) : Option Dash :=
  (evalInits now (entsOf d.sets) d.initLen d.files).bind fun x =>
    let s := d.start.getD now
    let d := { d with initLen := x.1, files := x.2, start := some s }
    if (entsOf d.sets).any (·.rep.bandwidth == 0) then some d
    else
      let t := mpdText c (date s) (date now) d.sets
      (mpdLoop t (t.length + 1) d.playlistLen).map fun y => { d with playlistLen := y.2, mpd := some y.1 }

theorem evalPlaylist_eq (c : Conf) (date : Nat → Text) (now : Nat) (d : Dash) : updatePlaylist c date now d = evalPlaylist c date now d := by
  unfold updatePlaylist evalPlaylist
  rw [evalInits_eq]

def evalPes (c : Conf) (date : Nat → Text) (now : Nat) (d : Dash) (e : Es) (bufs : List Bytes) : Option (Dash × Bool) :=
  if !e.ptsf then some (d, true)
  else
    match findEnt d.sets e.pid with
    | none => some (d, true)
    | some ent =>
      (updateBandwidth c ent.rep bufs e.dts).bind fun r =>
        (closeSegment c false r e).bind fun x =>
          let d := { d with sets := setRep d.sets e.pid x.1, files := d.files ++ (x.1.files.drop r.files.length).map fun f => (segName e.pid f.1, f.2) }
          (if x.2 then evalPlaylist c date now d else some d).bind fun d =>
            let o := openSegment x.1 e
            if o.2 then (copy o.1 e bufs).map fun y => ({ d with sets := setRep d.sets e.pid y.1 }, y.2) else some ({ d with sets := setRep d.sets e.pid o.1 }, false)

theorem evalPes_eq (c : Conf) (date : Nat → Text) (now : Nat) (d : Dash) (e : Es) (bufs : List Bytes) : pes c date now d e bufs = evalPes c date now d e bufs := by
  unfold pes evalPes
  simp only [evalPlaylist_eq]
  split
  · rfl
  · cases findEnt d.sets e.pid <;> rfl

def evalRun (c : Conf) (date : Nat → Text) (d : Dash) : List (Nat × Es × List Bytes) → Option (Dash × Bool)
  | [] => some (d, true)
  | u :: us => (evalPes c date u.1 d u.2.1 u.2.2).bind fun x => if x.2 then evalRun c date x.1 us else some (x.1, false)

theorem evalRun_eq (c : Conf) (date : Nat → Text) : ∀ (us : List (Nat × Es × List Bytes)) (d : Dash), runDash c date d us = evalRun c date d us
  | [], d => rfl
  | u :: us, d => by
    unfold runDash evalRun
    rw [evalPes_eq]
    refine congrArg _ (funext fun x => ?_)
    rw [evalRun_eq c date us x.1]

end Verif.TsDash
