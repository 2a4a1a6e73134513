import Verif.Dash.CutLemmas
/-
What a frame does to the parts, for C68 (`CutProps`).
-/
namespace Verif.Dash
open Verif Verif.Mp4

/-- The operation of a frame. -/
def opOf (x : Item) : Op := if x.1 then .video x.2 else .audio x.2

/-- `has_video` or `has_audio` is set. -/
def flagged (s : St) (x : Item) : St := if x.1 then { s with hasVideo := true } else { s with hasAudio := true }

theorem flagged_rel {cfg : Cfg} {s : St} {gs : List Part} {cur : List Item} (h : Rel cfg s gs cur) (x : Item) : Rel cfg (flagged s x) gs cur := by
  obtain ⟨b, f⟩ := x
  cases b <;> exact ⟨h.hN, h.hF, h.hId, h.hO, h.hOut, h.hRing, h.hCur, h.hV, h.hA⟩

theorem flagged_same (s : St) (x : Item) : (flagged s x).frags = s.frags ∧ (flagged s x).frag = s.frag ∧ (flagged s x).nfrags = s.nfrags ∧
    (flagged s x).video = s.video ∧ (flagged s x).audio = s.audio ∧ (flagged s x).opened = s.opened := by
  obtain ⟨b, f⟩ := x
  cases b <;> exact ⟨rfl, rfl, rfl, rfl, rfl, rfl⟩

theorem flagged_flags (s : St) (x : Item) : (flagged s x).hasVideo = (s.hasVideo || x.1) ∧ (flagged s x).hasAudio = (s.hasAudio || !x.1) := by
  obtain ⟨b, f⟩ := x
  cases b <;> simp [flagged]

theorem step_item (cfg : Cfg) (s : St) (x : Item) :
    step cfg s (opOf x) = added (updateFragments cfg (flagged s x) (isKey x) x.2.timestamp) x := by
  obtain ⟨b, f⟩ := x
  cases b <;> rfl

/-- The open fragment is told how long it is. -/
def toldDur (cfg : Cfg) (s : St) (ts : Nat) : Nat := if since cfg s ts < 2 ^ 31 then since cfg s ts else curDur cfg s

theorem measure_rel {cfg : Cfg} {s : St} {gs : List Part} {cur : List Item} (h : Rel cfg s gs cur) (ts : Nat) : Rel cfg (measure cfg s ts) gs cur := by
  unfold measure
  split
  · exact h.setDur _
  · exact h

theorem measure_dur (cfg : Cfg) (s : St) (ts : Nat) : curDur cfg (measure cfg s ts) = toldDur cfg s ts := by
  unfold measure toldDur
  split
  · simp [curDur, getFrag, setFrag, Dash.index]
  · rfl

theorem measure_flags (cfg : Cfg) (s : St) (ts : Nat) : (measure cfg s ts).hasVideo = s.hasVideo ∧ (measure cfg s ts).hasAudio = s.hasAudio := by
  unfold measure
  split <;> exact ⟨rfl, rfl⟩

theorem close_flags (cfg : Cfg) (s : St) : (closeFragments cfg s).hasVideo = s.hasVideo ∧ (closeFragments cfg s).hasAudio = s.hasAudio := by
  unfold closeFragments
  split
  · dsimp only [writePlaylist]
    unfold nextFrag
    split <;> exact ⟨rfl, rfl⟩
  · exact ⟨rfl, rfl⟩

theorem open_flags (s : St) : (openFragments s).hasVideo = s.hasVideo ∧ (openFragments s).hasAudio = s.hasAudio := by
  unfold openFragments
  split <;> exact ⟨rfl, rfl⟩

theorem cutAt_flags (cfg : Cfg) (s : St) (ts : Nat) : (cutAt cfg s ts).hasVideo = s.hasVideo ∧ (cutAt cfg s ts).hasAudio = s.hasAudio := by
  have h1 := open_flags (closeFragments cfg s)
  have h2 := close_flags cfg s
  exact ⟨h1.1.trans h2.1, h1.2.trans h2.2⟩

theorem step_flags (cfg : Cfg) (s : St) (x : Item) :
    (step cfg s (opOf x)).hasVideo = (s.hasVideo || x.1) ∧ (step cfg s (opOf x)).hasAudio = (s.hasAudio || !x.1) := by
  rw [step_item, ← (flagged_flags s x).1, ← (flagged_flags s x).2]
  generalize flagged s x = s
  have h1 : (added (updateFragments cfg s (isKey x) x.2.timestamp) x).hasVideo = (updateFragments cfg s (isKey x) x.2.timestamp).hasVideo ∧
      (added (updateFragments cfg s (isKey x) x.2.timestamp) x).hasAudio = (updateFragments cfg s (isKey x) x.2.timestamp).hasAudio := by
    unfold added; split <;> exact ⟨rfl, rfl⟩
  rw [h1.1, h1.2]
  have hm := measure_flags cfg s x.2.timestamp
  unfold updateFragments
  generalize boundary cfg s (isKey x) x.2.timestamp = b
  generalize measure cfg s x.2.timestamp = s1 at hm
  cases b with
  | true =>
    rw [if_pos rfl, (cutAt_flags _ _ _).1, (cutAt_flags _ _ _).2]
    exact hm
  | false =>
    rw [if_neg (by simp)]
    exact hm

/-- A frame is added to the open part, or closes it and begins one, or begins the first one. -/
inductive Moved (cfg : Cfg) (s s' : St) (gs : List Part) (cur : List Item) (x : Item) (gs' : List Part) (cur' : List Item) : Prop
  | first (hc : cur = []) (hg : gs' = gs) (hcur : cur' = [x])
  | more (hc : cur ≠ []) (hb : boundary cfg (flagged s x) (isKey x) x.2.timestamp = false) (hg : gs' = gs) (hcur : cur' = cur ++ [x])
      (hd : curDur cfg s' = toldDur cfg s x.2.timestamp)
  | cut (hc : cur ≠ []) (hb : boundary cfg (flagged s x) (isKey x) x.2.timestamp = true)
      (hg : gs' = gs ++ [⟨cur, toldDur cfg s x.2.timestamp, s.hasVideo || x.1, s.hasAudio || !x.1⟩]) (hcur : cur' = [x])

theorem flagged_since (cfg : Cfg) (s : St) (x : Item) (ts : Nat) : Dash.since cfg (flagged s x) ts = Dash.since cfg s ts := by
  obtain ⟨e1, e2, e3, -⟩ := flagged_same s x
  unfold Dash.since getFrag Dash.index
  rw [e1, e2, e3]

theorem flagged_told (cfg : Cfg) (s : St) (x : Item) (ts : Nat) : toldDur cfg (flagged s x) ts = toldDur cfg s ts := by
  have hs : Dash.since cfg (flagged s x) ts = Dash.since cfg s ts := flagged_since cfg s x ts
  have hc : curDur cfg (flagged s x) = curDur cfg s := by
    obtain ⟨e1, e2, e3, -⟩ := flagged_same s x
    unfold curDur getFrag Dash.index
    rw [e1, e2, e3]
  unfold toldDur
  rw [hs, hc]

/-- What the other tests say (:1001-1028). -/
def inside (cfg : Cfg) (s : St) (key : Bool) (ts : Nat) : Bool :=
  let b := if since cfg s ts < 2 ^ 31 ∧ cfg.fraglen * 2 ≤ since cfg s ts then true else key
  let b := if s.hasVideo && !hit cfg s ts then false else b
  let b := if !s.hasVideo && s.hasAudio then hit cfg s ts else b
  let b := if maxMdat ≤ s.audio.mdatSize then true else b
  if maxMdat ≤ s.video.mdatSize then true else b

theorem boundary_eq (cfg : Cfg) (s : St) (key : Bool) (ts : Nat) : boundary cfg s key ts = if !s.opened then true else inside cfg s key ts := rfl

theorem boundary_closed (cfg : Cfg) (s : St) (key : Bool) (ts : Nat) (e : s.opened = false) : boundary cfg s key ts = true := by
  rw [boundary_eq, e]
  generalize inside cfg s key ts = b
  rfl

theorem boundary_open (cfg : Cfg) (s : St) (key : Bool) (ts : Nat) (e : s.opened = true) : boundary cfg s key ts = inside cfg s key ts := by
  have h : ∀ o b : Bool, o = true → (if !o then true else b) = b := by decide
  exact (boundary_eq cfg s key ts).trans (h _ _ e)

theorem added_dur (cfg : Cfg) (s : St) (x : Item) : curDur cfg (added s x) = curDur cfg s := by
  unfold added; split <;> rfl

theorem update_eq (cfg : Cfg) (s : St) (key : Bool) (ts : Nat) :
    updateFragments cfg s key ts = if boundary cfg s key ts then cutAt cfg (measure cfg s ts) ts else measure cfg s ts := rfl

theorem cutAt_nil {cfg : Cfg} {s : St} {gs : List Part} (h : Rel cfg s gs []) (x : Item) : Rel cfg (added (cutAt cfg s x.2.timestamp) x) gs [x] := by
  have := h.open x
  unfold cutAt
  rw [close_nil h]
  exact this

theorem cutAt_part {cfg : Cfg} {s : St} {gs : List Part} {cur : List Item} (h : Rel cfg s gs cur) (hc : cur ≠ []) (x : Item) :
    Rel cfg (added (cutAt cfg s x.2.timestamp) x) (gs ++ [⟨cur, curDur cfg s, s.hasVideo, s.hasAudio⟩]) [x] := (h.close hc).open x

theorem Rel.item {cfg : Cfg} {s : St} {gs : List Part} {cur : List Item} (h : Rel cfg s gs cur) (x : Item) :
    ∃ gs' cur', Rel cfg (step cfg s (opOf x)) gs' cur' ∧ Moved cfg s (step cfg s (opOf x)) gs cur x gs' cur' := by
  rw [step_item, update_eq]
  have h0 := flagged_rel h x
  have hm := measure_rel h0 x.2.timestamp
  have hd := measure_dur cfg (flagged s x) x.2.timestamp
  have hf := measure_flags cfg (flagged s x) x.2.timestamp
  rw [flagged_told] at hd
  rw [(flagged_flags _ _).1, (flagged_flags _ _).2] at hf
  have hO := h0.hO
  have hbo : (flagged s x).opened = false → boundary cfg (flagged s x) (isKey x) x.2.timestamp = true := by
    exact boundary_closed cfg _ _ _
  generalize measure cfg (flagged s x) x.2.timestamp = s1 at hm hd hf ⊢
  by_cases hc : cur = []
  · subst hc
    rw [hbo hO, if_pos rfl]
    exact ⟨gs, [x], cutAt_nil hm x, .first rfl rfl rfl⟩
  · cases hb : boundary cfg (flagged s x) (isKey x) x.2.timestamp with
    | true =>
      rw [if_pos rfl]
      have h1 := cutAt_part hm hc x
      rw [hd, hf.1, hf.2] at h1
      exact ⟨_, [x], h1, .cut hc hb rfl rfl⟩
    | false =>
      rw [if_neg (by simp)]
      refine ⟨gs, cur ++ [x], hm.add hc x, .more hc hb rfl rfl ((added_dur cfg s1 x).trans hd)⟩

/-- Closing the stream. -/
theorem Rel.stop {cfg : Cfg} {s : St} {gs : List Part} {cur : List Item} (h : Rel cfg s gs cur) :
    Rel cfg (step cfg s .close) (if cur = [] then gs else gs ++ [⟨cur, curDur cfg s, s.hasVideo, s.hasAudio⟩]) [] := by
  by_cases hc : cur = []
  · subst hc
    rw [if_pos rfl]
    show Rel cfg (closeFragments cfg s) gs []
    rw [close_nil h]
    exact h
  · rw [if_neg hc]
    exact h.close hc

/-- `timestamp - f->timestamp` is the time since the start of the open part. -/
theorem Rel.since {cfg : Cfg} {s : St} {gs : List Part} {cur : List Item} (h : Rel cfg s gs cur) (hc : cur ≠ []) (ts : Nat) :
    since cfg s ts = (ts + 2 ^ 32 - start cur) % 2 ^ 32 := by
  unfold Dash.since getFrag
  rw [h.index, h.hCur hc]

theorem ops_cases (op : Op) : op = .close ∨ ∃ x, op = opOf x := by
  cases op with
  | video f => exact .inr ⟨(true, f), rfl⟩
  | audio f => exact .inr ⟨(false, f), rfl⟩
  | close => exact .inl rfl

theorem items_append (a b : List Op) : items (a ++ b) = items a ++ items b := by
  induction a with
  | nil => rfl
  | cons o a ih => cases o <;> simp [items, ih]

theorem items_opOf (x : Item) : items [opOf x] = [x] := by
  obtain ⟨b, f⟩ := x
  cases b <;> rfl

end Verif.Dash
