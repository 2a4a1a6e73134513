import Verif.Dash.CutSpec
/-
The state after some frames, said of the parts they were cut into, for C68 (`CutProps`).
-/
namespace Verif.Dash
open Verif Verif.Mp4

/-- The state `s` has made fragments of the parts `gs`, and `cur` are the frames of the open one. -/
structure Rel (cfg : Cfg) (s : St) (gs : List Part) (cur : List Item) : Prop where
  hN : s.nfrags = min cfg.winfrags gs.length
  hF : s.frag + s.nfrags = gs.length
  hId : s.id = gs.length
  hO : s.opened = !cur.isEmpty
  hOut : s.out = files cfg.winfrags [] gs
  hRing : ∀ j p, gs[j]? = some p → gs.length ≤ j + cfg.winfrags → s.frags (j % (cfg.winfrags * 2 + 1)) = p.slot
  hCur : cur ≠ [] → (s.frags (gs.length % (cfg.winfrags * 2 + 1))).timestamp = start cur
  hV : cur ≠ [] → s.video = record gs.length true (track true cur)
  hA : cur ≠ [] → s.audio = record gs.length false (track false cur)

theorem mod_ne {j n w : Nat} (h1 : j < n) (h2 : n ≤ j + w) : j % (w * 2 + 1) ≠ n % (w * 2 + 1) := by
  intro h
  have := Nat.sub_mod_eq_zero_of_mod_eq h.symm
  rw [Nat.mod_eq_of_lt (by omega)] at this
  omega

theorem Rel.index {cfg : Cfg} {s : St} {gs : List Part} {cur : List Item} (h : Rel cfg s gs cur) :
    index cfg s s.nfrags = gs.length % (cfg.winfrags * 2 + 1) := by
  unfold Dash.index
  rw [h.hF]

theorem files_concat (win : Nat) (before gs : List Part) (p : Part) :
    files win before (gs ++ [p]) = files win before gs ++ filesOf win (before ++ gs) p := by
  induction gs generalizing before with
  | nil => simp [files]
  | cons g gs ih => simp [files, ih, List.append_assoc]

theorem Rel.init (cfg : Cfg) (frags : Nat → Slot) : Rel cfg (init frags) [] [] := by
  constructor <;> simp [Dash.init, files]

/-- Changing how long the open fragment is. -/
theorem Rel.setDur {cfg : Cfg} {s : St} {gs : List Part} {cur : List Item} (h : Rel cfg s gs cur) (d : Nat) :
    Rel cfg (setFrag cfg s s.nfrags { getFrag cfg s s.nfrags with duration := d }) gs cur := by
  have hi := h.index
  constructor
  · exact h.hN
  · exact h.hF
  · exact h.hId
  · exact h.hO
  · exact h.hOut
  · intro j p hj hw
    have hlt := (List.getElem?_eq_some_iff.1 hj).1
    simp only [setFrag, hi]
    rw [if_neg (mod_ne hlt hw)]
    exact h.hRing j p hj hw
  · intro hc
    simp only [setFrag, hi, if_true, getFrag]
    exact h.hCur hc
  · exact h.hV
  · exact h.hA

/-- How long the open fragment is said to be. -/
def curDur (cfg : Cfg) (s : St) : Nat := (getFrag cfg s s.nfrags).duration

theorem list_range {cfg : Cfg} {s : St} {gs : List Part} (hN : s.nfrags = min cfg.winfrags gs.length) (hF : s.frag + s.nfrags = gs.length)
    (hRing : ∀ j p, gs[j]? = some p → gs.length ≤ j + cfg.winfrags → s.frags (j % (cfg.winfrags * 2 + 1)) = p.slot) :
    (List.range s.nfrags).map (getFrag cfg s) = (lastN cfg.winfrags gs).map Part.slot := by
  apply List.ext_getElem?
  intro i
  by_cases hi : i < s.nfrags
  · have hj : s.frag + i < gs.length := by omega
    have hd : gs.length - cfg.winfrags + i = s.frag + i := by omega
    rw [List.getElem?_map, List.getElem?_range hi, List.getElem?_map]
    unfold lastN
    rw [List.getElem?_drop, hd, List.getElem?_eq_getElem hj]
    simp only [Option.map_some, getFrag, Dash.index]
    rw [hRing (s.frag + i) _ (List.getElem?_eq_getElem hj) (by omega)]
  · rw [List.getElem?_eq_none (by simp; omega), List.getElem?_eq_none]
    simp only [List.length_map, lastN, List.length_drop]
    omega

/-- Closing the open fragment makes a part of it. -/
theorem Rel.close {cfg : Cfg} {s : St} {gs : List Part} {cur : List Item} (h : Rel cfg s gs cur) (hc : cur ≠ []) :
    Rel cfg (closeFragments cfg s) (gs ++ [⟨cur, curDur cfg s, s.hasVideo, s.hasAudio⟩]) [] := by
  have ho : s.opened = true := by rw [h.hO]; simp [hc]
  have hi := h.index
  obtain ⟨p, hp⟩ : ∃ p : Part, p = ⟨cur, curDur cfg s, s.hasVideo, s.hasAudio⟩ := ⟨_, rfl⟩
  rw [← hp]
  have hslot : s.frags (gs.length % (cfg.winfrags * 2 + 1)) = p.slot := by
    have h1 := h.hCur hc
    have h2 : (s.frags (gs.length % (cfg.winfrags * 2 + 1))).duration = curDur cfg s := by
      simp [curDur, getFrag, hi]
    rw [hp]
    simp only [Part.slot]
    rw [← h1, ← h2]
  have hring : ∀ j q, (gs ++ [p])[j]? = some q → (gs ++ [p]).length ≤ j + cfg.winfrags → s.frags (j % (cfg.winfrags * 2 + 1)) = q.slot := by
    intro j q hj hw
    rw [List.length_append, List.length_singleton] at hw
    by_cases e : j < gs.length
    · rw [List.getElem?_append_left e] at hj
      exact h.hRing j q hj (by omega)
    · have hlt := (List.getElem?_eq_some_iff.1 hj).1
      rw [List.length_append, List.length_singleton] at hlt
      have e' : j = gs.length := by omega
      subst e'
      rw [List.getElem?_append_right (Nat.le_refl _)] at hj
      simp at hj
      rw [← hj]
      exact hslot
  have hlen : (gs ++ [p]).length = gs.length + 1 := by simp
  have ht : (getFrag cfg s s.nfrags).timestamp = start cur := by
    simp only [getFrag, hi]
    exact h.hCur hc
  obtain ⟨s1, hs1⟩ : ∃ s1, s1 = nextFrag cfg { s with out := s.out ++ [.media true (start cur) s.video, .media false (start cur) s.audio] } := ⟨_, rfl⟩
  have hcl : closeFragments cfg s = { writePlaylist cfg s1 with id := (writePlaylist cfg s1).id + 1, opened := false } := by
    unfold closeFragments
    rw [if_pos ho, hs1, ht]
  have e1 : s1.nfrags = min cfg.winfrags (gs ++ [p]).length ∧ s1.frag + s1.nfrags = (gs ++ [p]).length := by
    have a := h.hN
    have b := h.hF
    rw [hs1, hlen]
    unfold nextFrag
    dsimp only
    split <;> (dsimp only; omega)
  have e2 : s1.frags = s.frags := by rw [hs1]; unfold nextFrag; split <;> rfl
  have e3 : s1.id = gs.length := by rw [hs1]; unfold nextFrag; split <;> exact h.hId
  have e4 : s1.out = s.out ++ [.media true (start cur) s.video, .media false (start cur) s.audio] := by rw [hs1]; unfold nextFrag; split <;> rfl
  have e5 : s1.hasVideo = s.hasVideo ∧ s1.hasAudio = s.hasAudio := by rw [hs1]; unfold nextFrag; split <;> exact ⟨rfl, rfl⟩
  have hl := list_range (s := s1) e1.1 e1.2 (by rw [e2]; exact hring)
  rw [hcl]
  constructor
  · exact e1.1
  · exact e1.2
  · show s1.id + 1 = _
    rw [e3, hlen]
  · rfl
  · show s1.out ++ (if s1.id = 0 then [.init] else []) ++ [.mpd s1.hasVideo s1.hasAudio ((List.range s1.nfrags).map (getFrag cfg s1))] = _
    rw [files_concat, List.nil_append, hl, e3, e4, e5.1, e5.2, h.hOut, h.hV hc, h.hA hc, hp]
    simp only [filesOf, List.append_assoc]
  · show ∀ j q, _ → _ → s1.frags _ = _
    rw [e2]
    exact hring
  · intro hn; exact absurd rfl hn
  · intro hn; exact absurd rfl hn
  · intro hn; exact absurd rfl hn

theorem close_nil {cfg : Cfg} {s : St} {gs : List Part} (h : Rel cfg s gs []) : closeFragments cfg s = s := by
  unfold closeFragments
  rw [if_neg]
  rw [h.hO]
  simp

/-- Opening a fragment for a frame. -/
def opened (cfg : Cfg) (s : St) (x : Item) : St :=
  let s := openFragments s
  let s := setFrag cfg s s.nfrags { getFrag cfg s s.nfrags with timestamp := x.2.timestamp }
  if x.1 then { s with video := append s.video x.2 (some x.2.bytes.length) } else { s with audio := append s.audio x.2 (some x.2.bytes.length) }

theorem Rel.open {cfg : Cfg} {s : St} {gs : List Part} (h : Rel cfg s gs []) (x : Item) : Rel cfg (opened cfg s x) gs [x] := by
  have hi := h.index
  have ho : s.opened = false := by rw [h.hO]; rfl
  have hid := h.hId
  have hof : openFragments s = { s with video := openTrack s.id true, audio := openTrack s.id false, opened := true } := by
    unfold openFragments
    rw [ho]
    rfl
  have hring : ∀ v j p, gs[j]? = some p → gs.length ≤ j + cfg.winfrags →
      (setFrag cfg (openFragments s) (openFragments s).nfrags v).frags (j % (cfg.winfrags * 2 + 1)) = p.slot := by
    intro v j p hj hw
    have hlt := (List.getElem?_eq_some_iff.1 hj).1
    rw [hof]
    simp only [setFrag]
    have e : Dash.index cfg { s with video := openTrack s.id true, audio := openTrack s.id false, opened := true } s.nfrags = gs.length % (cfg.winfrags * 2 + 1) := hi
    rw [e, if_neg (mod_ne hlt hw)]
    exact h.hRing j p hj hw
  have hcur : ∀ v, (setFrag cfg (openFragments s) (openFragments s).nfrags v).frags (gs.length % (cfg.winfrags * 2 + 1)) = v := by
    intro v
    rw [hof]
    simp only [setFrag]
    have e : Dash.index cfg { s with video := openTrack s.id true, audio := openTrack s.id false, opened := true } s.nfrags = gs.length % (cfg.winfrags * 2 + 1) := hi
    rw [e, if_pos rfl]
  have hs : ∀ v, (setFrag cfg (openFragments s) (openFragments s).nfrags v).video = openTrack gs.length true ∧
      (setFrag cfg (openFragments s) (openFragments s).nfrags v).audio = openTrack gs.length false := by
    intro v
    rw [hof, ← hid]
    exact ⟨rfl, rfl⟩
  have hrest : ∀ v, (setFrag cfg (openFragments s) (openFragments s).nfrags v).nfrags = s.nfrags ∧ (setFrag cfg (openFragments s) (openFragments s).nfrags v).frag = s.frag ∧
      (setFrag cfg (openFragments s) (openFragments s).nfrags v).id = s.id ∧ (setFrag cfg (openFragments s) (openFragments s).nfrags v).opened = true ∧
      (setFrag cfg (openFragments s) (openFragments s).nfrags v).out = s.out := by
    intro v
    rw [hof]
    exact ⟨rfl, rfl, rfl, rfl, rfl⟩
  obtain ⟨v, hv⟩ : ∃ v, v = { getFrag cfg (openFragments s) (openFragments s).nfrags with timestamp := x.2.timestamp } := ⟨_, rfl⟩
  have hvt : v.timestamp = x.2.timestamp := by rw [hv]
  obtain ⟨n1, n2, n3, n4, n5⟩ := hrest v
  obtain ⟨b, f⟩ := x
  unfold opened
  dsimp only
  rw [← hv]
  cases b with
  | true =>
    rw [if_pos rfl]
    refine ⟨n1.trans h.hN, ?_, n3.trans hid, n4.trans rfl, n5.trans h.hOut, hring v, ?_, ?_, ?_⟩
    · show _ + _ = _
      rw [n1, n2]; exact h.hF
    · intro _
      show ((setFrag cfg (openFragments s) (openFragments s).nfrags v).frags _).timestamp = _
      rw [hcur]; exact hvt
    · intro _
      dsimp only
      rw [(hs v).1]; rfl
    · intro _
      show (setFrag cfg (openFragments s) (openFragments s).nfrags v).audio = _
      rw [(hs v).2]; rfl
  | false =>
    rw [if_neg (by simp)]
    refine ⟨n1.trans h.hN, ?_, n3.trans hid, n4.trans rfl, n5.trans h.hOut, hring v, ?_, ?_, ?_⟩
    · show _ + _ = _
      rw [n1, n2]; exact h.hF
    · intro _
      show ((setFrag cfg (openFragments s) (openFragments s).nfrags v).frags _).timestamp = _
      rw [hcur]; exact hvt
    · intro _
      show (setFrag cfg (openFragments s) (openFragments s).nfrags v).video = _
      rw [(hs v).1]; rfl
    · intro _
      dsimp only
      rw [(hs v).2]; rfl

/-- Adding a frame to the open fragment. -/
def added (s : St) (x : Item) : St :=
  if x.1 then { s with video := append s.video x.2 (some x.2.bytes.length) } else { s with audio := append s.audio x.2 (some x.2.bytes.length) }

theorem start_append {l : List Item} (h : l ≠ []) (m : List Item) : start (l ++ m) = start l := by
  cases l with
  | nil => exact absurd rfl h
  | cons a l => rfl

theorem track_append (v : Bool) (l m : List Item) : track v (l ++ m) = track v l ++ track v m := by simp [track]

theorem Rel.add {cfg : Cfg} {s : St} {gs : List Part} {cur : List Item} (h : Rel cfg s gs cur) (hc : cur ≠ []) (x : Item) :
    Rel cfg (added s x) gs (cur ++ [x]) := by
  obtain ⟨b, f⟩ := x
  have ho : s.opened = !(cur ++ [(b, f)]).isEmpty := by
    rw [h.hO]
    cases cur with
    | nil => exact absurd rfl hc
    | cons a l => rfl
  unfold added
  dsimp only
  cases b with
  | true =>
    rw [if_pos rfl]
    refine ⟨h.hN, h.hF, h.hId, ho, h.hOut, h.hRing, ?_, ?_, ?_⟩
    · intro _; rw [start_append hc]; exact h.hCur hc
    · intro _
      dsimp only
      rw [track_append, h.hV hc, show track true [(true, f)] = [f] from rfl, record_concat]
    · intro _
      show s.audio = _
      rw [track_append, h.hA hc, show track false [(true, f)] = [] from rfl, List.append_nil]
  | false =>
    rw [if_neg (by simp)]
    refine ⟨h.hN, h.hF, h.hId, ho, h.hOut, h.hRing, ?_, ?_, ?_⟩
    · intro _; rw [start_append hc]; exact h.hCur hc
    · intro _
      show s.video = _
      rw [track_append, h.hV hc, show track true [(false, f)] = [] from rfl, List.append_nil]
    · intro _
      dsimp only
      rw [track_append, h.hA hc, show track false [(false, f)] = [f] from rfl, record_concat]

end Verif.Dash
