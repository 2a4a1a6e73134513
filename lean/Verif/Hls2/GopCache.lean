import Verif.Hls2.GopSpec
/-
The ring of the GOP cache and its list of key frames: what holds after each frame.
-/
namespace Verif.Hls2.Gop
open Verif Verif.Hls2 Verif.Hls2.Gop.Spec

def isKey (b : Pub) (f : Nat) : Bool := match b.frames[f]? with | none => false | some x => x.key

/-- Frames that are in the cache -/
def Pub.window (b : Pub) : List Nat := b.hist.drop b.gone

/-- The ring, without the position and the key frames: they are behind while frames are dropped. -/
structure Core (c : Conf) (b : Pub) : Prop where
  hq : 0 < c.q
  hGone : b.gone ≤ b.hist.length
  hRoom : b.hist.length < b.gone + c.q
  hLast : b.last = b.hist.length % c.q
  hSlot : ∀ i f : Nat, b.gone ≤ i → b.hist[i]? = some f → b.cache (i % c.q) = some f
  hNull : ∀ j f : Nat, b.cache j = some f → ∃ i : Nat, b.gone ≤ i ∧ i % c.q = j ∧ b.hist[i]? = some f
  hSorted : b.hist.Pairwise (· < ·)
  hLt : ∀ f ∈ b.hist, f < b.frames.length
  hFpos : ∀ i f : Nat, b.gone ≤ i → b.hist[i]? = some f → b.fpos f = i % c.q
  hAcq : ∀ f, b.acq f = if f ∈ b.hist then 1 else 0
  hRel : ∀ f, b.rel f = if f ∈ b.hist.take b.gone then 1 else 0
  hNext : ∀ f, f ∉ b.hist → b.next f = none

/-- Each such frame from index `a` on has a key frame before it, not before `a`. -/
def KeyFrom (b : Pub) (a : Nat) : Prop :=
  ∀ (i f : Nat) (x : Frame), a ≤ i → b.hist[i]? = some f → b.frames[f]? = some x → Inter x → ∃ j g : Nat, a ≤ j ∧ j < i ∧ b.hist[j]? = some g ∧ isKey b g = true

structure Good (c : Conf) (b : Pub) : Prop where
  core : Core c b
  hPos : b.pos = b.gone % c.q
  hKeys : Linked b.next b.keyframe (b.window.filter (isKey b))
  hVideo : KeyFrom b b.gone
  hMade : b.hist ≠ [] → b.made = true ∧ b.gone < b.hist.length
  hCur : ∀ f x, b.hist.getLast? = some f → b.frames[f]? = some x → b.cur = x.pts

theorem Core.nodup {c : Conf} {b : Pub} (h : Core c b) : b.hist.Nodup := h.hSorted.imp fun h => Nat.ne_of_lt h

theorem idx_inj {l : List Nat} (h : l.Nodup) {i j f : Nat} (hi : l[i]? = some f) (hj : l[j]? = some f) : i = j := by
  obtain ⟨h1, e1⟩ := List.getElem?_eq_some_iff.1 hi
  obtain ⟨h2, e2⟩ := List.getElem?_eq_some_iff.1 hj
  have hp := List.pairwise_iff_getElem.1 h
  rcases Nat.lt_trichotomy i j with hlt | he | hlt
  · exact absurd (e1.trans e2.symm) (hp i j h1 h2 hlt)
  · exact he
  · exact absurd (e2.trans e1.symm) (hp j i h2 h1 hlt)

theorem mem_take_iff {l : List Nat} (h : l.Nodup) {i f n : Nat} (hi : l[i]? = some f) : f ∈ l.take n ↔ i < n := by
  rw [List.mem_iff_getElem?]
  constructor
  · rintro ⟨j, hj⟩
    rw [List.getElem?_take] at hj
    split at hj
    · rename_i hlt
      have := idx_inj h hj hi
      omega
    · cases hj
  · intro hlt
    exact ⟨i, by rw [List.getElem?_take, if_pos hlt]; exact hi⟩

/-- A frame in the cache can be read. -/
theorem Core.get {c : Conf} {b : Pub} (h : Core c b) {i f : Nat} (hi : b.gone ≤ i) (hf : b.hist[i]? = some f) : ∃ x, b.get f = some x ∧ b.frames[f]? = some x := by
  have hm : f ∈ b.hist := List.mem_of_getElem? hf
  have hlt := h.hLt f hm
  refine ⟨b.frames[f], ?_, List.getElem?_eq_getElem hlt⟩
  unfold Pub.get
  have ha : b.acq f = 1 := by rw [h.hAcq, if_pos hm]
  have hr : b.rel f = 0 := by rw [h.hRel, if_neg (by rw [mem_take_iff h.nodup hf]; omega)]
  rw [ha, hr, if_pos (by omega), List.getElem?_eq_getElem hlt]

theorem mod_inj {q i j : Nat} (h : i % q = j % q) (h1 : i < j + q) (h2 : j < i + q) : i = j := by
  rcases Nat.lt_trichotomy i j with hlt | he | hlt
  · have := Nat.sub_mod_eq_zero_of_mod_eq h.symm
    have := Nat.eq_zero_of_dvd_of_lt (Nat.dvd_of_mod_eq_zero this) (by omega)
    omega
  · exact he
  · have := Nat.sub_mod_eq_zero_of_mod_eq h
    have := Nat.eq_zero_of_dvd_of_lt (Nat.dvd_of_mod_eq_zero this) (by omega)
    omega

theorem lt_len {l : List Nat} {i f : Nat} (h : l[i]? = some f) : i < l.length := (List.getElem?_eq_some_iff.1 h).1

/-- What is in the slot of an index that is not far away -/
theorem Core.slot {c : Conf} {b : Pub} (h : Core c b) {i : Nat} (h1 : b.hist.length < i + c.q) (h2 : i ≤ b.hist.length) : b.cache (i % c.q) = if b.gone ≤ i then b.hist[i]? else none := by
  cases hs : b.cache (i % c.q) with
  | none =>
    split
    · rename_i hg
      cases hx : b.hist[i]? with
      | none => rfl
      | some f =>
        have := h.hSlot i f hg hx
        rw [hs] at this
        cases this
    · rfl
  | some f =>
    obtain ⟨j, hj1, hj2, hj3⟩ := h.hNull _ _ hs
    have := lt_len hj3
    have hr := h.hRoom
    have : j = i := mod_inj hj2 (by omega) (by omega)
    subst this
    rw [if_pos hj1, hj3]

theorem Core.drop {c : Conf} {b : Pub} (h : Core c b) {f : Nat} (hf : b.hist[b.gone]? = some f) : Core c (b.drop (b.gone % c.q) f) := by
  have hlt := lt_len hf
  have hr := h.hRoom
  refine { hq := h.hq, hGone := ?_, hRoom := ?_, hLast := h.hLast, hSlot := ?_, hNull := ?_, hSorted := h.hSorted, hLt := h.hLt, hFpos := ?_, hAcq := h.hAcq, hRel := ?_, hNext := h.hNext }
  · show b.gone + 1 ≤ b.hist.length
    omega
  · show b.hist.length < b.gone + 1 + c.q
    omega
  · intro i g hi hg
    have hi : b.gone + 1 ≤ i := hi
    have hg : b.hist[i]? = some g := hg
    have hl := lt_len hg
    show set b.cache (b.gone % c.q) none (i % c.q) = some g
    rw [set_ne _ _ (fun e => by have := mod_inj e (by omega) (by omega); omega)]
    exact h.hSlot i g (by omega) hg
  · intro j g hj
    have hj : set b.cache (b.gone % c.q) none j = some g := hj
    unfold set at hj
    split at hj
    · cases hj
    · rename_i hne
      obtain ⟨i, h1, h2, h3⟩ := h.hNull j g hj
      refine ⟨i, ?_, h2, h3⟩
      show b.gone + 1 ≤ i
      have : b.gone ≠ i := fun e => hne (by rw [← h2, e])
      omega
  · intro i g hi hg
    exact h.hFpos i g (by have : b.gone + 1 ≤ i := hi; omega) hg
  · intro g
    show set b.rel f (b.rel f + 1) g = if g ∈ b.hist.take (b.gone + 1) then 1 else 0
    have hd := h.nodup
    unfold set
    split
    · rename_i e
      subst e
      rw [h.hRel, if_neg (by rw [mem_take_iff hd hf]; omega), if_pos (by rw [mem_take_iff hd hf]; omega)]
    · rename_i hne
      rw [h.hRel]
      have : g ∈ b.hist.take (b.gone + 1) ↔ g ∈ b.hist.take b.gone := by
        rw [List.take_add_one, hf]
        simp [hne]
      simp only [this]

/-- What dropping frames leaves as it is -/
structure Rest (b b' : Pub) : Prop where
  hHist : b'.hist = b.hist
  hFrames : b'.frames = b.frames
  hNext : b'.next = b.next
  hMade : b'.made = b.made
  hCur : b'.cur = b.cur
  hSkip : b'.skip = b.skip

theorem trim_ok {c : Conf} {k2 i2 : Nat} : ∀ (n : Nat) (b : Pub), Core c b → b.hist[i2]? = some k2 → b.gone ≤ i2 → i2 < b.gone + n →
    ∃ b', trim c k2 n b (b.gone % c.q) = some b' ∧ Core c b' ∧ Rest b b' ∧ b'.gone = i2 ∧ b'.pos = i2 % c.q ∧ b'.keyframe = some k2 := by
  intro n
  induction n with
  | zero => intro b _ _ h1 h2; omega
  | succ n ih =>
    intro b h hk h1 h2
    have hlen := lt_len hk
    obtain ⟨f, hf⟩ : ∃ f, b.hist[b.gone]? = some f := ⟨b.hist[b.gone], List.getElem?_eq_getElem (by omega)⟩
    have hs := h.hSlot _ _ (Nat.le_refl _) hf
    unfold trim
    rw [hs]
    dsimp only
    by_cases he : f = k2
    · rw [if_pos he]
      subst he
      have : b.gone = i2 := idx_inj h.nodup hf hk
      refine ⟨_, rfl, ?_, ⟨rfl, rfl, rfl, rfl, rfl, rfl⟩, this, ?_, rfl⟩
      · exact { hq := h.hq, hGone := h.hGone, hRoom := h.hRoom, hLast := h.hLast, hSlot := h.hSlot, hNull := h.hNull, hSorted := h.hSorted, hLt := h.hLt, hFpos := h.hFpos, hAcq := h.hAcq, hRel := h.hRel, hNext := h.hNext }
      · rw [← this]
    · rw [if_neg he]
      obtain ⟨x, hx, _⟩ := h.get (Nat.le_refl _) hf
      rw [hx, Option.bind_some]
      have hne : b.gone ≠ i2 := fun e => he (by rw [e, hk] at hf; exact (Option.some.inj hf).symm)
      have hn : nxt c (b.gone % c.q) = (b.drop (b.gone % c.q) f).gone % c.q := by
        show (b.gone % c.q + 1) % c.q = (b.gone + 1) % c.q
        rw [Nat.mod_add_mod]
      rw [hn]
      obtain ⟨b', e1, e2, e3, e4⟩ := ih (b.drop (b.gone % c.q) f) (h.drop hf) hk (by show b.gone + 1 ≤ i2; omega) (by show i2 < b.gone + 1 + n; omega)
      exact ⟨b', e1, e2, ⟨e3.hHist, e3.hFrames, e3.hNext, e3.hMade, e3.hCur, e3.hSkip⟩, e4⟩

/-- The count that the code computes is the number of frames in the cache. -/
theorem Good.count {c : Conf} {b : Pub} (h : Core c b) (hp : b.pos = b.gone % c.q) : (c.q + b.last - b.pos) % c.q = b.hist.length - b.gone := by
  have h1 := h.hGone
  have h2 := h.hRoom
  have h3 := h.hq
  rw [hp, h.hLast]
  obtain ⟨d, hd⟩ : ∃ d, b.hist.length = b.gone + d := ⟨b.hist.length - b.gone, by omega⟩
  rw [hd]
  have hdq : d < c.q := by omega
  have hm : b.gone % c.q < c.q := Nat.mod_lt _ h3
  have he : (b.gone + d) % c.q = (b.gone % c.q + d) % c.q := by rw [Nat.mod_add_mod]
  rw [he]
  generalize b.gone % c.q = p at *
  have : b.gone + d - b.gone = d := by omega
  rw [this]
  by_cases hlt : p + d < c.q
  · rw [Nat.mod_eq_of_lt hlt]
    have : c.q + (p + d) - p = d + c.q := by omega
    rw [this, Nat.add_mod_right, Nat.mod_eq_of_lt hdq]
  · have : (p + d) % c.q = p + d - c.q := by
      rw [Nat.mod_eq_sub_mod (by omega), Nat.mod_eq_of_lt (by omega)]
    rw [this]
    have : c.q + (p + d - c.q) - p = d := by omega
    rw [this, Nat.mod_eq_of_lt hdq]

end Verif.Hls2.Gop
