import Verif.Hls2.GopPush
/-
What a session takes out of the GOP cache.
-/
namespace Verif.Hls2.Gop
open Verif Verif.Hls2

/-- Frames with indices from `a` up to `i` -/
def slice (b : Pub) (a i : Nat) : List Nat := (b.hist.drop a).take (i - a)

theorem slice_self (b : Pub) (a : Nat) : slice b a a = [] := by
  unfold slice
  rw [Nat.sub_self, List.take_zero]

theorem slice_cons {b : Pub} {a i f : Nat} (h : a < i) (hf : b.hist[a]? = some f) : slice b a i = f :: slice b (a + 1) i := by
  unfold slice
  obtain ⟨h1, h2⟩ := List.getElem?_eq_some_iff.1 hf
  rw [List.drop_eq_getElem_cons h1, show i - a = i - (a + 1) + 1 by omega, List.take_succ_cons, h2]

theorem slice_snoc {b : Pub} {a i f : Nat} (h : a ≤ i) (hf : b.hist[i]? = some f) : slice b a (i + 1) = slice b a i ++ [f] := by
  unfold slice
  rw [show i + 1 - a = i - a + 1 by omega, List.take_add_one, List.getElem?_drop, show a + (i - a) = i by omega, hf]
  rfl

theorem slice_get {b : Pub} {a i t : Nat} (h : t < i - a) : (slice b a i)[t]? = b.hist[a + t]? := by
  unfold slice
  rw [List.getElem?_take, if_pos h, List.getElem?_drop]

theorem slice_len {b : Pub} {a i : Nat} (hi : i ≤ b.hist.length) : (slice b a i).length = i - a := by
  unfold slice
  rw [List.length_take, List.length_drop]
  omega

/-- What a session keeps when frames are put into its queue -/
structure Kept (p p' : Player) : Prop where
  hHls : p'.hls = p.hls
  hGot : p'.got = p.got
  hOld : p'.old = p.old
  hSince : p'.since = p.since

theorem Kept.refl (p : Player) : Kept p p := ⟨rfl, rfl, rfl, rfl⟩
theorem Kept.trans {p p' p'' : Player} (h : Kept p p') (h' : Kept p' p'') : Kept p p'' := ⟨h'.1.trans h.1, h'.2.trans h.2, h'.3.trans h.3, h'.4.trans h.4⟩

/-- Frames `slice a i` were put into the queue. -/
structure Took (c : Conf) (b : Pub) (p p' : Player) (a i : Nat) : Prop where
  hKept : Kept p p'
  hi : a ≤ i ∧ i ≤ b.hist.length
  hLog : p'.log = p.log ++ slice b a i
  hQueue : p'.queue = p.queue ++ slice b a i
  hPos : p'.pos = i % c.q
  hFull : p.full ≤ p'.full

/-- Where the loop ends -/
structure Ends (r : Rule) (b : Pub) (p p' : Player) (a i : Nat) : Prop where
  hDone : p'.full = p.full → p'.state = 2
  hMore : ∀ (t f : Nat) (x : Frame), a ≤ t → t + 1 < i → b.hist[t]? = some f → b.frames[f]? = some x → ¬ enough r p x
  hStop : p'.full = p.full → i = b.hist.length ∨ (a < i ∧ ∀ (f : Nat) (x : Frame), b.hist[i - 1]? = some f → b.frames[f]? = some x → enough r p x)
  hLast : p'.full ≠ p.full → ∀ (f : Nat) (x : Frame), a < i → b.hist[i - 1]? = some f → b.frames[f]? = some x → ¬ enough r p x
  hRoom : p'.full ≠ p.full → p'.queue.length + 1 ≥ r.room
  hState : p.state ≠ 0 → p'.state ≠ 0

theorem enough_put {r : Rule} {p p' : Player} {x : Frame} (h1 : p'.first = p.first) (h2 : p'.base = p.base) : enough r p' x ↔ enough r p x := by
  unfold enough
  split
  · exact Iff.rfl
  · rw [h1, h2]

theorem nxt_mod (c : Conf) (a : Nat) : nxt c (a % c.q) = (a + 1) % c.q := by
  unfold nxt
  rw [Nat.mod_add_mod]

theorem burst_ok {c : Conf} {r : Rule} {b : Pub} (h : Core c b) : ∀ (n : Nat) (p : Player) (a : Nat), b.gone ≤ a → a ≤ b.hist.length → b.hist.length < a + n →
    ∃ p' i, burst c r b n p (a % c.q) b.hist[a]? = some p' ∧ Took c b p p' a i ∧ Ends r b p p' a i := by
  intro n
  induction n with
  | zero => intro p a _ h1 h2; omega
  | succ n ih =>
    intro p a hg ha hn
    cases hf : b.hist[a]? with
    | none =>
      have hae : a = b.hist.length := by
        rw [List.getElem?_eq_none_iff] at hf
        omega
      refine ⟨_, a, rfl, ⟨⟨rfl, rfl, rfl, rfl⟩, ⟨Nat.le_refl _, ha⟩, by rw [slice_self, List.append_nil], by rw [slice_self, List.append_nil], rfl, Nat.le_refl _⟩, ?_⟩
      exact ⟨fun _ => rfl, fun t _ _ h1 h2 => by omega, fun _ => Or.inl hae, fun he => absurd rfl he, fun he => absurd rfl he, fun _ => by simp⟩
    | some f =>
      have hlt := lt_len hf
      obtain ⟨x, hx, hx'⟩ := h.get hg hf
      rw [burst, hx, Option.bind_some]
      by_cases hfull : isFull r p
      · rw [if_pos hfull]
        refine ⟨_, a, rfl, ⟨⟨rfl, rfl, rfl, rfl⟩, ⟨Nat.le_refl _, ha⟩, by rw [slice_self, List.append_nil], by rw [slice_self, List.append_nil], rfl, Nat.le_succ _⟩, ?_⟩
        have hne : p.full + 1 ≠ p.full := by omega
        exact ⟨fun he => absurd he hne, fun t _ _ h1 h2 => by omega, fun he => absurd he hne, fun _ _ _ h1 => by omega, fun _ => hfull, fun h0 => h0⟩
      · rw [if_neg hfull]
        have hs1 : slice b a (a + 1) = [f] := by rw [slice_snoc (Nat.le_refl _) hf, slice_self]; rfl
        by_cases hen : enough r p x
        · rw [if_pos hen]
          refine ⟨_, a + 1, rfl, ⟨⟨rfl, rfl, rfl, rfl⟩, ⟨Nat.le_succ _, hlt⟩, by rw [hs1]; rfl, by rw [hs1]; rfl, nxt_mod c a, Nat.le_refl _⟩, ?_⟩
          refine ⟨fun _ => rfl, fun t _ _ h1 h2 => by omega, fun _ => Or.inr ⟨Nat.lt_succ_self _, ?_⟩, fun he => absurd rfl he, fun he => absurd rfl he, fun _ => by simp⟩
          intro f' x' hf' hx2
          rw [Nat.add_sub_cancel, hf] at hf'
          rw [← Option.some.inj hf', hx'] at hx2
          rw [← Option.some.inj hx2]
          exact hen
        · rw [if_neg hen, nxt_mod]
          have hsl : b.cache ((a + 1) % c.q) = b.hist[a + 1]? := by
            have hr := h.hRoom
            rw [h.slot (by omega) (by omega), if_pos (by omega)]
          rw [hsl]
          obtain ⟨p', i, e1, e2, e3⟩ := ih (p.put f) (a + 1) (by omega) hlt (by omega)
          have hi := e2.hi
          refine ⟨p', i, e1, ⟨⟨e2.hKept.1, e2.hKept.2, e2.hKept.3, e2.hKept.4⟩, by omega, ?_, ?_, e2.hPos, e2.hFull⟩, ?_⟩
          · rw [e2.hLog, slice_cons (by omega) hf]
            show p.log ++ [f] ++ _ = _
            rw [List.append_assoc]
            rfl
          · rw [e2.hQueue, slice_cons (by omega) hf]
            show p.queue ++ [f] ++ _ = _
            rw [List.append_assoc]
            rfl
          · have hput : ∀ y, enough r (p.put f) y ↔ enough r p y := fun y => enough_put rfl rfl
            refine ⟨e3.hDone, ?_, ?_, ?_, e3.hRoom, e3.hState⟩
            · intro t f' x' h1 h2 h3 h4
              rcases Nat.eq_or_lt_of_le h1 with he | hlt2
              · rw [← he, hf] at h3
                rw [← Option.some.inj h3, hx'] at h4
                rw [← Option.some.inj h4]
                exact hen
              · rw [← hput]
                exact e3.hMore t f' x' (by omega) h2 h3 h4
            · intro hfu
              rcases e3.hStop hfu with he | ⟨h1, h2⟩
              · exact Or.inl he
              · exact Or.inr ⟨by omega, fun f' x' h3 h4 => (hput x').1 (h2 f' x' h3 h4)⟩
            · intro hfu f' x' h1 h3 h4
              rcases Nat.eq_or_lt_of_le hi.1 with he | hlt2
              · rw [← he, Nat.add_sub_cancel, hf] at h3
                rw [← Option.some.inj h3, hx'] at h4
                rw [← Option.some.inj h4]
                exact hen
              · rw [← hput]
                exact e3.hLast hfu f' x' hlt2 h3 h4

/-- A key frame that is more than the offset ago -/
def older (b : Pub) (off f : Nat) : Bool := match b.frames[f]? with | none => false | some x => decide (off ≠ 0 ∧ diff b.cur x.pts > off * 90)

theorem seekKey_ok {b : Pub} {off : Nat} : ∀ (l : List Nat) (n : Nat) (h fr : Option Nat), Linked b.next h l → (∀ g ∈ l, ∃ x, b.get g = some x ∧ b.frames[g]? = some x) → l.length < n →
    seekKey b off n h fr = some ((l.takeWhile (older b off)).getLast?.or fr) := by
  intro l
  induction l with
  | nil =>
    intro n h fr hl _ hn
    obtain ⟨m, rfl⟩ : ∃ m, n = m + 1 := ⟨n - 1, by simp at hn; omega⟩
    have hl : h = none := hl
    subst hl
    rfl
  | cons k l ih =>
    intro n h fr hl hg hn
    obtain ⟨m, rfl⟩ : ∃ m, n = m + 1 := ⟨n - 1, by simp at hn; omega⟩
    obtain ⟨hk, hl2⟩ := hl
    subst hk
    obtain ⟨x, hx, hx'⟩ := hg k (by simp)
    rw [seekKey, hx, Option.bind_some, List.takeWhile_cons]
    have ho : older b off k = decide (off ≠ 0 ∧ diff b.cur x.pts > off * 90) := by unfold older; rw [hx']
    by_cases hd : off ≠ 0 ∧ diff b.cur x.pts > off * 90
    · rw [if_pos hd, ho, decide_eq_true hd, if_pos rfl, ih m (b.next k) (some k) hl2 (fun g hm => hg g (by simp [hm])) (by simp only [List.length_cons] at hn; omega)]
      cases l.takeWhile (older b off) with
      | nil => rfl
      | cons a l' => simp [List.getLast?_cons]
    · rw [if_neg hd, ho, decide_eq_false hd]
      rfl

/-- Key frames in the cache -/
def Pub.keys (b : Pub) : List Nat := b.window.filter (isKey b)

theorem Good.key_get {c : Conf} {b : Pub} (h : Good c b) {g : Nat} (hg : g ∈ b.keys) : ∃ i x, b.gone ≤ i ∧ b.hist[i]? = some g ∧ b.get g = some x ∧ b.frames[g]? = some x ∧ x.key = true := by
  obtain ⟨h1, h2⟩ := List.mem_filter.1 hg
  obtain ⟨i, hi, hi2⟩ := mem_window h.core h1
  obtain ⟨x, hx, hx'⟩ := h.core.get hi hi2
  refine ⟨i, x, hi, hi2, hx, hx', ?_⟩
  unfold isKey at h2
  rw [hx'] at h2
  exact h2

theorem Good.seek {c : Conf} {b : Pub} (h : Good c b) (off : Nat) : seekKey b off (b.frames.length + 1) b.keyframe none = some ((b.keys.takeWhile (older b off)).getLast?) := by
  have hlen : b.keys.length < b.frames.length + 1 := by
    have hd : b.keys.Nodup := (window_nodup h.core).filter _
    have := hd.length_le_of_subset (l₂ := List.range b.frames.length) (fun g hg => List.mem_range.2 (h.core.hLt g (List.mem_of_mem_drop (List.mem_filter.1 hg).1)))
    rw [List.length_range] at this
    omega
  rw [seekKey_ok b.keys _ _ none h.hKeys (fun g hg => by obtain ⟨i, x, _, _, h1, h2, _⟩ := h.key_get hg; exact ⟨x, h1, h2⟩) hlen, Option.or_none]

/-- Where `ngx_mpegts_gop_offset_frames` starts -/
theorem sendGop_ok {c : Conf} {r : Rule} {b : Pub} (h : Good c b) (p : Player) :
    (b.hist = [] ∧ ∃ p', sendGop c r b p = some p' ∧ Kept p p' ∧ p'.log = p.log ∧ p'.queue = p.queue ∧ p'.full = p.full) ∨
    (b.hist ≠ [] ∧ ∃ p1 p' a i, sendGop c r b p = some p' ∧ p1.log = p.log ∧ p1.queue = p.queue ∧ p1.full = p.full ∧ b.gone ≤ a ∧ a < b.hist.length ∧ Took c b p p' a i ∧ Ends r b p1 p' a i ∧
      ((b.keys.takeWhile (older b r.offset)).getLast? = b.hist[a]? ∨
        ((b.keys.takeWhile (older b r.offset)).getLast? = none ∧ ((a = b.gone ∧ (p.state = 0 ∨ b.cache p.pos = none)) ∨ (p.state ≠ 0 ∧ p.pos = a % c.q)))) ∧ p'.state ≠ 0 ∧
      (p.state = 0 → ∀ f g x y, b.hist[a]? = some f → b.frames[f]? = some x → b.hist[b.gone]? = some g → b.frames[g]? = some y →
        if r.note ∧ (b.keys.takeWhile (older b r.offset)).getLast? ≠ none then p1.first = x.pts ∧ p1.base = x.video else p1.first = y.pts ∧ p1.base = y.video)) := by
  have hr := h.core.hRoom
  have hg0 := h.core.hGone
  have hseek := h.seek r.offset
  by_cases hne : b.hist = []
  · refine Or.inl ⟨hne, ?_⟩
    have hz : b.hist.length = 0 := by rw [hne]; rfl
    have hnull : ∀ j, b.cache j = none := by
      intro j
      cases hj : b.cache j with
      | none => rfl
      | some f =>
        obtain ⟨i, _, _, h3⟩ := h.core.hNull j f hj
        rw [hne] at h3
        cases h3
    unfold sendGop begin
    by_cases hst : p.state = 0
    · rw [if_pos hst, hnull]
      exact ⟨_, rfl, ⟨rfl, rfl, rfl, rfl⟩, rfl, rfl, rfl⟩
    · rw [if_neg hst, if_pos (hnull _), Option.bind_some]
      dsimp only
      have hk : b.keys = [] := by unfold Pub.keys Pub.window; rw [hne]; simp
      rw [hseek, hk, Option.bind_some]
      dsimp only [List.takeWhile_nil, List.getLast?_nil]
      rw [hnull]
      exact ⟨_, rfl, ⟨rfl, rfl, rfl, rfl⟩, rfl, rfl, rfl⟩
  · refine Or.inr ⟨hne, ?_⟩
    have hlt := (h.hMade hne).2
    obtain ⟨g, hg⟩ : ∃ g, b.hist[b.gone]? = some g := ⟨b.hist[b.gone], List.getElem?_eq_getElem hlt⟩
    have hs := h.core.hSlot _ _ (Nat.le_refl _) hg
    obtain ⟨y, hy, hy'⟩ := h.core.get (Nat.le_refl _) hg
    -- where the session is
    have hbegin : ∃ p1 a1, begin b p = some (some p1) ∧ p1.log = p.log ∧ p1.queue = p.queue ∧ p1.full = p.full ∧ Kept p p1 ∧ b.gone ≤ a1 ∧ a1 < b.hist.length ∧ p1.pos = a1 % c.q ∧
        ((a1 = b.gone ∧ (p.state = 0 ∨ b.cache p.pos = none)) ∨ (p.state ≠ 0 ∧ p.pos = a1 % c.q)) ∧ p1.state ≠ 0 ∧ (p.state = 0 → p1.first = y.pts ∧ p1.base = y.video) := by
      unfold begin
      by_cases hst : p.state = 0
      · rw [if_pos hst, h.hPos, hs]
        dsimp only
        rw [hy]
        exact ⟨_, b.gone, rfl, rfl, rfl, rfl, ⟨rfl, rfl, rfl, rfl⟩, Nat.le_refl _, hlt, rfl, Or.inl ⟨rfl, Or.inl hst⟩, by simp, fun _ => ⟨rfl, rfl⟩⟩
      · rw [if_neg hst]
        cases hcp : b.cache p.pos with
        | none =>
          rw [if_pos rfl]
          exact ⟨_, b.gone, rfl, rfl, rfl, rfl, ⟨rfl, rfl, rfl, rfl⟩, Nat.le_refl _, hlt, h.hPos, Or.inl ⟨rfl, Or.inr rfl⟩, hst, fun he => absurd he hst⟩
        | some f =>
          rw [if_neg (by simp)]
          obtain ⟨i, h1, h2, h3⟩ := h.core.hNull _ _ hcp
          exact ⟨p, i, rfl, rfl, rfl, rfl, ⟨rfl, rfl, rfl, rfl⟩, h1, lt_len h3, h2.symm, Or.inr ⟨hst, h2.symm⟩, hst, fun he => absurd he hst⟩
    obtain ⟨p1, a1, e1, e2, e3, e4, e5, e6, e7, e8, e9, e11, e10⟩ := hbegin
    unfold sendGop
    rw [e1, Option.bind_some]
    dsimp only
    rw [hseek, Option.bind_some]
    cases hsk : (b.keys.takeWhile (older b r.offset)).getLast? with
    | none =>
      dsimp only
      have hsl : b.cache p1.pos = b.hist[a1]? := by
        rw [e8, h.core.slot (by omega) (by omega), if_pos e6]
      rw [hsl, e8]
      obtain ⟨p', i, t1, t2, t3⟩ := burst_ok (r := r) h.core (c.q + 1) p1 a1 e6 (by omega) (by omega)
      refine ⟨p1, p', a1, i, t1, e2, e3, e4, e6, e7, ?_, t3, Or.inr ⟨rfl, e9⟩, t3.hState e11, ?_⟩
      · exact ⟨e5.trans t2.hKept, t2.hi, by rw [t2.hLog, e2], by rw [t2.hQueue, e3], t2.hPos, by rw [← e4]; exact t2.hFull⟩
      · intro hst f g' x y' _ _ hg' hy2
        rw [hg] at hg'
        have := Option.some.inj hg'
        subst this
        rw [hy'] at hy2
        have := Option.some.inj hy2
        subst this
        rw [if_neg (by simp)]
        exact e10 hst
    | some k =>
      dsimp only
      have hkm : k ∈ b.keys := by
        have : k ∈ b.keys.takeWhile (older b r.offset) := List.mem_of_getLast? hsk
        exact (List.takeWhile_sublist _).subset this
      obtain ⟨ik, xk, h1, h2, h3, h4, _⟩ := h.key_get hkm
      rw [h3, Option.bind_some, h.core.hFpos ik k h1 h2, ← h2]
      have hlk := lt_len h2
      obtain ⟨p', i, t1, t2, t3⟩ := burst_ok (r := r) h.core (c.q + 1) (if r.note then { p1 with first := xk.pts, base := xk.video } else p1) ik h1 (by omega) (by omega)
      have f1 : (if r.note then { p1 with first := xk.pts, base := xk.video } else p1).log = p.log := by split <;> exact e2
      have f2 : (if r.note then { p1 with first := xk.pts, base := xk.video } else p1).queue = p.queue := by split <;> exact e3
      have f3 : (if r.note then { p1 with first := xk.pts, base := xk.video } else p1).full = p.full := by split <;> exact e4
      have f4 : Kept p (if r.note then { p1 with first := xk.pts, base := xk.video } else p1) := by
        split
        · exact ⟨e5.1, e5.2, e5.3, e5.4⟩
        · exact e5
      refine ⟨_, p', ik, i, t1, f1, f2, f3, h1, hlk, ?_, t3, Or.inl rfl, t3.hState (by split <;> exact e11), ?_⟩
      · exact ⟨f4.trans t2.hKept, t2.hi, by rw [t2.hLog, f1], by rw [t2.hQueue, f2], t2.hPos, by rw [← f3]; exact t2.hFull⟩
      · intro hst f g' x y' hf' hx2 hg' hy2
        rw [h2] at hf'
        have := Option.some.inj hf'
        subst this
        rw [h4] at hx2
        have := Option.some.inj hx2
        subst this
        rw [hg] at hg'
        have := Option.some.inj hg'
        subst this
        rw [hy'] at hy2
        have := Option.some.inj hy2
        subst this
        by_cases hn : r.note = true
        · rw [if_pos ⟨hn, by rw [h2]; simp⟩, if_pos hn]
          exact ⟨rfl, rfl⟩
        · rw [if_neg (fun he => hn he.1), if_neg hn]
          exact e10 hst

end Verif.Hls2.Gop
