import Verif.Hls2.GopRun
/-
What a session gets first.
-/
namespace Verif.Hls2.Gop
open Verif Verif.Hls2 Verif.Hls2.Gop.Spec

theorem named_cons {frames : List Frame} {f : Nat} {x : Frame} (hx : frames[f]? = some x) (l : List Nat) : named frames (f :: l) = (f, x) :: named frames l := by
  unfold named
  rw [List.filterMap_cons, hx]
  rfl

theorem named_get {frames : List Frame} : ∀ {ids : List Nat}, (∀ f ∈ ids, f < frames.length) → ∀ t : Nat, (named frames ids)[t]? = (ids[t]?).bind fun f => (frames[f]?).map (f, ·) := by
  intro ids
  induction ids with
  | nil => intro _ t; rfl
  | cons f ids ih =>
    intro h t
    have hf := List.getElem?_eq_getElem (h f (by simp))
    rw [named_cons hf]
    cases t with
    | zero => simp [hf]
    | succ t =>
      rw [List.getElem?_cons_succ, List.getElem?_cons_succ]
      exact ih (fun g hg => h g (by simp [hg])) t

theorem named_ids {frames : List Frame} : ∀ {ids : List Nat}, (∀ f ∈ ids, f < frames.length) → (named frames ids).map (·.1) = ids := by
  intro ids
  induction ids with
  | nil => intro _; rfl
  | cons f ids ih =>
    intro h
    rw [named_cons (List.getElem?_eq_getElem (h f (by simp))), List.map_cons, ih fun g hg => h g (by simp [hg])]

theorem named_append (frames : List Frame) (a b : List Nat) : named frames (a ++ b) = named frames a ++ named frames b := List.filterMap_append

theorem upTo_take {d f : Nat} {v : Bool} : ∀ (L : List (Nat × Frame)) (n : Nat), n ≤ L.length →
    (∀ t x, t + 1 < n → L[t]? = some x → ¬ (x.2.video = v ∧ f + d ≤ x.2.pts)) → (n = L.length ∨ (0 < n ∧ ∀ x, L[n - 1]? = some x → x.2.video = v ∧ f + d ≤ x.2.pts)) →
    upTo d f v L = (L.take n).map (·.1) := by
  intro L
  induction L with
  | nil =>
    intro n hn _ _
    rw [List.length_nil, Nat.le_zero] at hn
    subst hn
    rfl
  | cons y L ih =>
    intro n hn h1 h2
    obtain ⟨i, y⟩ := y
    have hn0 : 0 < n := by
      rcases h2 with h2 | h2
      · rw [h2, List.length_cons]
        omega
      · exact h2.1
    obtain ⟨m, rfl⟩ : ∃ m, n = m + 1 := ⟨n - 1, by omega⟩
    rw [List.take_succ_cons, List.map_cons]
    unfold upTo
    split
    · rename_i hc
      have hm : m = 0 := by
        by_cases hm : m = 0
        · exact hm
        · exact absurd hc (h1 0 (i, y) (by omega) rfl)
      rw [hm]
      rfl
    · rename_i hc
      rw [List.length_cons] at hn h2
      rw [ih m (by omega) (fun t x ht hx => h1 (t + 1) x (by omega) hx) ?_]
      rcases h2 with h2 | ⟨_, h2⟩
      · exact Or.inl (by omega)
      · by_cases hm : m = 0
        · subst hm
          exact absurd (h2 (i, y) rfl) hc
        · obtain ⟨k, rfl⟩ : ∃ k, m = k + 1 := ⟨m - 1, by omega⟩
          exact Or.inr ⟨by omega, fun x hx => h2 x hx⟩

theorem startOf_eq {b : Pub} {off : Nat} (hoff : off ≠ 0) : ∀ (ids : List Nat) (r : Option Nat), (∀ f ∈ ids, ∃ x, b.frames[f]? = some x ∧ x.pts ≤ b.cur) → b.cur < 2 ^ 63 →
    startOf (off * 90) b.cur (named b.frames ids) r = (((ids.filter (isKey b)).takeWhile (older b off)).getLast?).or r := by
  intro ids
  induction ids with
  | nil => intro r _ _; rfl
  | cons f ids ih =>
    intro r h hc
    obtain ⟨x, hx, hp⟩ := h f (by simp)
    have ih := fun r => ih r (fun g hg => h g (by simp [hg])) hc
    rw [named_cons hx]
    unfold startOf
    have hk : isKey b f = x.key := by unfold isKey; rw [hx]
    cases hxk : x.key with
    | false =>
      rw [if_pos rfl, ih, List.filter_cons_of_neg (by rw [hk, hxk]; simp)]
    | true =>
      rw [if_neg (by simp), List.filter_cons_of_pos (by rw [hk, hxk])]
      have ho : older b off f = decide (¬ b.cur ≤ x.pts + off * 90) := by
        have hd : diff b.cur x.pts = b.cur - x.pts := by unfold diff; omega
        unfold older
        rw [hx]
        dsimp only
        rw [hd]
        apply decide_eq_decide.2
        omega
      by_cases hcur : b.cur ≤ x.pts + off * 90
      · rw [if_pos hcur, List.takeWhile_cons_of_neg (by rw [ho]; simpa using hcur)]
        rfl
      · rw [if_neg hcur, List.takeWhile_cons_of_pos (by rw [ho]; simpa using hcur), ih]
        cases hl : List.getLast? ((ids.filter (isKey b)).takeWhile (older b off)) with
        | none =>
          rw [List.getLast?_eq_none_iff.1 hl]
          rfl
        | some g => rw [List.getLast?_cons, hl]; rfl

theorem dropWhile_named {frames : List Frame} : ∀ {pre rest : List Nat} {f : Nat}, (∀ g ∈ pre ++ f :: rest, g < frames.length) → f ∉ pre → (named frames (pre ++ f :: rest)).dropWhile (fun x => x.1 ≠ f) = named frames (f :: rest) := by
  intro pre rest f
  induction pre with
  | nil =>
    intro h _
    rw [List.nil_append, named_cons (List.getElem?_eq_getElem (h f (by simp)))]
    exact List.dropWhile_cons_of_neg (by simp)
  | cons g pre ih =>
    intro h hf
    rw [List.mem_cons, not_or] at hf
    rw [List.cons_append, named_cons (List.getElem?_eq_getElem (h g (by simp))), List.dropWhile_cons_of_pos (by simpa using fun e => hf.1 e.symm)]
    exact ih (fun x hx => h x (by simp at hx ⊢; rcases hx with hx | hx | hx <;> simp [hx])) hf.2

theorem slice_split {b : Pub} {g a : Nat} (h1 : g ≤ a) (h2 : a ≤ b.hist.length) : slice b g b.hist.length = slice b g a ++ slice b a b.hist.length := by
  have hall : ∀ j, slice b j b.hist.length = b.hist.drop j := fun j => List.take_of_length_le (by rw [List.length_drop]; omega)
  rw [hall, hall]
  unfold slice
  conv => lhs; rw [← List.take_append_drop (a - g) (b.hist.drop g)]
  rw [List.drop_drop, show g + (a - g) = a by omega]

theorem window_slice (b : Pub) : b.window = slice b b.gone b.hist.length := by
  unfold Pub.window slice
  rw [List.take_of_length_le (by rw [List.length_drop]; omega)]

theorem slice_take {b : Pub} {a i : Nat} (hi : i ≤ b.hist.length) : (slice b a b.hist.length).take (i - a) = slice b a i := by
  unfold slice
  rw [List.take_take, show min (i - a) (b.hist.length - a) = i - a by omega]

/-- `link` of a session that is new -/
theorem link_first {c : Conf} {r : Rule} {b : Pub} (h : Good c b) (hcur : b.hist ≠ [] → b.cur < 2 ^ 63) (hord : ∀ (i j f g : Nat) (x y : Frame), i ≤ j → b.hist[i]? = some f → b.hist[j]? = some g → b.frames[f]? = some x → b.frames[g]? = some y → x.pts ≤ y.pts)
    (p p' : Player) (hp : p.state = 0) (hl : link c r b p = some p') (hf : p'.full = p.full) :
    p'.log = p.log ++ sends (r.offset * 90) (r.dur.map (· * 90)) r.note (named b.frames b.window) := by
  unfold link at hl
  rw [if_neg (by rw [hp]; omega)] at hl
  rcases sendGop_ok (r := r) h p with ⟨hne, p'', e1, _, e3, _⟩ | ⟨hne, p1, p'', a, i, e1, _, _, e4, e5, e6, e7, e8, e9, _, e10⟩
  · rw [hl] at e1
    have : p' = p'' := Option.some.inj e1
    subst this
    rw [e3, window_slice]
    unfold slice
    rw [hne]
    simp [named, sends]
  · rw [hl] at e1
    have : p' = p'' := Option.some.inj e1
    subst this
    have e10 := e10 hp
    have hcur := hcur hne
    rw [e7.hLog]
    congr 1
    have hi := e7.hi
    -- the ends of the cache
    have hgl : b.gone < b.hist.length := (h.hMade hne).2
    have hget : ∀ j, j < b.hist.length → ∃ f x, b.hist[j]? = some f ∧ b.frames[f]? = some x := by
      intro j hj
      have hm : b.hist[j] ∈ b.hist := List.getElem_mem hj
      exact ⟨b.hist[j], b.frames[b.hist[j]]'(h.core.hLt _ hm), List.getElem?_eq_getElem hj, List.getElem?_eq_getElem (h.core.hLt _ hm)⟩
    obtain ⟨g, y, hg, hy⟩ := hget b.gone hgl
    obtain ⟨f, x, hfa, hx⟩ := hget a e6
    obtain ⟨m, z, hm, hz⟩ := hget (b.hist.length - 1) (by omega)
    have hzc : b.cur = z.pts := h.hCur m z (by rw [List.getLast?_eq_getElem?]; exact hm) hz
    have hcons : ∀ j f, b.hist[j]? = some f → slice b j b.hist.length = f :: slice b (j + 1) b.hist.length := fun j f hj => slice_cons (lt_len hj) hj
    have hv : ∀ {j : Nat}, ∀ f ∈ slice b j b.hist.length, f < b.frames.length := fun f hf => h.core.hLt f (slice_mem f hf)
    have hhead : (named b.frames b.window).head? = some (g, y) := by
      rw [window_slice, hcons _ _ hg, named_cons hy]
      rfl
    have hlast : (named b.frames b.window).getLast? = some (m, z) := by
      have hs := slice_snoc (b := b) (a := b.gone) (i := b.hist.length - 1) (by omega) hm
      rw [show b.hist.length - 1 + 1 = b.hist.length by omega] at hs
      rw [window_slice, hs, named_append, named_cons hz, List.getLast?_append]
      rfl
    have hle : ∀ t f x, t < b.hist.length → b.hist[t]? = some f → b.frames[f]? = some x → x.pts ≤ b.cur := by
      intro t f x ht hf hx
      rw [hzc]
      exact hord t (b.hist.length - 1) f m x z (by omega) hf hm hx hz
    -- where it starts
    have hstart : (if r.offset * 90 = 0 then none else startOf (r.offset * 90) z.pts (named b.frames b.window) none) = (b.keys.takeWhile (older b r.offset)).getLast? := by
      by_cases ho : r.offset = 0
      · rw [ho, if_pos (by omega), older_zero]
        rfl
      · rw [if_neg (by omega), ← hzc, startOf_eq ho _ _ ?_ hcur, Option.or_none]
        · rfl
        · intro f hf
          rw [window_slice] at hf
          obtain ⟨t, ht⟩ := List.mem_iff_getElem?.1 hf
          have hlt := lt_len ht
          rw [slice_len (Nat.le_refl _)] at hlt
          rw [slice_get (by omega)] at ht
          obtain ⟨f', x', h1, h2⟩ := hget (b.gone + t) (by omega)
          rw [ht] at h1
          have := Option.some.inj h1
          subst this
          exact ⟨x', h2, hle _ _ _ (by omega) ht h2⟩
    have hsuf : suffix (r.offset * 90) z.pts (named b.frames b.window) = named b.frames (slice b a b.hist.length) := by
      unfold suffix
      rw [hstart]
      rcases e9 with e9 | ⟨e9, ⟨e9', _⟩ | ⟨e9', _⟩⟩
      · rw [e9, hfa]
        dsimp only
        rw [window_slice, slice_split e5 (Nat.le_of_lt e6), hcons _ _ hfa]
        refine dropWhile_named ?_ ?_
        · intro k hk
          rcases List.mem_append.1 hk with hk | hk
          · exact h.core.hLt k (slice_mem k hk)
          · rw [← hcons _ _ hfa] at hk
            exact hv k hk
        · intro hk
          obtain ⟨t, ht⟩ := List.mem_iff_getElem?.1 hk
          have hlt := lt_len ht
          rw [slice_len (Nat.le_of_lt e6)] at hlt
          rw [slice_get (by omega)] at ht
          have := idx_inj h.core.nodup ht hfa
          omega
      · rw [e9, e9']
        dsimp only
        rw [window_slice]
      · exact absurd hp e9'
    -- from where time is counted
    have hfirst : ∃ k w, (if r.note then (named b.frames (slice b a b.hist.length)).head? else some (g, y)) = some (k, w) ∧ p1.first = w.pts ∧ p1.base = w.video ∧ w.pts ≤ x.pts := by
      have hha : (named b.frames (slice b a b.hist.length)).head? = some (f, x) := by
        rw [hcons _ _ hfa, named_cons hx]
        rfl
      have hyx := hord b.gone a g f y x e5 hg hfa hy hx
      have e10 := e10 f g x y hfa hx hg hy
      cases hn : r.note with
      | false =>
        rw [if_neg (by rw [hn]; simp)] at e10
        exact ⟨g, y, by simp, e10.1, e10.2, hyx⟩
      | true =>
        refine ⟨f, x, by rw [if_pos rfl]; exact hha, ?_⟩
        by_cases hk : (b.keys.takeWhile (older b r.offset)).getLast? = none
        · rw [if_neg (by simp [hk])] at e10
          have hag : a = b.gone := by
            rcases e9 with e9 | ⟨_, ⟨e9, _⟩ | ⟨e9, _⟩⟩
            · rw [hk, hfa] at e9
              cases e9
            · exact e9
            · exact absurd hp e9
          rw [hag, hg] at hfa
          have := Option.some.inj hfa
          subst this
          rw [hy] at hx
          have := Option.some.inj hx
          subst this
          exact ⟨e10.1, e10.2, Nat.le_refl _⟩
        · rw [if_pos ⟨hn, hk⟩] at e10
          exact ⟨e10.1, e10.2, Nat.le_refl _⟩
    obtain ⟨k, w, hw, hw1, hw2, hw3⟩ := hfirst
    have hsame : p'.full = p1.full := by rw [hf, e4]
    unfold sends
    rw [hhead, hlast]
    dsimp only
    rw [hsuf, hw]
    -- enough
    have hen : ∀ d, r.dur = some d → ∀ t f x, a ≤ t → t < b.hist.length → b.hist[t]? = some f → b.frames[f]? = some x → (enough r p1 x ↔ (x.video = w.video ∧ w.pts + d * 90 ≤ x.pts)) := by
      intro d hd t f' x' hat htl hf' hx'
      have h1 := hord a t f f' x x' hat hfa hf' hx hx'
      have h2 := hle t f' x' htl hf' hx'
      have hdf : diff x'.pts w.pts = x'.pts - w.pts := by unfold diff; omega
      unfold enough
      rw [hd, hw1, hw2]
      dsimp only
      rw [hdf]
      constructor
      · rintro ⟨q1, q2⟩
        exact ⟨q1, by omega⟩
      · rintro ⟨q1, q2⟩
        exact ⟨q1, by omega⟩
    have hlen := slice_len (b := b) (a := a) (Nat.le_refl b.hist.length)
    have hnl : (named b.frames (slice b a b.hist.length)).length = b.hist.length - a := by
      rw [← hlen, ← List.length_map (f := (·.1)), named_ids hv]
    have hnget : ∀ t q, (named b.frames (slice b a b.hist.length))[t]? = some q → b.hist[a + t]? = some q.1 ∧ b.frames[q.1]? = some q.2 ∧ a + t < b.hist.length := by
      intro t q hq
      have hlt := (List.getElem?_eq_some_iff.1 hq).1
      rw [hnl] at hlt
      rw [named_get hv, slice_get (by omega)] at hq
      obtain ⟨f', x', h1, h2⟩ := hget (a + t) (by omega)
      rw [h1, Option.bind_some, h2, Option.map_some] at hq
      rw [← Option.some.inj hq]
      exact ⟨h1, h2, by omega⟩
    cases hd : r.dur with
    | none =>
      rw [Option.map_none]
      dsimp only
      rw [named_ids hv]
      rcases e8.hStop hsame with hst | ⟨hai, hst⟩
      · rw [hst]
      · obtain ⟨f', x', h1, h2⟩ := hget (i - 1) (by omega)
        have := hst f' x' h1 h2
        unfold enough at this
        rw [hd] at this
        exact this.elim
    | some d =>
      rw [Option.map_some]
      dsimp only
      rw [upTo_take _ (i - a) (by rw [hnl]; omega)]
      · rw [← slice_take hi.2, List.map_take, named_ids hv]
      · intro t q ht hq
        obtain ⟨q1, q2, q3⟩ := hnget t q hq
        rw [← hen d hd (a + t) q.1 q.2 (by omega) q3 q1 q2]
        exact e8.hMore (a + t) q.1 q.2 (by omega) (by omega) q1 q2
      · rcases e8.hStop hsame with hst | ⟨hai, hst⟩
        · left
          rw [hnl, hst]
        · right
          refine ⟨by omega, ?_⟩
          intro q hq
          obtain ⟨q1, q2, q3⟩ := hnget _ q hq
          rw [← hen d hd (a + (i - a - 1)) q.1 q.2 (by omega) q3 q1 q2]
          exact hst q.1 q.2 (by rw [show i - 1 = a + (i - a - 1) by omega]; exact q1) q2

end Verif.Hls2.Gop
