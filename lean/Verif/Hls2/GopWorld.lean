import Verif.Hls2.GopTrack
import Verif.Hls2.Props
/-
The publisher and all sessions.
-/
namespace Verif.Hls2.Gop
open Verif Verif.Hls2 Verif.Hls2.Gop.Spec

theorem Good.frames {c : Conf} {b : Pub} (h : Good c b) (x : Frame) : Good c { b with frames := b.frames ++ [x] } := by
  have hk : ∀ f ∈ b.hist, isKey { b with frames := b.frames ++ [x] } f = isKey b f := by
    intro f hf
    unfold isKey
    dsimp only
    rw [List.getElem?_append_left (h.core.hLt f hf)]
  refine ⟨{ hq := h.core.hq, hGone := h.core.hGone, hRoom := h.core.hRoom, hLast := h.core.hLast, hSlot := h.core.hSlot, hNull := h.core.hNull, hSorted := h.core.hSorted, hLt := ?_, hFpos := h.core.hFpos, hAcq := h.core.hAcq, hRel := h.core.hRel, hNext := h.core.hNext }, h.hPos, ?_, ?_, h.hMade, ?_⟩
  · intro f hf
    show f < (b.frames ++ [x]).length
    have := h.core.hLt f hf
    rw [List.length_append]
    omega
  · have : List.filter (isKey { b with frames := b.frames ++ [x] }) b.window = List.filter (isKey b) b.window := List.filter_congr fun f hf => hk f (List.mem_of_mem_drop hf)
    show Linked b.next b.keyframe (List.filter (isKey { b with frames := b.frames ++ [x] }) b.window)
    rw [this]
    exact h.hKeys
  · intro i f y hi hf hy hin
    have hy : (b.frames ++ [x])[f]? = some y := hy
    rw [List.getElem?_append_left (h.core.hLt f (List.mem_of_getElem? hf))] at hy
    obtain ⟨j, g, h1, h2, h3, h4⟩ := h.hVideo i f y hi hf hy hin
    exact ⟨j, g, h1, h2, h3, by rw [hk g (List.mem_of_getElem? h3)]; exact h4⟩
  · intro f y hf hy
    have hy : (b.frames ++ [x])[f]? = some y := hy
    rw [List.getElem?_append_left (h.core.hLt f (List.mem_of_getLast? hf))] at hy
    exact h.hCur f y hf hy

theorem ext_frames (b : Pub) (x : Frame) : Ext b { b with frames := b.frames ++ [x] } := ⟨⟨[], by simp⟩, ⟨[x], rfl⟩, Nat.le_refl _, Nat.le_refl _⟩

theorem Step.ext {c : Conf} {b b' : Pub} {f : Nat} {x : Frame} (h : Step c b b' f x) : Ext b b' := by
  refine ⟨?_, ⟨[], by rw [h.hFrames]; simp⟩, ?_, ?_⟩
  · rcases h.hHist with ⟨e, _⟩ | ⟨e, _⟩
    · exact ⟨[], by rw [e]; simp⟩
    · exact ⟨[f], e⟩
  · rcases h.hHist with ⟨_, e, _⟩ | ⟨_, e, _⟩ <;> omega
  · rcases h.hHist with ⟨_, _, e⟩ | ⟨_, _, e⟩ <;> omega

theorem Track.frames {c : Conf} {b : Pub} {p : Player} {i : Nat} (hg : Good c b) (x : Frame) (hm : ∀ f ∈ p.log, f < b.frames.length) (h : Track c b p i) : Track c { b with frames := b.frames ++ [x] } p i := by
  refine ⟨h.hPos, h.hi, ?_⟩
  rcases h.hReach with ⟨pre, a, h4, h5, h6, h7⟩ | ⟨h4, h5⟩
  · exact Or.inl ⟨pre, a, h4, h5, h6.ext hg.core (hg.frames x) (ext_frames b x) (Nat.le_succ _), Decodable.ext (ext_frames b x) (fun f hf => hm f (by rw [h5]; simp [hf])) h7⟩
  · exact Or.inr ⟨h4.ext hg.core (hg.frames x) (ext_frames b x) (Nat.le_succ _), Decodable.ext (ext_frames b x) hm h5⟩

theorem Ready.frames {c : Conf} {b : Pub} {p : Player} (hg : Good c b) (x : Frame) (hm : ∀ f ∈ p.log, f < b.frames.length) (h : Ready c b p) : Ready c { b with frames := b.frames ++ [x] } p := by
  refine ⟨?_, h.hSteady⟩
  rcases h.hAt with h1 | h1 | ⟨h1, h0, i, h2, h3⟩
  · exact Or.inl h1
  · exact Or.inr (Or.inl h1)
  · exact Or.inr (Or.inr ⟨h1, h0, i, h2.frames hg x hm, h3⟩)

theorem Done.frames {c : Conf} {b : Pub} {p : Player} (hg : Good c b) (x : Frame) (hm : ∀ f ∈ p.log, f < b.frames.length) (h : Done c b p) : Done c { b with frames := b.frames ++ [x] } p := by
  refine ⟨?_, h.hSteady⟩
  rcases h.hAt with h1 | h1 | ⟨h1, h0, i, h2, h3⟩
  · exact Or.inl h1
  · exact Or.inr (Or.inl h1)
  · exact Or.inr (Or.inr ⟨h1, h0, i, h2.frames hg x hm, h3⟩)

/-! ### Contents -/

theorem vals_cons {b : Pub} {f : Nat} (l : List Nat) (hf : f < b.frames.length) : vals b (f :: l) = b.frames[f] :: vals b l := by
  unfold vals
  rw [List.filterMap_cons, List.getElem?_eq_getElem hf]

theorem vals_app (b : Pub) (l l' : List Nat) : vals b (l ++ l') = vals b l ++ vals b l' := List.filterMap_append

theorem vals_len {b : Pub} : ∀ {l : List Nat}, (∀ f ∈ l, f < b.frames.length) → (vals b l).length = l.length := by
  intro l
  induction l with
  | nil => intro _; rfl
  | cons f l ih =>
    intro h
    rw [vals_cons l (h f (by simp)), List.length_cons, List.length_cons, ih fun g hg => h g (by simp [hg])]

theorem vals_drop {b : Pub} : ∀ {l : List Nat} (n : Nat), (∀ f ∈ l, f < b.frames.length) → vals b (l.drop n) = (vals b l).drop n := by
  intro l
  induction l with
  | nil => intro n _; simp [vals]
  | cons f l ih =>
    intro n h
    cases n with
    | zero => rfl
    | succ n =>
      rw [List.drop_succ_cons, vals_cons l (h f (by simp)), List.drop_succ_cons]
      exact ih n fun g hg => h g (by simp [hg])

theorem Ext.vals {b b' : Pub} (h : Ext b b') : ∀ {l : List Nat}, (∀ f ∈ l, f < b.frames.length) → vals b' l = vals b l := by
  intro l
  induction l with
  | nil => intro _; rfl
  | cons f l ih =>
    intro hl
    have hf := hl f (by simp)
    have := h.frame_get (List.getElem?_eq_getElem hf)
    obtain ⟨hf', e⟩ := List.getElem?_eq_some_iff.1 this
    rw [vals_cons l hf, vals_cons l hf', e, ih fun g hg => hl g (by simp [hg])]

theorem vals_mem {b : Pub} {l : List Nat} {x : Frame} (h : x ∈ vals b l) : x ∈ b.frames := by
  obtain ⟨f, _, e⟩ := List.mem_filterMap.1 h
  exact List.mem_of_getElem? e

/-! ### One session -/

structure Base (c : Conf) (b : Pub) (p : Player) : Prop where
  hQueue : ∀ f ∈ p.queue, f < b.frames.length
  hLog : ∀ f ∈ p.log, f ∈ b.hist
  hSince : p.since ≤ b.skip
  hHls : ∀ s, p.hls = some s → ∃ items, feeds c.h p.got ⟨Hls2.init c.h, []⟩ = some ⟨s, vals b p.queue⟩ ∧ Run c.h ⟨s, vals b p.queue⟩ items ∧
    p.got.flatMap (·.2) = p.old ++ vals b p.log ∧ ∀ x ∈ p.got, ∀ f ∈ x.2, f ∈ b.frames

theorem Base.ext {c : Conf} {b b' : Pub} {p : Player} (hg : Good c b) (he : Ext b b') (h : Base c b p) : Base c b' p := by
  obtain ⟨l1, e1⟩ := he.hHist
  obtain ⟨l2, e2⟩ := he.hFrames
  refine ⟨?_, ?_, Nat.le_trans h.hSince he.hSkip, ?_⟩
  · intro f hf
    have := h.hQueue f hf
    rw [e2, List.length_append]
    omega
  · intro f hf
    rw [e1]
    exact List.mem_append_left _ (h.hLog f hf)
  · intro s hs
    obtain ⟨items, h1, h2, h3, h4⟩ := h.hHls s hs
    rw [he.vals h.hQueue, he.vals fun f hf => hg.core.hLt f (h.hLog f hf)]
    exact ⟨items, h1, h2, h3, fun x hx f hf => by rw [e2]; exact List.mem_append_left _ (h4 x hx f hf)⟩

theorem Base.log_lt {c : Conf} {b : Pub} {p : Player} (hg : Good c b) (h : Base c b p) : ∀ f ∈ p.log, f < b.frames.length := fun f hf => hg.core.hLt f (h.hLog f hf)

/-- A player of transport streams -/
theorem tsSee_ok {c : Conf} {b : Pub} {p : Player} (hg : Good c b) (hb : Base c b p) (hp : p.hls = none) (hr : Ready c b p) :
    ∃ p', tsSee c b p = some p' ∧ Base c b p' ∧ p'.hls = none ∧ Done c b p' := by
  unfold tsSee
  split
  · rename_i hm
    have hne : b.hist = [] := by
      by_cases hne : b.hist = []
      · exact hne
      · have := (hg.hMade hne).1
        rw [hm] at this
        cases this
    exact ⟨p, rfl, hb, hp, hr.idle hne hb.hLog⟩
  · obtain ⟨p', e, hl⟩ := link_ok (r := tsRule c) hg p
    obtain ⟨new, n1, n2, n3⟩ := hl.hNew
    refine ⟨p', e, ⟨?_, ?_, by rw [hl.hKept.hSince]; exact hb.hSince, ?_⟩, by rw [hl.hKept.hHls]; exact hp, ?_⟩
    · intro f hf
      rw [n2] at hf
      rcases List.mem_append.1 hf with hf | hf
      · exact hb.hQueue f hf
      · exact hg.core.hLt f (n3 f hf)
    · intro f hf
      rw [n1] at hf
      rcases List.mem_append.1 hf with hf | hf
      · exact hb.hLog f hf
      · exact n3 f hf
    · intro s hs
      rw [hl.hKept.hHls, hp] at hs
      cases hs
    · exact hl.hDone hb.hLog (fun _ => rfl) hr

/-- A session of HLS -/
theorem hlsSee_ok {c : Conf} {b : Pub} {p : Player} {s : St} (k : Codec) (hc : Plain c.h) (hpts : ∀ x ∈ b.frames, x.pts < 2 ^ 63) (hg : Good c b) (hb : Base c b p) (hp : p.hls = some s) (hr : Ready c b p) :
    ∃ p', hlsSee c k b p s = some p' ∧ Base c b p' ∧ p'.hls ≠ none ∧ Done c b p' := by
  unfold hlsSee
  split
  · rename_i hm
    have hne : b.hist = [] := by
      by_cases hne : b.hist = []
      · exact hne
      · have := (hg.hMade hne).1
        rw [hm] at this
        cases this
    exact ⟨p, rfl, hb, by rw [hp]; simp, hr.idle hne hb.hLog⟩
  · obtain ⟨p', e, hl⟩ := link_ok (r := hlsRule c) hg p
    obtain ⟨new, n1, n2, n3⟩ := hl.hNew
    have hnew : ∀ f ∈ new, f < b.frames.length := fun f hf => hg.core.hLt f (n3 f hf)
    have hq' : ∀ f ∈ p'.queue, f < b.frames.length := by
      intro f hf
      rw [n2] at hf
      rcases List.mem_append.1 hf with hf | hf
      · exact hb.hQueue f hf
      · exact hnew f hf
    obtain ⟨items, h1, h2, h3, h4⟩ := hb.hHls s hp
    obtain ⟨⟨st', q'⟩, it, f1, f2, f3, _, _⟩ := run_feed hc h2 k (vals b new) (fun f hf => hpts f (vals_mem hf))
    rw [e, Option.bind_some]
    unfold feed at f1
    dsimp only at f1 f3
    rw [← vals_app, ← n2] at f1 f3
    cases hu : update c.h k (vals b p'.queue) s with
    | none => rw [hu] at f1; cases f1
    | some r =>
      obtain ⟨r1, r2⟩ := r
      rw [hu, Option.map_some] at f1
      injection f1 with f1
      injection f1 with g1 g2
      have g1 : r1 = st' := g1
      have g2 : r2 = q' := g2
      rw [Option.map_some]
      dsimp only
      have hlog : p'.log.drop p.log.length = new := by rw [n1]; simp
      have hsuf : vals b (p'.queue.drop (p'.queue.length - r2.length)) = q' := by
        rw [vals_drop _ hq', ← f3, g2]
        have : p'.queue.length = it.length + q'.length := by
          rw [← vals_len hq', ← f3]
          simp
        rw [this, show it.length + q'.length - q'.length = (it.map (·.2)).length by simp, List.drop_left]
      refine ⟨_, rfl, ⟨?_, ?_, ?_, ?_⟩, by simp, ?_⟩
      · intro f hf
        exact hq' f (List.mem_of_mem_drop hf)
      · intro f hf
        have hf : f ∈ p'.log := hf
        rw [n1] at hf
        rcases List.mem_append.1 hf with hf | hf
        · exact hb.hLog f hf
        · exact n3 f hf
      · show p'.since ≤ b.skip
        rw [hl.hKept.hSince]
        exact hb.hSince
      · intro s' hs'
        have hs' : some r1 = some s' := hs'
        injection hs' with hs'
        refine ⟨items ++ it, ?_, ?_, ?_, ?_⟩
        · show feeds c.h (p'.got ++ [(k, vals b (p'.log.drop p.log.length))]) _ = some ⟨s', vals b (p'.queue.drop (p'.queue.length - r2.length))⟩
          rw [hsuf, hl.hKept.hGot, feeds_app, h1, hlog, Option.bind_some]
          unfold feeds feed
          dsimp only
          rw [← vals_app, ← n2, hu, ← hs', ← g2]
          rfl
        · show Run c.h ⟨s', vals b (p'.queue.drop (p'.queue.length - r2.length))⟩ _
          rw [hsuf, ← hs', g1]
          exact f2
        · show (p'.got ++ [(k, vals b (p'.log.drop p.log.length))]).flatMap (·.2) = p'.old ++ vals b p'.log
          rw [hl.hKept.hGot, hl.hKept.hOld, List.flatMap_append, h3, hlog, n1, vals_app]
          simp
        · intro x hx f hf
          have hx : x ∈ p'.got ++ [(k, vals b (p'.log.drop p.log.length))] := hx
          rw [hl.hKept.hGot] at hx
          rcases List.mem_append.1 hx with hx | hx
          · exact h4 x hx f hf
          · rw [List.mem_singleton] at hx
            subst hx
            exact vals_mem hf
      · have hcalm : ∀ q, Calm { p' with hls := some r1, queue := q, got := p'.got ++ [(k, vals b (p'.log.drop p.log.length))] } → Calm p' := by
          intro q hq
          rcases hq with hq | hq
          · cases hq
          · exact Or.inr hq
        obtain ⟨d1, d2⟩ := hl.hDone hb.hLog (fun hn => by rw [hp] at hn; cases hn) hr
        refine ⟨?_, fun hsk hq => d2 hsk (hcalm _ hq)⟩
        rcases d1 with d1 | d1 | ⟨d1, d0, i, d3, d4, d5⟩
        · exact Or.inl d1
        · exact Or.inr (Or.inl d1)
        · exact Or.inr (Or.inr ⟨d1, d0, i, ⟨d3.hPos, d3.hi, d3.hReach⟩, d4, fun hsk hq => d5 hsk (hcalm _ hq)⟩)

/-! ### All -/

theorem fan_ok {c : Conf} {k : Codec} {hls : Bool} {b : Pub} {P Q : Player → Prop} (hsee : ∀ p, P p → ∃ p', see c k hls b p = some p' ∧ Q p') :
    ∀ (is : List Nat) (pl : Nat → Player), is.Nodup → (∀ i ∈ is, P (pl i)) → ∃ pl', fan c k hls b is pl = some pl' ∧ (∀ i ∈ is, Q (pl' i)) ∧ ∀ i, i ∉ is → pl' i = pl i := by
  intro is
  induction is with
  | nil => intro pl _ _; exact ⟨pl, rfl, by simp, fun _ _ => rfl⟩
  | cons j is ih =>
    intro pl hnd hp
    obtain ⟨hj, hnd⟩ := List.nodup_cons.1 hnd
    obtain ⟨p', e, hq⟩ := hsee _ (hp j (by simp))
    have hne : ∀ i ∈ is, i ≠ j := fun i hi e => hj (e ▸ hi)
    obtain ⟨pl', e', h1, h2⟩ := ih (set pl j p') hnd (fun i hi => by rw [set_ne _ _ (hne i hi)]; exact hp i (by simp [hi]))
    refine ⟨pl', by rw [fan, e, Option.bind_some]; exact e', ?_, ?_⟩
    · intro i hi
      rcases List.mem_cons.1 hi with rfl | hi
      · rw [h2 i hj, set_same]
        exact hq
      · exact h1 i hi
    · intro i hi
      rw [List.mem_cons, not_or] at hi
      rw [h2 i hi.2, set_ne _ _ hi.1]

/-- What holds of a session between frames -/
structure PInv (c : Conf) (b : Pub) (p : Player) : Prop where
  hBase : Base c b p
  hHls : p.hls ≠ none → Ready c b p
  hTs : p.hls = none → Done c b p

structure WInv (c : Conf) (w : World) : Prop where
  hGood : Good c w.b
  hSubs : w.subs.Nodup
  hPl : ∀ i ∈ w.subs, PInv c w.b (w.pl i)
  hPts : ∀ x ∈ w.b.frames, x.pts < 2 ^ 63

/-- Times of frames -/
def Op.Ok : Op → Prop
  | .av _ x => x.pts < 2 ^ 63
  | .close => False
  | _ => True

theorem av_ok {c : Conf} {w : World} (hc : Plain c.h) (ht : c.cacheTime ≠ 0) (h : WInv c w) (k : Codec) (x : Frame) (hx : x.pts < 2 ^ 63) :
    ∃ w', step c w (.av k x) = some w' ∧ WInv c w' ∧ w'.subs = w.subs ∧ Step c { w.b with frames := w.b.frames ++ [x] } w'.b w.b.frames.length x := by
  have hg1 := h.hGood.frames x
  have hpts : ∀ y ∈ w.b.frames ++ [x], y.pts < 2 ^ 63 := by
    intro y hy
    rcases List.mem_append.1 hy with hy | hy
    · exact h.hPts y hy
    · rw [List.mem_singleton.1 hy]
      exact hx
  unfold step
  dsimp only
  generalize hb1 : ({ w.b with frames := w.b.frames ++ [x] } : Pub) = b1 at hg1 ⊢
  have hx1 : b1.frames[w.b.frames.length]? = some x := by rw [← hb1]; simp
  have hlt1 : ∀ g ∈ b1.hist, g < w.b.frames.length := by rw [← hb1]; exact fun g hg => h.hGood.core.hLt g hg
  have hpts1 : ∀ y ∈ b1.frames, y.pts < 2 ^ 63 := by rw [← hb1]; exact hpts
  -- HLS
  obtain ⟨pl1, e1, q1, r1⟩ := fan_ok (c := c) (k := k) (hls := true) (b := b1)
    (P := fun p => Base c b1 p ∧ (p.hls ≠ none → Ready c b1 p) ∧ (p.hls = none → Done c b1 p)) (Q := fun p => Base c b1 p ∧ Done c b1 p)
    (fun p hp => by
      unfold see
      cases hh : p.hls with
      | none => exact ⟨p, rfl, hp.1, hp.2.2 hh⟩
      | some s =>
        dsimp only
        rw [if_pos rfl]
        obtain ⟨p', a1, a2, _, a4⟩ := hlsSee_ok k hc hpts1 hg1 hp.1 hh (hp.2.1 (by rw [hh]; simp))
        exact ⟨p', a1, a2, a4⟩)
    w.subs w.pl h.hSubs (fun i hi => by
      have hp := h.hPl i hi
      have hl := hp.hBase.log_lt h.hGood
      rw [← hb1]
      exact ⟨hp.hBase.ext h.hGood (ext_frames _ x), fun a => (hp.hHls a).frames h.hGood x hl, fun a => (hp.hTs a).frames h.hGood x hl⟩)
  rw [e1, Option.bind_some]
  -- the cache
  obtain ⟨b2, e2, hs⟩ := cacheFrame_ok hg1 ht hx1 hlt1
  rw [e2, Option.bind_some]
  -- players of transport streams
  obtain ⟨pl2, e3, q2, r2⟩ := fan_ok (c := c) (k := k) (hls := false) (b := b2)
    (P := fun p => Base c b2 p ∧ Ready c b2 p) (Q := PInv c b2)
    (fun p hp => by
      unfold see
      cases hh : p.hls with
      | none =>
        dsimp only
        rw [if_neg (by simp)]
        obtain ⟨p', a1, a2, a3, a4⟩ := tsSee_ok hs.hGood hp.1 hh hp.2
        exact ⟨p', a1, a2, fun hn => absurd a3 hn, fun _ => a4⟩
      | some s => exact ⟨p, rfl, hp.1, fun _ => hp.2, fun hn => by rw [hh] at hn; cases hn⟩)
    w.subs pl1 h.hSubs (fun i hi => by
      obtain ⟨a1, a2⟩ := q1 i hi
      exact ⟨a1.ext hg1 hs.ext, a2.cache hg1 hs hs.ext a1.hSince (a1.log_lt hg1)⟩)
  rw [e3, Option.map_some]
  exact ⟨_, rfl, ⟨hs.hGood, h.hSubs, q2, by rw [show (World.mk b2 pl2 w.subs).b.frames = b2.frames from rfl, hs.hFrames]; exact hpts1⟩, rfl, hs⟩

end Verif.Hls2.Gop
