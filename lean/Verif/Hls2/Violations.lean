import Verif.Hls2.Props
/-
C74: what does not hold of HLS out of memory.
-/
namespace Verif.Hls2
open Verif Spec

/-! ### With AVC and AAC -/

/-- With AVC and AAC headers no frame may start a fragment but the first (`ctx->aframe` is never set, ngx_hls_live_module.c:932-943): every other fragment starts where the time jumps or where the longest is over,
with whatever frame comes there. -/
theorem C74_av_violation (c : Conf) (hc : Plain c) (l : List (Codec × List Frame)) (hf : ∀ x ∈ l, ∀ f ∈ x.2, f.pts < 2 ^ 63) (hk : ∀ x ∈ l, x.1.avc = true ∧ x.1.aac = true) :
    ∃ s gs, feeds c l ⟨init c, []⟩ = some s ∧ Holds c l s gs ∧ ∀ i a b, gs[i]? = some a → gs[i + 1]? = some b → Forced c a.start b.first.2 := by
  obtain ⟨s, it, e1, r1, q1, t1⟩ := run_feeds hc l ⟨init c, []⟩ [] (run_init c) hf
  rw [List.nil_append] at r1 q1
  have hold := r1.holds q1 t1
  refine ⟨s, _, e1, hold, ?_⟩
  intro i a b ea eb
  rcases hold.hSliced.hCut i a b ea eb with h | ⟨h, _⟩
  · exact h
  · exfalso
    obtain ⟨x, hx, hx'⟩ := List.mem_map.1 (hold.hKnown b (List.mem_of_getElem? eb) b.first (by simp [Group.items]))
    obtain ⟨h1, h2⟩ := hk x hx
    rw [hx'] at h1 h2
    unfold MayStart at h
    rw [h1, h2] at h
    split at h <;> simp at h

/-- So there is no playlist of such a stream as long as its frames are within the longest fragment (50 s) from the first, however many key frames there are. -/
theorem C74_av_playlist_violation (c : Conf) (hc : Plain c) (n : Names) (hn : n.Ok) (l : List (Codec × List Frame)) (hf : ∀ x ∈ l, ∀ f ∈ x.2, f.pts < 2 ^ 63) (hk : ∀ x ∈ l, x.1.avc = true ∧ x.1.aac = true)
    (ht : ∀ f0 r, l.flatMap (·.2) = f0 :: r → ∀ f ∈ r, f0.pts ≤ f.pts + 90000 ∧ f.pts ≤ f0.pts + c.maxFraglen * 90) :
    ∃ s, feeds c l ⟨init c, []⟩ = some s ∧ writePlaylist c n s.st = some none := by
  obtain ⟨s, gs, e, hold, hforce⟩ := C74_av_violation c hc l hf hk
  obtain ⟨s1, gs1, _, _, e1, _, hold1, _, _, sv, _⟩ := C74_serve_partial c hc n hn l [] (by simpa using hf)
  rw [e] at e1
  injection e1 with e1
  subst e1
  refine ⟨s, e, sv.hWait (Or.inl ?_)⟩
  refine Decidable.by_contra fun h2 => ?_
  have h2 : 2 ≤ gs1.length := by omega
  -- the first two
  have ea := List.getElem?_eq_getElem (l := gs1) (i := 0) (by omega)
  have eb := List.getElem?_eq_getElem (l := gs1) (i := 0 + 1) (by omega)
  generalize gs1[0] = a at ea
  generalize gs1[0 + 1] = b at eb
  obtain ⟨r, hr⟩ : ∃ r, gs1 = a :: b :: r := by
    match gs1, ea, eb with
    | x :: y :: r, ea, eb => exact ⟨r, by simp at ea eb; rw [ea, eb]⟩
  have hall := hold1.hAll
  rw [hr, List.flatMap_cons, List.flatMap_cons] at hall
  have hb := ht a.first.2 (a.more.map (·.2) ++ (b.frames ++ r.flatMap Group.frames) ++ s.queue) (by rw [hall]; simp [Group.frames, Group.items]) b.first.2 (by simp [Group.frames, Group.items])
  have hfc : ¬ Forced c a.start b.first.2 := by
    unfold Forced Group.start
    omega
  rcases hold1.hSliced.hCut 0 a b ea eb with h | ⟨h, _⟩
  · exact hfc h
  · obtain ⟨x, hx, hx'⟩ := List.mem_map.1 (hold1.hKnown b (List.mem_of_getElem? eb) b.first (by simp [Group.items]))
    obtain ⟨h1, h3⟩ := hk x hx
    rw [hx'] at h1 h3
    unfold MayStart at h
    rw [h1, h3] at h
    split at h <;> simp at h

/-! ### Nothing at all -/

theorem update_stuck (c : Conf) (hc : Plain c) (k : Codec) (hk : k.avc = true) (f : Frame) (fs : List Frame) (hv : f.video = false) : update c k (f :: fs) (init c) = some (init c, f :: fs) := by
  have h0 : updateFragment c k f.pts (boundary k (init c).opened f) (init c) = some (init c) := by
    have hb : boundary k (init c).opened f = false := by unfold boundary; rw [hv, hk]; rfl
    rw [hb]
    unfold updateFragment init
    rw [hc.hPlain]
    simp
  rw [update, h0]
  rfl

/-- A stream with an AVC header whose first frame is one of audio: nothing is ever taken from the queue (ngx_hls_live_module.c:945-951), so there is no playlist for any player, ever. -/
theorem C74_stuck_violation (c : Conf) (hc : Plain c) (f : Frame) (fs : List Frame) (hv : f.video = false) (k : Codec) (l : List (Codec × List Frame)) (hk : ∀ x ∈ (k, f :: fs) :: l, x.1.avc = true) :
    feeds c ((k, f :: fs) :: l) ⟨init c, []⟩ = some ⟨init c, f :: fs ++ l.flatMap (·.2)⟩ := by
  have gen : ∀ (l : List (Codec × List Frame)) (q : List Frame), (∀ x ∈ l, x.1.avc = true) → feeds c l ⟨init c, f :: q⟩ = some ⟨init c, f :: q ++ l.flatMap (·.2)⟩ := by
    intro l
    induction l with
    | nil => intro q _; simp [feeds]
    | cons x l ih =>
      intro q hk
      obtain ⟨k, fs⟩ := x
      unfold feeds feed
      rw [List.cons_append, update_stuck c hc k (hk (k, fs) (by simp)) f _ hv]
      have := ih (q ++ fs) (fun x hx => hk x (by simp [hx]))
      simpa using this
  have h1 := update_stuck c hc k (hk _ List.mem_cons_self) f fs hv
  unfold feeds feed
  rw [List.nil_append, h1]
  exact gen l fs (fun x hx => hk x (by simp [hx]))

def shut (c : Conf) (t : Nat) : St := { fragTs := t, ring := List.replicate c.size none }

/-- The state of a session with aligned slices: nothing was ever opened -/
structure Shut (c : Conf) (s : Sess) : Prop where
  hSt : ∃ t, s.st = shut c t
  hTs : s.st.fragTs = 0 ∨ ∃ f l, s.queue = f :: l ∧ s.st.fragTs = f.pts

theorem shut_feed (c : Conf) (ha : c.aligned = true) (hl : c.fraglen ≠ 0) (k : Codec) (fs : List Frame) (s : Sess) (h : Shut c s) : ∃ s', feed c k fs s = some s' ∧ Shut c s' ∧ s'.queue = s.queue ++ fs := by
  obtain ⟨⟨t, ht⟩, h2⟩ := h
  unfold feed
  cases hq : s.queue ++ fs with
  | nil =>
    refine ⟨s, ?_, ⟨⟨t, ht⟩, h2⟩, ?_⟩
    · have : s.queue = [] := by
        cases hs : s.queue with
        | nil => rfl
        | cons a b => rw [hs] at hq; simp at hq
      obtain ⟨st, q⟩ := s
      dsimp only at this
      subst this
      rfl
    · have : s.queue = [] := by
        cases hs : s.queue with
        | nil => rfl
        | cons a b => rw [hs] at hq; simp at hq
      rw [this]
  | cons f l =>
    have hts : t = 0 ∨ t = f.pts := by
      have e : s.st.fragTs = t := by rw [ht]; rfl
      rw [e] at h2
      rcases h2 with h2 | ⟨f', l', e1, e2⟩
      · exact Or.inl h2
      · rw [e1] at hq
        injection hq with hq _
        rw [← hq]
        exact Or.inr e2
    have hu : ∀ b, updateFragment c k f.pts b s.st = some (shut c f.pts) := by
      intro b
      rw [ht]
      unfold updateFragment
      have h90 : c.fraglen * 90 ≠ 0 := by clear h2; omega
      unfold shut
      rcases hts with rfl | rfl
      · simp [ha, h90]
      · simp [ha, h90]
    refine ⟨⟨shut c f.pts, f :: l⟩, ?_, ⟨⟨_, rfl⟩, Or.inr ⟨f, l, rfl, rfl⟩⟩, rfl⟩
    rw [update, hu]
    rfl

/-- With `hls2_fragment_slicing aligned` no fragment is ever opened: for the first frame the time is only noted (ngx_hls_live_module.c:860-868), and the frame stays the first in the queue. -/
theorem C74_aligned_violation (c : Conf) (ha : c.aligned = true) (hl : c.fraglen ≠ 0) (n : Names) (l : List (Codec × List Frame)) :
    ∃ s, feeds c l ⟨init c, []⟩ = some s ∧ s.queue = l.flatMap (·.2) ∧ s.st.opened = false ∧ writePlaylist c n s.st = some none ∧ ∀ name after, findFrag c s.st name after = none := by
  have gen : ∀ (l : List (Codec × List Frame)) (s : Sess), Shut c s → ∃ s', feeds c l s = some s' ∧ Shut c s' ∧ s'.queue = s.queue ++ l.flatMap (·.2) := by
    intro l
    induction l with
    | nil => intro s h; exact ⟨s, rfl, h, by simp⟩
    | cons x l ih =>
      intro s h
      obtain ⟨k, fs⟩ := x
      obtain ⟨s1, e1, h1, q1⟩ := shut_feed c ha hl k fs s h
      obtain ⟨s2, e2, h2, q2⟩ := ih s1 h1
      refine ⟨s2, ?_, h2, by rw [q2, q1]; simp⟩
      unfold feeds
      rw [e1]
      exact e2
  obtain ⟨s, e, ⟨⟨t, ht⟩, _⟩, q⟩ := gen l ⟨init c, []⟩ ⟨⟨0, rfl⟩, Or.inl rfl⟩
  refine ⟨s, e, by simpa using q, by rw [ht]; rfl, ?_, ?_⟩
  · unfold writePlaylist
    rw [ht]
    exact if_pos (Or.inr rfl)
  · intro name after
    unfold findFrag
    rw [ht]
    cases findSlot c (shut c t).nfrag (shut c t).nfrags name after with
    | none => rfl
    | some i =>
      show ((List.replicate c.size (none : Option Frag))[i]?).join = none
      rw [List.getElem?_replicate]
      split <;> rfl

/-- And with no length of fragments the process divides by zero at the first frame. -/
theorem C74_aligned_zero_violation (c : Conf) (ha : c.aligned = true) (hl : c.fraglen = 0) (k : Codec) (f : Frame) (fs : List Frame) : feed c k (f :: fs) ⟨init c, []⟩ = none := by
  unfold feed
  rw [List.nil_append, update]
  have : ∀ b, updateFragment c k f.pts b (init c) = none := by
    intro b
    unfold updateFragment init
    simp [ha, hl]
  rw [this]
  rfl

/-! ### Fragments -/

/-- The fragment that was closed `2 * win + 1` before the last is not there any more; who asks for it gets another one: the one that is being written (ngx_hls_live_module.c:304-313 compares with `>`). -/
theorem C74_old_violation (c : Conf) (hc : Plain c) (n : Names) (hn : n.Ok) (l : List (Codec × List Frame)) (hf : ∀ x ∈ l, ∀ f ∈ x.2, f.pts < 2 ^ 63) (s : Sess) (h : feeds c l ⟨init c, []⟩ = some s)
    (i : Nat) (hi : i < 2 ^ 63) (hold : s.st.nfrag + s.st.nfrags = i + (2 * c.win + 1)) (path : TsHls.Spec.Text) (after : Char) (ha : Asks (uri n i) path) (hd : after ≠ '.') :
    ∃ g, findFrag c s.st (parseFrag path) after = some g ∧ g.id = i + (2 * c.win + 1) := by
  obtain ⟨s1, it, e1, r1, q1, t1⟩ := run_feeds hc l ⟨init c, []⟩ [] (run_init c) hf
  rw [h] at e1
  injection e1 with e1
  subst e1
  rw [List.nil_append] at r1
  have hz : c.size = 2 * c.win + 1 := by unfold Conf.size; omega
  have hp := r1.hInv.hPos
  have hlt : i + c.size < (slice c it).length := by omega
  rw [findFrag_name c n hn s.st i hi path after ha hd, if_neg (by omega)]
  have hs := r1.hInv.hSlot (i + c.size) _ (List.getElem?_eq_getElem hlt) (by omega)
  rw [Nat.add_mod_right] at hs
  rw [hs]
  exact ⟨_, rfl, by rw [← hz]; exact (fragOf_id _ _ _ _).1⟩

/-- A fragment with as many frames as the queue is long (or a multiple), with the tables: its length is told, and no byte is sent. -/
theorem C74_wrap_violation (c : Conf) (hc : Plain c) (n : Names) (hn : n.Ok) (l : List (Codec × List Frame)) (hf : ∀ x ∈ l, ∀ f ∈ x.2, f.pts < 2 ^ 63) :
    ∃ s gs, feeds c l ⟨init c, []⟩ = some s ∧ Holds c l s gs ∧ ∀ i a path after, gs[i]? = some a → i + 1 < gs.length → gs.length ≤ i + (2 * c.win + 1) → (a.items.length + 1) % c.queue = 0 → i < 2 ^ 63 →
      Asks (uri n i) path → after ≠ '.' → ∃ g, findFrag c s.st (parseFrag path) after = some g ∧ g.body = [] ∧ 376 ≤ g.length := by
  obtain ⟨s, it, e1, r1, q1, t1⟩ := run_feeds hc l ⟨init c, []⟩ [] (run_init c) hf
  rw [List.nil_append] at r1 q1
  refine ⟨s, _, e1, r1.holds q1 t1, ?_⟩
  intro i a path after ea hcl hr hq hi hk hd
  have hp := r1.hInv.hPos
  have hz : c.size = 2 * c.win + 1 := by unfold Conf.size; omega
  rw [findFrag_name c n hn s.st i hi path after hk hd, if_neg (by omega), r1.hInv.hSlot i a ea (by omega)]
  have gen : ∀ (fs : List Frame) (b : Frag), (fs.foldl (Frag.put c.queue) b).last % c.queue = (b.last + fs.length) % c.queue ∧ (b.last < c.queue → (fs.foldl (Frag.put c.queue) b).last < c.queue) ∧
      b.length ≤ (fs.foldl (Frag.put c.queue) b).length := by
    intro fs
    induction fs with
    | nil => intro b; exact ⟨rfl, id, Nat.le_refl _⟩
    | cons f fs ih =>
      intro b
      obtain ⟨i1, i2, i3⟩ := ih (b.put c.queue f)
      have hlast : (b.put c.queue f).last = (b.last + 1) % c.queue := rfl
      have hlen : (b.put c.queue f).length = b.length + f.data.length := rfl
      refine ⟨?_, fun _ => i2 ?_, ?_⟩
      · rw [List.foldl_cons, i1, hlast, Nat.mod_add_mod, List.length_cons]
        congr 1
        omega
      · rw [hlast]
        exact Nat.mod_lt _ (Nat.pos_of_ne_zero hc.hQueue)
      · rw [List.foldl_cons]
        omega
  obtain ⟨g1, g2, g3⟩ := gen a.frames (fragBase c i a.first.1)
  have hb2 : (fragBase c i a.first.1).last = (0 + 1) % c.queue := rfl
  have hb3 : (fragBase c i a.first.1).length = 376 := rfl
  have hl : a.frames.length = a.items.length := by simp [Group.frames]
  rw [hb2, Nat.mod_add_mod, hl] at g1
  have g2 := g2 (by rw [hb2]; exact Nat.mod_lt _ (Nat.pos_of_ne_zero hc.hQueue))
  have hlast : (a.frames.foldl (Frag.put c.queue) (fragBase c i a.first.1)).last = 0 := by
    rw [Nat.mod_eq_of_lt g2, show 0 + 1 + a.items.length = a.items.length + 1 by omega, hq] at g1
    exact g1
  refine ⟨_, rfl, ?_, ?_⟩
  · have e : (fragOf c i a (ticksOf c (slice c it) i a)).last = 0 := hlast
    unfold Frag.body
    rw [e]
    rfl
  · rw [hb3] at g3
    exact g3

/-! ### Durations -/

def exVideo : Codec := { avc := true, aac := false, tables := List.replicate 376 0 }
def exAt (key : Bool) (t : Nat) : Frame := { video := true, key := key, pts := t, data := [0x47] }
/-- What a player reads after these frames -/
def exMedia (c : Conf) (fs : List Frame) : Option (Nat × Option Nat × List (Bool × Nat)) :=
  ((feeds c [(exVideo, fs)] ⟨init c, []⟩).bind fun s => (writePlaylist c exNames s.st).bind fun t => t.bind Spec.parse).map fun m => (m.seq, m.target, m.segs.map fun x => (x.disc, x.ms))

/-- The time jumps by an hour: the fragments on both sides are listed as if they were continuous. -/
theorem C74_jump_violation : exMedia {} [exAt true 0, exAt true 450000, exAt false (450000 + 324000000), exAt true (900000 + 324000000)] = some (0, some 5, [(true, 5000), (false, 0), (false, 5000)]) ∧
    Forced {} 450000 (exAt false (450000 + 324000000)) := by decide +kernel

/-- A key frame that is a hundredth of a second before the first frame of its fragment: the fragment is listed with a duration of six million years (not to the ms: the code computes with `double`). -/
theorem C74_back_violation : ((exMedia {} [exAt true 900000, exAt true 899100, exAt true 1349100]).map fun m => m.2.2.map fun x => decide (200000000000000000 < x.2)) = some [true, false] := by decide +kernel

/-- A duration of 5.500 s with a target of 5 s (RFC 8216, 4.3.3.1: rounded to the nearest integer it must not be more) -/
theorem C74_target_violation : exMedia {} [exAt true 0, exAt true 494990, exAt true 989980] = some (0, some 5, [(true, 5500), (false, 5500)]) := by decide +kernel

/-- Fragments below half a second: a target of 0 s -/
theorem C74_short_violation : exMedia { fraglen := 300, win := 2 } [exAt true 0, exAt true 27000, exAt true 54000] = some (0, some 0, [(true, 300), (false, 300)]) := by decide +kernel

/-! ### Examples -/

def exBoth : Codec := { avc := true, aac := true, tables := [] }
example : (∀ x ∈ [(exBoth, (List.range 10).map fun i => exAt true (i * 450000))], x.1.avc = true ∧ x.1.aac = true) ∧
    (∀ f ∈ (List.range 10).map fun i => exAt true (i * 450000), 0 ≤ f.pts + 90000 ∧ f.pts ≤ 0 + 50000 * 90) := by decide +kernel
example : ((feeds {} (exFeeds 15) ⟨init {}, []⟩).map fun s => s.st.nfrag + s.st.nfrags) = some (0 + (2 * 3 + 1)) := by decide +kernel
example : ((feeds { queue := 5 } (exFeeds 15) ⟨init { queue := 5 }, []⟩).bind fun s => (findFrag { queue := 5 } s.st (parseFrag "/hls/cam-3.ts".toList) ' ').map fun g => (g.body, g.length)) = some ([], 384) := by decide +kernel

end Verif.Hls2
