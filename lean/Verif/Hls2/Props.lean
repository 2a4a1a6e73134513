import Verif.Hls2.RunLemmas
import Verif.Hls2.TextLemmas
/-
C74: HLS out of memory.
-/
namespace Verif.Hls2
open Verif Spec
open Verif.HlsRestore (dec fixed3)

/-- What a player gets for the fragments `gs`, of which the last is open: playlists and fragments. -/
structure Serves (c : Conf) (n : Names) (s : St) (gs : List Group) : Prop where
  /-- no playlist as long as there are too few fragments -/
  hWait : gs.length < 2 ∨ min (gs.length - 1) c.win < c.minfrags → writePlaylist c n s = some none
  /-- then, if it fits into the buffer, one with the last `win` closed fragments -/
  hList : 2 ≤ gs.length → c.minfrags ≤ min (gs.length - 1) c.win → ∃ t, writePlaylist c n s = some (some t) ∧ (t.length < 524288 → ∃ m T, Spec.parse t = some m ∧
    m.seq = gs.length - 1 - min (gs.length - 1) c.win ∧ m.segs.length = min (gs.length - 1) c.win ∧
    (∀ i a b, i < m.segs.length → gs[m.seq + i]? = some a → gs[m.seq + i + 1]? = some b →
      ∃ x, m.segs[i]? = some x ∧ x.disc = decide (m.seq + i = 0) ∧ (x.ms : Int) = (Spec.ticks c a b % 2 ^ 64 + 45) / 90 ∧ x.uri = uri n (m.seq + i)) ∧
    m.target = some T ∧ c.fraglen / 1000 ≤ T ∧ (∀ x ∈ m.segs, x.ms ≤ T * 1000 + 500) ∧
    (T = c.fraglen / 1000 ∨ ∃ i a b, i < m.segs.length ∧ gs[m.seq + i]? = some a ∧ gs[m.seq + i + 1]? = some b ∧ (T : Int) = (Spec.ticks c a b % 2 ^ 64 + 45000) / 90000))
  /-- a fragment that has been closed can be fetched until `2 * win` others have been closed after it -/
  hFetch : ∀ i a path after, gs[i]? = some a → i + 1 < gs.length → gs.length ≤ i + (2 * c.win + 1) → a.items.length + 1 < c.queue → a.first.1.tables.length = 376 → i < 2 ^ 63 →
    Asks (uri n i) path → after ≠ '.' → ∃ g, findFrag c s (parseFrag path) after = some g ∧ g.id = i ∧ g.body = a.data ∧ g.length = a.data.length
  /-- those before it are not there, and those to come neither -/
  hGone : ∀ i path after, i + (2 * c.win + 1) < gs.length - 1 ∨ gs.length - 1 < i → i < 2 ^ 63 → Asks (uri n i) path → after ≠ '.' → findFrag c s (parseFrag path) after = none

/-! ### Lemmas -/

theorem fragOf_id (c : Conf) (i : Nat) (g : Group) (t : Nat) : (fragOf c i g t).id = i ∧ (fragOf c i g t).discont = decide (i = 0) ∧ (fragOf c i g t).ticks = t := by
  have h : ∀ (fs : List Frame) (b : Frag), (fs.foldl (Frag.put c.queue) b).id = b.id ∧ (fs.foldl (Frag.put c.queue) b).discont = b.discont := by
    intro fs
    induction fs with
    | nil => intro b; exact ⟨rfl, rfl⟩
    | cons f fs ih => intro b; exact ih _
  exact ⟨(h _ _).1, (h _ _).2, rfl⟩

theorem fragOf_body (c : Conf) (i : Nat) (g : Group) (t : Nat) (hq : g.items.length + 1 < c.queue) (ht : g.first.1.tables.length = 376) :
    (fragOf c i g t).body = g.data ∧ (fragOf c i g t).length = g.data.length := by
  have hb1 : (fragBase c i g.first.1).content = [g.first.1.frame] := rfl
  have hb2 : (fragBase c i g.first.1).last = 1 := by
    show (0 + 1) % c.queue = 1
    exact Nat.mod_eq_of_lt (by omega)
  have hb3 : (fragBase c i g.first.1).length = 376 := rfl
  have hl : g.frames.length = g.items.length := by simp [Group.frames]
  obtain ⟨a1, a2, a3⟩ := put_list c.queue g.frames (fragBase c i g.first.1) (by rw [hb1, hb2]; rfl) (by rw [hb1, hl]; simp; omega)
  rw [hb1] at a1 a2
  rw [hb3] at a3
  have c1 : (fragOf c i g t).content = [g.first.1.frame] ++ g.frames := a1
  have c2 : (fragOf c i g t).last = 1 + g.frames.length := a2
  have c3 : (fragOf c i g t).length = 376 + (g.frames.flatMap (·.data)).length := a3
  refine ⟨?_, ?_⟩
  · unfold Frag.body
    rw [c1, c2, List.take_of_length_le (by simp; omega)]
    rfl
  · rw [c3]
    unfold Group.data
    rw [List.length_append, ht]

theorem diff_int (a b : Nat) (hb : b < 2 ^ 63) : ((diff a b : Nat) : Int) = ((a : Int) - b) % 2 ^ 64 := by
  unfold diff
  omega

theorem ticksOf_eq {c : Conf} {gs : List Group} {i : Nat} {a b : Group} (hb : gs[i + 1]? = some b) (ha : a.start < 2 ^ 63) : ((ticksOf c gs i a : Nat) : Int) = Spec.ticks c a b % 2 ^ 64 := by
  unfold ticksOf Spec.ticks
  rw [hb]
  dsimp only
  rw [diff_int _ _ ha]
  split <;> rfl

theorem entries_eq (c : Conf) (n : Names) (s : St) (F : Nat → Frag) : ∀ m, (∀ i < m, getFrag c s i = some (F i)) → entries c n s m = some (((List.range m).map F).flatMap (entry n)) := by
  intro m
  induction m with
  | zero => intro _; rfl
  | succ m ih =>
    intro h
    rw [entries, ih (fun i hi => h i (by omega)), Option.bind_some, h m (by omega), Option.map_some, List.range_succ]
    simp

theorem round_step (b T t : Nat) (h : b ≤ T) : b ≤ (if T * 90000 < t then (t + 45000) / 90000 else T) ∧ t < (if T * 90000 < t then (t + 45000) / 90000 else T) * 90000 + 45000 ∧
    T ≤ (if T * 90000 < t then (t + 45000) / 90000 else T) := by
  have h9 : t + 45000 = 90000 * ((t + 45000) / 90000) + (t + 45000) % 90000 := by omega
  have h8 : (t + 45000) % 90000 < 90000 := Nat.mod_lt _ (by decide)
  generalize (t + 45000) / 90000 = q at *
  generalize (t + 45000) % 90000 = r at *
  split <;> omega

theorem maxFrag_fold (c : Conf) (s : St) (F : Nat → Frag) : ∀ m, (∀ i < m, getFrag c s i = some (F i)) →
    ∃ T, (List.range m).foldl (fun m i => match getFrag c s i with | none => m | some g => if m * 90000 < g.ticks then (g.ticks + 45000) / 90000 else m) (c.fraglen / 1000) = T ∧
      c.fraglen / 1000 ≤ T ∧ (∀ i < m, (F i).ticks < T * 90000 + 45000) ∧ (T = c.fraglen / 1000 ∨ ∃ i, i < m ∧ T = ((F i).ticks + 45000) / 90000) := by
  intro m
  induction m with
  | zero => intro _; exact ⟨_, rfl, Nat.le_refl _, by simp, Or.inl rfl⟩
  | succ m ih =>
    intro h
    obtain ⟨T, e, h1, h2, h3⟩ := ih (fun i hi => h i (by omega))
    rw [List.range_succ, List.foldl_append, e]
    simp only [List.foldl_cons, List.foldl_nil]
    rw [h m (by omega)]
    dsimp only
    clear e
    obtain ⟨k1, k2, k3⟩ := round_step (c.fraglen / 1000) T (F m).ticks h1
    refine ⟨_, rfl, k1, ?_, ?_⟩
    · intro i hi
      by_cases him : i = m
      · rw [him]
        exact k2
      · have h4 := h2 i (by omega)
        exact Nat.lt_of_lt_of_le h4 (by omega)
    · split
      · exact Or.inr ⟨m, by omega, rfl⟩
      · rcases h3 with h3 | ⟨i, hi, h3⟩
        · exact Or.inl h3
        · exact Or.inr ⟨i, by omega, h3⟩

theorem findFrag_name (c : Conf) (n : Names) (hn : n.Ok) (s : St) (i : Nat) (hi : i < 2 ^ 63) (path : TsHls.Spec.Text) (after : Char) (ha : Asks (uri n i) path) (hd : after ≠ '.') :
    findFrag c s (parseFrag path) after = if s.nfrag + s.nfrags < i ∨ c.size < s.nfrag + s.nfrags - i then none else (s.ring[i % c.size]?).join := by
  obtain ⟨pre, hp, e⟩ := asks_name n hn i path ha
  unfold findFrag findSlot
  rw [e, fragId_name pre hp i hi after hd, Option.bind_some]
  split <;> rfl

theorem Inv.serves {c : Conf} {s : St} {gs : List Group} (h : Inv c s gs) (n : Names) (hn : n.Ok) : Serves c n s gs := by
  have hp := h.hPos
  have hw := h.hWin
  have hz : c.size = 2 * c.win + 1 := by unfold Conf.size; omega
  refine ⟨?_, ?_, ?_, ?_⟩
  · intro hx
    unfold writePlaylist
    rw [if_pos]
    rw [h.hPlay]
    rcases hx with hx | hx
    · right
      rw [Bool.not_eq_true', decide_eq_false_iff_not]
      omega
    · left
      omega
  · intro h2 h3
    -- what is shown
    have hget : ∀ i < s.nfrags, ∃ a b, gs[s.nfrag + i]? = some a ∧ gs[s.nfrag + i + 1]? = some b ∧ getFrag c s i = some (fragOf c (s.nfrag + i) a (ticksOf c gs (s.nfrag + i) a)) := by
      intro i hi
      have l1 : s.nfrag + i < gs.length := by omega
      have l2 : s.nfrag + i + 1 < gs.length := by omega
      refine ⟨gs[s.nfrag + i], gs[s.nfrag + i + 1], List.getElem?_eq_getElem l1, List.getElem?_eq_getElem l2, ?_⟩
      unfold getFrag
      rw [h.hSlot (s.nfrag + i) gs[s.nfrag + i] (List.getElem?_eq_getElem l1) (by omega)]
      rfl
    let F : Nat → Frag := fun i => match gs[s.nfrag + i]? with | some a => fragOf c (s.nfrag + i) a (ticksOf c gs (s.nfrag + i) a) | none => { id := 0, discont := false }
    have hF : ∀ i a, gs[s.nfrag + i]? = some a → F i = fragOf c (s.nfrag + i) a (ticksOf c gs (s.nfrag + i) a) := by
      intro i a e
      simp only [F, e]
    have hgF : ∀ i < s.nfrags, getFrag c s i = some (F i) := by
      intro i hi
      obtain ⟨a, b, e1, e2, e3⟩ := hget i hi
      rw [e3, hF i a e1]
    obtain ⟨T, t1, t2, t3, t4⟩ := maxFrag_fold c s F s.nfrags hgF
    have hT : maxFrag c s = T := t1
    have hst : ∀ (i : Nat) (a : Group), gs[i]? = some a → a.start < 2 ^ 63 := fun i (a : Group) e => h.hPts a (List.mem_of_getElem? e) a.first (by simp [Group.items])
    unfold writePlaylist playlist
    rw [if_neg (by rw [h.hPlay]; clear t4 t3 t1 hF hgF hget; simp; omega), entries_eq c n s F s.nfrags hgF, hT, Option.map_some, Option.map_some]
    refine ⟨_, rfl, ?_⟩
    intro hlt
    rw [List.take_of_length_le (by rw [List.length_take] at hlt; exact Nat.le_of_lt (by clear t4 t3 t1 hF hgF hget hT; omega))]
    refine ⟨_, T, parse_playlist n hn s.nfrag T _, ?_, ?_, ?_, rfl, t2, ?_, ?_⟩
    · clear t4; dsimp only; omega
    · clear t4; simp only [List.length_map, List.length_range]; omega
    · intro i a b hi ea eb
      dsimp only at ea eb ⊢
      simp only [List.length_map, List.length_range] at hi
      refine ⟨segOf n (F i), by simp [hi], ?_, ?_, ?_⟩
      · show (F i).discont = _
        rw [hF i a ea]
        exact (fragOf_id _ _ _ _).2.1
      · show ((((F i).ticks + 45) / 90 : Nat) : Int) = _
        rw [hF i a ea, (fragOf_id _ _ _ _).2.2, ← ticksOf_eq eb (hst _ a ea)]
        omega
      · show uri n (F i).id = _
        rw [hF i a ea, (fragOf_id _ _ _ _).1]
    · intro x hx
      simp only [List.mem_map, List.mem_range] at hx
      obtain ⟨g, ⟨i, hi, rfl⟩, rfl⟩ := hx
      have := t3 i hi
      show ((F i).ticks + 45) / 90 ≤ _
      omega
    · rcases t4 with t4 | ⟨i, hi, t4⟩
      · exact Or.inl t4
      · obtain ⟨a, b, e1, e2, _⟩ := hget i hi
        refine Or.inr ⟨i, a, b, by simp only [List.length_map, List.length_range]; exact hi, e1, e2, ?_⟩
        rw [t4, hF i a e1, (fragOf_id _ _ _ _).2.2, ← ticksOf_eq e2 (hst _ a e1)]
        omega
  · intro i a path after ea hc hr hq ht hi hk hd
    rw [findFrag_name c n hn s i hi path after hk hd, if_neg (by omega), h.hSlot i a ea (by omega)]
    obtain ⟨b1, b2⟩ := fragOf_body c i a (ticksOf c gs i a) hq ht
    exact ⟨_, rfl, (fragOf_id _ _ _ _).1, b1, b2⟩
  · intro i path after hx hi hk hd
    rw [findFrag_name c n hn s i hi path after hk hd, if_pos (by omega)]

/-- The fragments for the frames that came, and what waits -/
structure Holds (c : Conf) (l : List (Codec × List Frame)) (s : Sess) (gs : List Group) : Prop where
  /-- every frame once and in order -/
  hAll : l.flatMap (·.2) = gs.flatMap Group.frames ++ s.queue
  /-- nothing waits if there is a fragment -/
  hQueue : gs = [] ∨ s.queue = []
  /-- what was known of codecs was known at the time -/
  hKnown : ∀ g ∈ gs, ∀ x ∈ g.items, x.1 ∈ l.map (·.1)
  hSliced : Sliced c gs

theorem Run.holds {c : Conf} {l : List (Codec × List Frame)} {s : Sess} {items : List Item} (h : Run c s items) (h1 : items.map (·.2) ++ s.queue = l.flatMap (·.2)) (h2 : ∀ x ∈ items, x.1 ∈ l.map (·.1)) :
    Holds c l s (slice c items) := by
  have hi := slice_items c items
  refine ⟨?_, ?_, ?_, h.hSliced⟩
  · rw [← h1]
    congr 1
    conv => lhs; rw [← hi]
    rw [List.map_flatMap]
    rfl
  · rcases h.hQueue with e | e
    · exact Or.inl (by rw [e]; rfl)
    · exact Or.inr e
  · intro g hg x hx
    refine h2 x ?_
    rw [← hi]
    exact List.mem_flatMap.2 ⟨g, hg, hx⟩

/-- C74: whatever frames come (times below 2^63), with slicing `plain`: the frames are in fragments, each once and in order, cut at the first frame that may start a fragment after `fraglen`, or
where the time jumps, and nowhere else. A player gets playlists of the last fragments that were closed, with their durations and numbers, and can fetch what was listed; and whatever comes later,
the fragments that were closed stay as they are.
Missing (see the violations): with AVC and AAC the code has no frame that may start a fragment but the first; fragments with `out_queue` frames or more; durations if time goes back;
no discontinuity is told where time jumps; the fragment before the oldest; the frames that wait are put into the queue by code that is not modelled here. -/
theorem C74_serve_partial (c : Conf) (hc : Plain c) (n : Names) (hn : n.Ok) (l l' : List (Codec × List Frame)) (hf : ∀ x ∈ l ++ l', ∀ f ∈ x.2, f.pts < 2 ^ 63) :
    ∃ s gs s' gs', feeds c l ⟨init c, []⟩ = some s ∧ feeds c (l ++ l') ⟨init c, []⟩ = some s' ∧ Holds c l s gs ∧ Holds c (l ++ l') s' gs' ∧ Grows gs gs' ∧ Serves c n s.st gs ∧ Serves c n s'.st gs' := by
  obtain ⟨s, it, e1, r1, q1, t1⟩ := run_feeds hc l ⟨init c, []⟩ [] (run_init c) (fun x hx => hf x (by simp [hx]))
  obtain ⟨s', it', e2, r2, q2, t2⟩ := run_feeds hc l' s _ r1 (fun x hx => hf x (by simp [hx]))
  rw [List.nil_append] at r1 r2
  rw [List.nil_append] at q1
  refine ⟨s, slice c it, s', slice c (it ++ it'), e1, by rw [feeds_app, e1]; exact e2, r1.holds q1 t1, r2.holds ?_ ?_, grows_slice c it it', r1.hInv.serves n hn, r2.hInv.serves n hn⟩
  · rw [List.map_append, List.append_assoc, q2, ← List.append_assoc, q1]
    simp
  · intro x hx
    rw [List.map_append, List.mem_append]
    rcases List.mem_append.1 hx with hx | hx
    · exact Or.inl (t1 x hx)
    · exact Or.inr (t2 x hx)

/-- C74: what was listed in a playlist at some time is had when it is fetched later, as long as at most `2 * win` fragments have been closed since its own end: the tables and its frames, with the right length. -/
theorem C74_fetch (c : Conf) (hc : Plain c) (n : Names) (hn : n.Ok) (l l' : List (Codec × List Frame)) (hf : ∀ x ∈ l ++ l', ∀ f ∈ x.2, f.pts < 2 ^ 63) (ht : ∀ k ∈ l.map (·.1), k.tables.length = 376)
    (s s' : Sess) (h1 : feeds c l ⟨init c, []⟩ = some s) (h2 : feeds c l' s = some s') (t : TsHls.Spec.Text) (hp : writePlaylist c n s.st = some (some t)) (hlen : t.length < 524288)
    (m : Media) (hm : Spec.parse t = some m) (j : Nat) (x : Seg) (hx : m.segs[j]? = some x) (hlate : s'.st.nfrag + s'.st.nfrags ≤ m.seq + j + 2 * c.win) (hid : m.seq + j < 2 ^ 63)
    (path : TsHls.Spec.Text) (after : Char) (ha : Asks x.uri path) (hd : after ≠ '.') :
    ∃ (gs : List Group) (a b : Group) (g : Frag), Holds c l s gs ∧ gs[m.seq + j]? = some a ∧ gs[m.seq + j + 1]? = some b ∧ (x.ms : Int) = (Spec.ticks c a b % 2 ^ 64 + 45) / 90 ∧
      (a.items.length + 1 < c.queue → findFrag c s'.st (parseFrag path) after = some g ∧ g.body = a.data ∧ g.length = a.data.length) := by
  obtain ⟨s1, it, e1, r1, q1, t1⟩ := run_feeds hc l ⟨init c, []⟩ [] (run_init c) (fun x hx => hf x (by simp [hx]))
  rw [h1] at e1
  injection e1 with e1
  subst e1
  obtain ⟨s2, it', e2, r2, q2, t2⟩ := run_feeds hc l' s _ r1 (fun x hx => hf x (by simp [hx]))
  rw [h2] at e2
  injection e2 with e2
  subst e2
  rw [List.nil_append] at r1 r2
  rw [List.nil_append] at q1
  have hold := r1.holds q1 t1
  have sv1 := r1.hInv.serves n hn
  have sv2 := r2.hInv.serves n hn
  have grow := grows_slice c it it'
  have p2 := r2.hInv.hPos
  generalize hgs : slice c it = gs at *
  generalize hgs' : slice c (it ++ it') = gs' at *
  have k1 : 2 ≤ gs.length ∧ c.minfrags ≤ min (gs.length - 1) c.win := by
    refine Decidable.by_contra fun hno => ?_
    have := sv1.hWait (by omega)
    rw [this] at hp
    simp at hp
  obtain ⟨t', e3, e4⟩ := sv1.hList k1.1 k1.2
  rw [hp] at e3
  injection e3 with e3
  injection e3 with e3
  subst e3
  obtain ⟨m', T, e5, e6, e7, e8, e9⟩ := e4 hlen
  clear e9 e4
  rw [hm] at e5
  injection e5 with e5
  subst e5
  have hj : j < m.segs.length := (List.getElem?_eq_some_iff.1 hx).1
  have l1 : m.seq + j < gs.length := by omega
  have l2 : m.seq + j + 1 < gs.length := by omega
  have ea := List.getElem?_eq_getElem l1
  have eb := List.getElem?_eq_getElem l2
  obtain ⟨x', f1, f2, f3, f4⟩ := e8 j gs[m.seq + j] gs[m.seq + j + 1] hj ea eb
  rw [hx] at f1
  injection f1 with f1
  subst f1
  -- it is among the closed ones later, too
  have g1 : gs.dropLast[m.seq + j]? = some gs[m.seq + j] := by
    rw [List.getElem?_dropLast, if_pos (by omega), ea]
  have hpre := grow.hClosed
  have g2 : gs'.dropLast[m.seq + j]? = some gs[m.seq + j] := by
    obtain ⟨r, hr⟩ := hpre
    rw [← hr, List.getElem?_append_left (by simp; omega), g1]
  have hlen2 : m.seq + j + 1 < gs'.length := by
    have := (List.getElem?_eq_some_iff.1 g2).1
    simp only [List.length_dropLast] at this
    omega
  have g3 : gs'[m.seq + j]? = some gs[m.seq + j] := by
    rw [List.getElem?_dropLast, if_pos (by omega)] at g2
    exact g2
  by_cases hq : (gs[m.seq + j]).items.length + 1 < c.queue
  · obtain ⟨g, v1, v2, v3, v4⟩ := sv2.hFetch (m.seq + j) _ path after g3 hlen2 (by omega) hq
      (ht _ (hold.hKnown _ (List.mem_of_getElem? ea) _ (by simp [Group.items]))) hid (by rw [← f4]; exact ha) hd
    exact ⟨gs, _, _, g, hold, ea, eb, f3, fun _ => ⟨v1, v3, v4⟩⟩
  · exact ⟨gs, _, _, { id := 0, discont := false }, hold, ea, eb, f3, fun h => absurd h hq⟩

/-- C74: frames wait only as long as the first of them may not start a fragment, as far as is known of the codecs. -/
theorem C74_start (c : Conf) (hc : Plain c) (l : List (Codec × List Frame)) (k : Codec) (fs : List Frame) (hf : ∀ x ∈ l ++ [(k, fs)], ∀ f ∈ x.2, f.pts < 2 ^ 63) :
    ∃ s, feeds c (l ++ [(k, fs)]) ⟨init c, []⟩ = some s ∧ (s.queue = [] ∨ ∃ f r, s.queue = f :: r ∧ f ∈ (l ++ [(k, fs)]).flatMap (·.2) ∧ ¬ MayOpen (k, f)) := by
  obtain ⟨s1, it, e1, r1, q1, t1⟩ := run_feeds hc l ⟨init c, []⟩ [] (run_init c) (fun x hx => hf x (by simp [hx]))
  obtain ⟨s2, n2, e2, r2, q2, t2, h2⟩ := run_feed hc r1 k fs (hf (k, fs) (by simp))
  refine ⟨s2, ?_, ?_⟩
  · rw [feeds_app, e1, Option.bind_some]
    unfold feeds
    rw [e2]
    rfl
  · rcases h2 with h2 | ⟨_, h2⟩
    · exact Or.inl h2
    · cases hq : s2.queue with
      | nil => exact Or.inl rfl
      | cons f r =>
        refine Or.inr ⟨f, r, rfl, ?_, h2 f r hq⟩
        have m1 : f ∈ s1.queue ++ fs := by rw [← q2, hq]; simp
        rw [List.flatMap_append, List.mem_append]
        rcases List.mem_append.1 m1 with m1 | m1
        · refine Or.inl ?_
          rw [List.nil_append] at q1
          rw [← q1]
          exact List.mem_append_right _ m1
        · exact Or.inr (by simpa using m1)

/-! ### Examples -/

/-- Video without audio: key frames at 0 s, 2.5 s, 5 s, ..., and other frames between them -/
def exKey (t : Nat) : Frame := { video := true, key := true, pts := t, data := [0x47, UInt8.ofNat (t / 225000)] }
def exOther (t : Nat) : Frame := { video := true, key := false, pts := t, data := [0x47, 255] }
def exCodec : Codec := { avc := true, aac := false, tables := List.replicate 376 0 }
def exFeeds (k : Nat) : List (Codec × List Frame) := (List.range k).map fun i => (exCodec, [exKey (i * 225000), exOther (i * 225000 + 90000)])
def exNames : Names := { name := "cam".toList, sid := "s1".toList }

theorem exNames_ok : exNames.Ok := ⟨by decide, by decide, by decide, by decide, by decide⟩
theorem ex_plain : Plain {} := ⟨rfl, by decide, by decide⟩

example : ((feeds {} (exFeeds 13) ⟨init {}, []⟩).bind fun s => (writePlaylist {} exNames s.st).bind fun t => t.bind fun t => (Spec.parse t).map fun m => (decide (t.length < 524288), m)) =
    some (true, { seq := 3, target := some 5, segs := [3, 4, 5].map fun i => { disc := false, ms := 5000, uri := uri exNames i } }) := by decide +kernel

example : ((feeds {} (exFeeds 13) ⟨init {}, []⟩).bind fun s => (findFrag {} s.st (parseFrag "/hls/cam-3.ts".toList) ' ').map fun g => (g.body, g.length)) =
    some (List.replicate 376 0 ++ [0x47, 6, 0x47, 255, 0x47, 7, 0x47, 255], 384) := by decide +kernel

example : (∀ x ∈ exFeeds 7 ++ exFeeds 6, ∀ f ∈ x.2, f.pts < 2 ^ 63) ∧ (∀ k ∈ (exFeeds 7).map (·.1), k.tables.length = 376) ∧ Asks (uri exNames 3) "/hls/cam-3.ts".toList := by
  refine ⟨by decide +kernel, by decide +kernel, ⟨"/hls".toList, by decide +kernel⟩⟩

end Verif.Hls2
