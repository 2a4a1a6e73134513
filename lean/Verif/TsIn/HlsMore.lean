import Verif.TsIn.HlsProps
/-
C71: playlists against RFC 8216, memory, names, programs side by side, bandwidth, old files.
-/
namespace Verif.TsHls
open Verif Verif.TsIn
open Verif.HlsRestore (Text dec fixed3 decGo_mem dec_ne dec_length)

theorem extents_at : ∀ (T : List Nat) (i j x y : Nat), T[j]? = some x → T[j + 1]? = some y → (Spec.extents i T)[j]? = some (i + j, (((y : Int) - x) % (2 ^ 64 : Nat)).toNat) := by
  intro T
  induction T with
  | nil => intro i j x y h; simp at h
  | cons t T ih =>
    intro i j x y h1 h2
    cases T with
    | nil => rw [List.getElem?_eq_none (by simp)] at h2; cases h2
    | cons t' T =>
      cases j with
      | zero =>
        simp at h1 h2
        subst h1 h2
        simp [Spec.extents]
      | succ j =>
        rw [List.getElem?_cons_succ] at h1 h2
        rw [Spec.extents, List.getElem?_cons_succ, ih (i + 1) j x y h1 h2]
        congr 2
        omega

/-- What is known of each segment that is done. -/
theorem extents_get {S : List (List U)} (hne : ∀ s ∈ S, s ≠ []) {j : Nat} {e : Nat × Nat} (h : (Spec.extents 0 (S.map firstDts))[j]? = some e) :
    ∃ s u r, S[j]? = some s ∧ S[j + 1]? = some (u :: r) ∧ e = (j, (since s u % (2 ^ 64 : Nat)).toNat) := by
  have hj := (List.getElem?_eq_some_iff.1 h).1
  rw [extents_length, List.length_map] at hj
  have h1 : S[j]? = some S[j] := List.getElem?_eq_getElem (by omega)
  have h2 : S[j + 1]? = some S[j + 1] := List.getElem?_eq_getElem (by omega)
  obtain ⟨u, r, hur⟩ := List.exists_cons_of_ne_nil (hne S[j + 1] (List.mem_of_getElem? h2))
  have := extents_at (S.map firstDts) 0 j (firstDts S[j]) (firstDts S[j + 1]) (by rw [List.getElem?_map, h1]; rfl) (by rw [List.getElem?_map, h2]; rfl)
  rw [h] at this
  injection this with this
  refine ⟨S[j], u, r, h1, by rw [h2, hur], ?_⟩
  rw [this, hur, Nat.zero_add]
  rfl

/-- No file that is done has the size limit, or there is none. -/
def NoLimit (c : Conf) (v : Var) : Prop := ∀ j, j < v.seg → c.maxSize = 0 ∨ (v.disk j).flatten.length < c.maxSize

theorem cut_after {c P us v S} (O : Output c P us v S) (hl : NoLimit c v) {j s u r} (h1 : S[j]? = some s) (h2 : S[j + 1]? = some (u :: r)) : (c.minSeg * 90 : Nat) ≤ since s u := by
  have hj := (List.getElem?_eq_some_iff.1 h2).1
  rw [O.parts.2.2] at hj
  rcases O.cut j s u r h1 h2 with ⟨a, b⟩ | ⟨a, -⟩
  · rcases hl j (by omega) with g | g
    · exact absurd g a
    · omega
  · exact a

theorem two_parts {α : Type} : ∀ {S : List (List α)} {j : Nat} {s t}, S[j]? = some s → S[j + 1]? = some t → ∃ a b, S.flatten = a ++ s ++ t ++ b := by
  intro S
  induction S with
  | nil => intro j s t h; simp at h
  | cons x S ih =>
    intro j s t h1 h2
    cases j with
    | zero =>
      cases S with
      | nil => simp at h2
      | cons y S =>
        simp at h1 h2
        subst h1 h2
        exact ⟨[], S.flatten, by simp⟩
    | succ j =>
      rw [List.getElem?_cons_succ] at h1 h2
      obtain ⟨a, b, e⟩ := ih h1 h2
      exact ⟨x ++ a, b, by rw [List.flatten_cons, e]; simp⟩

theorem since_lt {c P us v S} (O : Output c P us v S) (hf : ∀ u ∈ us, Fits u) {j s u r} (h2 : S[j + 1]? = some (u :: r)) : since s u < (2 ^ 33 : Nat) := by
  have : u ∈ us := by
    rw [← O.parts.1, List.mem_flatten]
    exact ⟨_, List.mem_of_getElem? h2, by simp⟩
  have := (hf u this).2.2.2.1
  unfold since
  omega

/-- Times of units in the order they came, strictly. -/
def Rising (us : List U) : Prop := us.Pairwise fun a b => a.2.1.dts < b.2.1.dts

theorem rising_since {c P us v S} (O : Output c P us v S) (hr : us.Pairwise fun a b => a.2.1.dts ≤ b.2.1.dts) {j s u r} (h1 : S[j]? = some s) (h2 : S[j + 1]? = some (u :: r)) :
    0 ≤ since s u := by
  obtain ⟨a, b, e⟩ := two_parts h1 h2
  rw [O.parts.1] at e
  rw [e, List.append_assoc, List.append_assoc, List.pairwise_append] at hr
  have := (List.pairwise_append.1 hr.2.1).2.2
  have hs : s ≠ [] := O.parts.2.1 s (List.mem_of_getElem? h1)
  obtain ⟨w, s', rfl⟩ := List.exists_cons_of_ne_nil hs
  have := this w (by simp) u (by simp)
  unfold since firstDts
  dsimp only
  omega

theorem rising_since' {c P us v S} (O : Output c P us v S) (hr : Rising us) {j s u r} (h1 : S[j]? = some s) (h2 : S[j + 1]? = some (u :: r)) :
    0 < since s u := by
  obtain ⟨a, b, e⟩ := two_parts h1 h2
  unfold Rising at hr
  rw [O.parts.1] at e
  rw [e, List.append_assoc, List.append_assoc, List.pairwise_append] at hr
  have := (List.pairwise_append.1 hr.2.1).2.2
  have hs : s ≠ [] := O.parts.2.1 s (List.mem_of_getElem? h1)
  obtain ⟨w, s', rfl⟩ := List.exists_cons_of_ne_nil hs
  have := this w (by simp) u (by simp)
  unfold since firstDts
  dsimp only
  omega

/-- The number of the first segment in the list is `EXT-X-MEDIA-SEQUENCE`, and they are numbered without gap (RFC 8216, 4.3.3.2): the last `nsegs`, or all of them.
Each has the time to the start of the next. -/
theorem C71_sequence (c : Conf) (P : Prog) (us : List U) (v : Var) (S : List (List U)) (O : Output c P us v S) (hf : ∀ u ∈ us, Fits u)
    (h : NoLimit c v ∧ 0 < c.minSeg ∨ Rising us) (h1 : S.length ≠ 1) :
    ∃ t m, v.playlists.getLast? = some t ∧ Spec.parse t = some m ∧ m.segs.length = min v.seg c.nsegs ∧ m.seq = v.seg - c.nsegs ∧
      ∀ i e, m.segs[i]? = some e → e.2 = nameOf v (m.seq + i) ∧ ∃ s u r, S[m.seq + i]? = some s ∧ S[m.seq + i + 1]? = some (u :: r) ∧ e.1 = ((since s u).toNat + 45) / 90 := by
  have hpos : ∀ {j s u r}, S[j]? = some s → S[j + 1]? = some (u :: r) → 0 < since s u := by
    intro j s u r g1 g2
    rcases h with ⟨a, b⟩ | a
    · have := cut_after O a g1 g2
      omega
    · exact rising_since' O a g1 g2
  have hd : ∀ {j s u r}, S[j]? = some s → S[j + 1]? = some (u :: r) → (since s u % (2 ^ 64 : Nat)).toNat = (since s u).toNat := by
    intro j s u r g1 g2
    rw [Int.emod_eq_of_lt (by have := hpos g1 g2; omega) (by have := since_lt O hf (s := s) g2; omega)]
  rcases O.list with ⟨a, -⟩ | ⟨-, t, a, b⟩
  · exact absurd a h1
  refine ⟨t, _, a, b, ?_⟩
  obtain ⟨X, hX⟩ : ∃ X, Spec.extents 0 (S.map firstDts) = X := ⟨_, rfl⟩
  have hXl : X.length = v.seg := by rw [← hX, extents_length, List.length_map, O.parts.2.2]; rfl
  have hw : Spec.window c.nsegs X = X.drop (X.length - c.nsegs) := by
    unfold Spec.window
    rw [List.filter_eq_self]
    intro e he
    obtain ⟨j, hj⟩ := List.mem_iff_getElem?.1 (List.mem_of_mem_drop he)
    rw [← hX] at hj
    obtain ⟨s, u, r, g1, g2, rfl⟩ := extents_get O.parts.2.1 hj
    have := hpos g1 g2
    dsimp only
    rw [hd g1 g2]
    simp
    omega
  dsimp only
  rw [hX, hw]
  refine ⟨by simp [hXl]; omega, rfl, ?_⟩
  intro i e he
  rw [List.getElem?_map, Option.map_eq_some_iff] at he
  obtain ⟨x, he, rfl⟩ := he
  rw [List.getElem?_drop, hXl, ← hX] at he
  obtain ⟨s, u, r, g1, g2, rfl⟩ := extents_get O.parts.2.1 he
  refine ⟨rfl, s, u, r, g1, g2, ?_⟩
  dsimp only
  rw [hd g1 g2]

/-- No segment in the list is longer than `EXT-X-TARGETDURATION` when rounded (RFC 8216, 4.3.3.1), if no unit comes more than 0.4995 s after the one before. -/
theorem C71_target (c : Conf) (P : Prog) (us : List U) (v : Var) (S : List (List U)) (O : Output c P us v S) (hf : ∀ u ∈ us, Fits u) (hm : c.minSeg ≤ c.maxSeg) (hx : 0 < c.maxSeg)
    (h : NoLimit c v ∨ us.Pairwise fun a b => a.2.1.dts ≤ b.2.1.dts) (hg : ∀ a u w b, us = a ++ u :: w :: b → w.2.1.dts ≤ u.2.1.dts + 44955) (h1 : S.length ≠ 1) :
    ∃ t m x, v.playlists.getLast? = some t ∧ Spec.parse t = some m ∧ m.target = some x ∧ ∀ e ∈ m.segs, (e.1 + 500) / 1000 ≤ x := by
  rcases O.list with ⟨a, -⟩ | ⟨-, t, a, b⟩
  · exact absurd a h1
  refine ⟨t, _, _, a, b, rfl, ?_⟩
  intro e he
  dsimp only at he
  rw [List.mem_map] at he
  obtain ⟨x, hx', rfl⟩ := he
  obtain ⟨j, hj⟩ := List.mem_iff_getElem?.1 (List.mem_of_mem_drop (List.mem_filter.1 hx').1)
  obtain ⟨s, u, r, g1, g2, rfl⟩ := extents_get O.parts.2.1 hj
  have hpos : 0 ≤ since s u := by
    rcases h with h | h
    · have := cut_after O h g1 g2
      omega
    · exact rising_since O h g1 g2
  have hup : since s u < (c.maxSeg * 90 + 44955 : Nat) := by
    obtain ⟨p, q, e⟩ := two_parts g1 g2
    rw [O.parts.1] at e
    have hs : s ≠ [] := O.parts.2.1 s (List.mem_of_getElem? g1)
    rcases List.eq_nil_or_concat s with h0 | ⟨s', l, h0⟩
    · exact absurd h0 hs
    rw [List.concat_eq_append] at h0
    have hgap := hg (p ++ s') l u (r ++ q) (by rw [e, h0]; simp)
    by_cases hs' : s' = []
    · subst hs'
      rw [List.nil_append] at h0
      subst h0
      unfold since firstDts
      dsimp only
      omega
    · have := O.whole j s s' l [] g1 h0 hs'
      unfold since at this ⊢
      omega
  dsimp only
  rw [Int.emod_eq_of_lt hpos (by have := since_lt O hf (s := s) g2; omega)]
  omega

/-! ### Memory and names -/

theorem extents_lt : ∀ (T : List Nat) (i : Nat), ∀ e ∈ Spec.extents i T, e.1 < i + T.length ∧ e.2 < 2 ^ 64 := by
  intro T
  induction T with
  | nil => intro i e he; cases he
  | cons t T ih =>
    intro i e he
    cases T with
    | nil => cases he
    | cons t' T =>
      rw [Spec.extents, List.mem_cons] at he
      rcases he with rfl | he
      · dsimp only
        refine ⟨by simp, ?_⟩
        have := Int.emod_lt_of_pos ((t' : Int) - t) (b := (2 ^ 64 : Nat)) (by decide)
        have := Int.emod_nonneg ((t' : Int) - t) (b := (2 ^ 64 : Nat)) (by decide)
        omega
      · have := ih (i + 1) e he
        simp only [List.length_cons] at this ⊢
        omega

/-- Every playlist that is written fits in the memory that was taken for it. -/
theorem C71_room (n : Nat) (c : Conf) (multi : Bool) (number : Nat) (us : List U) (v : Var) (h : feed n c (newVar c multi number) us = .ok v)
    (hn : number < 65536) (hm : c.maxSeg < 2 ^ 63) (hs : v.seg < 2 ^ 64) (done : Bool) : (playlist c v done).length ≤ playlistRoom v done := by
  by_cases hus : us = []
  · subst hus
    simp only [feed] at h
    injection h with h
    subst h
    apply playlist_length _ _ _ hs hm
    · show number < 2 ^ 64
      omega
    · have : listed (newVar c multi number) = [] := by
        rw [listed_ring (hist := []) _ (RingOk.start _) rfl]
        simp
      rw [this]
      intro s hs
      cases hs
  · obtain ⟨u0', us', S, s, B, b, k, pro, hist, e, I⟩ := inv_feed (fresh_new c multi number) us v hus h
    have hhl : hist.length = v.seg := by
      have := congrArg List.length I.hist.1
      rw [extents_length] at this
      rw [I.seg]
      simpa using this
    apply playlist_length _ _ _ hs hm
    · rw [I.names.1]
      show number < 2 ^ 64
      omega
    · rw [listed_ring v I.ring hhl.symm]
      intro x hx
      have hx1 := List.mem_of_mem_drop (List.mem_filter.1 hx).1
      have hx2 : (x.id, x.duration) ∈ hist.map fun s => (s.id, s.duration) := List.mem_map.2 ⟨x, hx1, rfl⟩
      rw [I.hist.1] at hx2
      have := extents_lt _ _ _ hx2
      have hT : ((S ++ [s]).map firstDts).length = v.seg + 1 := by rw [I.seg]; simp
      rw [hT] at this
      dsimp only at this
      refine ⟨this.2, ?_⟩
      obtain ⟨j, hj⟩ := List.mem_iff_getElem?.1 hx2
      have hj' := (List.getElem?_eq_some_iff.1 hj).1
      rw [extents_length, hT] at hj'
      obtain ⟨y, u, r, -, -, g⟩ := extents_get (by
        intro t ht
        rw [List.mem_append, List.mem_singleton] at ht
        rcases ht with ht | rfl
        · exact I.ne.2 t ht
        · exact I.ne.1) hj
      injection g with g1 g2
      omega

theorem variant_length (v : Var) (h1 : v.bandwidth < 2 ^ 64) (h2 : v.number < 65536) : (variant v).length ≤ "#EXT-X-STREAM-INF:BANDWIDTH=\n".length + 20 + 20 + ".m3u8\n".length := by
  have a := dec_length v.bandwidth h1
  have b := dec_length v.number (by omega)
  unfold variant
  have e1 : "#EXT-X-STREAM-INF:BANDWIDTH=".toList.length = 28 := rfl
  have e2 : "\n".toList.length = 1 := rfl
  have e3 : ".m3u8\n".toList.length = 6 := rfl
  have e4 : "#EXT-X-STREAM-INF:BANDWIDTH=\n".length = 29 := rfl
  have e5 : ".m3u8\n".length = 6 := rfl
  simp only [List.length_append, e1, e2, e3, e4, e5]
  omega

theorem master_lines (vars : List Var) : Spec.parseMasterLines (Spec.lines (vars.flatMap variant)) = some (vars.map fun v => (v.bandwidth, dec v.number ++ ".m3u8".toList)) := by
  induction vars with
  | nil => rfl
  | cons v vars ih =>
    have p1 := dec_plain v.bandwidth
    have p2 := dec_plain v.number
    have n1 := number_dec v.bandwidth
    obtain ⟨d, ds, hd⟩ := List.exists_cons_of_ne_nil (dec_ne v.number)
    have e : variant v ++ vars.flatMap variant = ("#EXT-X-STREAM-INF:BANDWIDTH=".toList ++ dec v.bandwidth) ++ '\n' :: ((dec v.number ++ ".m3u8".toList) ++ '\n' :: vars.flatMap variant) := by
      unfold variant
      simp
    rw [List.flatMap_cons, e, lines_app _ _ (by simp; exact p1.1), lines_app _ _ (by simp; exact p2.1)]
    have t := tag_app "#EXT-X-STREAM-INF:BANDWIDTH=".toList (dec v.bandwidth)
    generalize "#EXT-X-STREAM-INF:BANDWIDTH=".toList ++ dec v.bandwidth = l at t
    generalize Spec.lines (vars.flatMap variant) = L at ih
    unfold Spec.parseMasterLines
    rw [t]
    simp only [Option.bind_some, n1]
    rw [hd] at p2 ⊢
    have hd' : d ≠ '#' := by simpa using p2.2
    rw [if_neg (by simp [hd']), ih]
    simp [hd]

/-- The master playlist tells every program with its bandwidth; it is written only when there are several and all have one. It fits in the memory that was taken. -/
theorem C71_master (vars : List Var) : (∀ t, master vars = some t → Spec.parseMaster t = some (vars.map fun v => (v.bandwidth, dec v.number ++ ".m3u8".toList)) ∧
      (∀ v ∈ vars, v.bandwidth ≠ 0) ∧ ((∀ v ∈ vars, v.bandwidth < 2 ^ 64 ∧ v.number < 65536) → t.length ≤ masterRoom vars)) ∧
    (vars.length ≠ 1 → (∀ v ∈ vars, v.bandwidth ≠ 0) → (master vars).isSome = true) := by
  refine ⟨?_, ?_⟩
  · intro t h
    unfold master at h
    split at h
    · cases h
    split at h
    · cases h
    rename_i h1 h2
    injection h with h
    subst h
    refine ⟨?_, ?_, ?_⟩
    · unfold Spec.parseMaster
      rw [show "#EXTM3U\n".toList ++ vars.flatMap variant = "#EXTM3U".toList ++ '\n' :: vars.flatMap variant from rfl, lines_app _ _ (by decide)]
      dsimp only
      rw [if_pos rfl, master_lines]
    · intro v hv h0
      exact h2 (List.any_eq_true.2 ⟨v, hv, by simp [h0]⟩)
    · intro hb
      have : ∀ l : List Var, (∀ v ∈ l, v.bandwidth < 2 ^ 64 ∧ v.number < 65536) →
          (l.flatMap variant).length ≤ l.length * ("#EXT-X-STREAM-INF:BANDWIDTH=\n".length + 20 + 20 + ".m3u8\n".length) := by
        intro l
        induction l with
        | nil => intro _; simp
        | cons v l ih =>
          intro hl
          have a := variant_length v (hl v (by simp)).1 (hl v (by simp)).2
          have b := ih (fun w hw => hl w (by simp [hw]))
          rw [List.flatMap_cons, List.length_append, List.length_cons, Nat.add_mul]
          omega
      have := this vars hb
      unfold masterRoom
      rw [List.length_append]
      have e : "#EXTM3U\n".toList.length = "#EXTM3U\n".length := rfl
      omega
  · intro h1 h2
    unfold master
    rw [if_neg h1, if_neg]
    · rfl
    · intro g
      obtain ⟨v, hv, g⟩ := List.any_eq_true.1 g
      exact h2 v hv (by simpa using g)

theorem close_seg {c v video e x} (h : closeSegment c v video e = .ok x) : x.2 = decide (x.1.seg ≠ v.seg) := by
  unfold closeSegment at h
  split at h
  · injection h with h
    subst h
    simp
  dsimp only at h
  split at h
  · injection h with h
    subst h
    simp
  split at h
  · cases h
  injection h with h
  subst h
  simp [addSeg]

theorem unit_seg {n c v P e b x} (h : unit n c v P e b = .ok x) : x.2 = decide (x.1.seg ≠ v.seg) := by
  unfold unit at h
  obtain ⟨v1, h1, h⟩ := bind_ok h
  obtain ⟨y, h2, h⟩ := bind_ok h
  obtain ⟨v3, h3, h⟩ := bind_ok h
  obtain ⟨v4, h4, h⟩ := bind_ok h
  injection h with h
  subst h
  dsimp only
  have e1 : v1.seg = v.seg := by
    unfold updateBandwidth at h1
    split at h1
    · injection h1 with h1; rw [h1]
    dsimp only at h1
    generalize (if v.bwBytes = 0 then e.pts else v.bwDts) = start at h1
    split at h1
    · split at h1
      · cases h1
      · injection h1 with h1; rw [← h1]
    · injection h1 with h1; rw [← h1]
  have e3 : v3.seg = y.1.seg := by
    unfold openSegment at h3
    split at h3
    · injection h3 with h3; rw [h3]
    split at h3
    · injection h3 with h3; rw [← h3]
    split at h3
    · injection h3 with h3; rw [← h3]
    · cases h3
  have e4 : v4.seg = v3.seg := by
    unfold writeUnit at h4
    split at h4
    · injection h4 with h4; rw [← h4]
    · cases h4
  rw [close_seg h2, e4, e3, e1]

/-- Whenever a segment of any program is done, the master playlist is written again, with the programs and bandwidths as they are now; at no other time. -/
theorem C71_masters (n : Nat) (c : Conf) (h h' : Hls) (i : Nat) (P : Prog) (e : Es) (b : List Bytes) (hr : handle n c h (.pes i P e b) = .ok h') (vs : List Var) (v v' : Var)
    (hv : h.vars = some vs) (hvi : vs[i]? = some v) (vs' : List Var) (hv' : h'.vars = some vs') (hvi' : vs'[i]? = some v') :
    (v'.seg = v.seg → h'.masters = h.masters) ∧
    (v'.seg ≠ v.seg → vs'.length ≠ 1 → (∀ w ∈ vs', w.bandwidth ≠ 0) →
      ∃ t, h'.masters = h.masters ++ [t] ∧ Spec.parseMaster t = some (vs'.map fun v => (v.bandwidth, dec v.number ++ ".m3u8".toList))) := by
  simp only [handle, hv, Option.getD_some] at hr
  split at hr
  · injection hr with hr
    subst hr
    rw [hv] at hv'
    injection hv' with hv'
    subst hv'
    rw [hvi] at hvi'
    injection hvi' with hvi'
    subst hvi'
    exact ⟨fun _ => rfl, fun g => absurd rfl g⟩
  rw [hvi] at hr
  dsimp only at hr
  obtain ⟨x, h1, h2⟩ := bind_ok hr
  injection h2 with h2
  subst h2
  injection hv' with hv'
  subst hv'
  have hi := (List.getElem?_eq_some_iff.1 hvi).1
  rw [List.getElem?_set_self hi] at hvi'
  injection hvi' with hvi'
  subst hvi'
  have hs := unit_seg h1
  dsimp only
  refine ⟨fun g => ?_, fun g k1 k2 => ?_⟩
  · rw [hs, g]
    simp
  · have hx : x.2 = true := by rw [hs]; simpa using g
    obtain ⟨t, ht⟩ := Option.isSome_iff_exists.1 ((C71_master (vs.set i x.1)).2 k1 k2)
    refine ⟨t, ?_, ((C71_master _).1 t ht).1⟩
    rw [if_pos hx, ht]
    rfl

theorem dec_inj {a b : Nat} (h : dec a = dec b) : a = b := by
  have := number_dec a
  rw [h, number_dec] at this
  injection this with this
  exact this.symm

theorem dec_nodot (n : Nat) : '.' ∉ dec n := by
  intro h
  obtain ⟨d, h1, h2⟩ := decGo_mem _ _ _ h
  have : ∀ x : Fin 10, '.' ≠ Char.ofNat (48 + x.val) := by decide
  exact this ⟨d, h1⟩ h2

theorem dot_split {a b c d : Text} (h1 : '.' ∉ a) (h2 : '.' ∉ c) (h : a ++ '.' :: b = c ++ '.' :: d) : a = c ∧ b = d := by
  induction a generalizing c with
  | nil =>
    cases c with
    | nil => simpa using h
    | cons x c =>
      simp at h
      exact absurd (by simp [← h.1]) h2
  | cons x a ih =>
    cases c with
    | nil =>
      simp at h
      exact absurd (by simp [h.1]) h1
    | cons y c =>
      simp at h
      have := ih (fun g => h1 (by simp [g])) (fun g => h2 (by simp [g])) h.2
      exact ⟨by rw [h.1, this.1], this.2⟩

/-- No two segments have the same name, in one program or in two. -/
theorem C71_names (v w : Var) (i j : Nat) (hm : v.multi = w.multi) (h : nameOf v i = nameOf w j) : i = j ∧ (v.multi = true → v.number = w.number) := by
  unfold nameOf at h
  rw [← hm] at h
  have e1 : ".".toList = ['.'] := rfl
  have e2 : ".ts".toList = '.' :: ['t', 's'] := rfl
  rw [e1, e2] at h
  cases hv : v.multi with
  | false =>
    rw [hv] at h
    simp only [Bool.false_eq_true, if_false, List.nil_append] at h
    exact ⟨dec_inj (dot_split (dec_nodot i) (dec_nodot j) h).1, fun g => by cases g⟩
  | true =>
    rw [hv] at h
    simp only [if_true, List.append_assoc, List.singleton_append] at h
    obtain ⟨a, b⟩ := dot_split (dec_nodot _) (dec_nodot _) h
    exact ⟨dec_inj (dot_split (dec_nodot i) (dec_nodot j) b).1, fun _ => dec_inj a⟩

/-! ### Programs side by side -/

/-- The units with times of a program. -/
def unitsOf (i : Nat) (evs : List Ev) : List U :=
  evs.filterMap fun
    | .pes i' P e b => if i' = i ∧ e.ptsf = true then some (P, e, b) else none
    | .pat _ => none

theorem run_project (n : Nat) (c : Conf) : ∀ evs (h h' : Hls) (vs : List Var), h.vars = some vs → run n c h evs = .ok h' →
    ∃ vs', h'.vars = some vs' ∧ vs'.length = vs.length ∧ ∀ i v, vs[i]? = some v → ∃ v', vs'[i]? = some v' ∧ feed n c v (unitsOf i evs) = .ok v' := by
  intro evs
  induction evs with
  | nil =>
    intro h h' vs hv hr
    simp only [run] at hr
    injection hr with hr
    subst hr
    exact ⟨vs, hv, rfl, fun i v hi => ⟨v, hi, rfl⟩⟩
  | cons ev evs ih =>
    intro h h' vs hv hr
    simp only [run] at hr
    obtain ⟨h1, g1, g2⟩ := bind_ok hr
    cases ev with
    | pat numbers =>
      simp only [handle, hv] at g1
      injection g1 with g1
      subst g1
      exact ih h h' vs hv g2
    | pes j P e b =>
      simp only [handle] at g1
      split at g1
      · rename_i hp
        injection g1 with g1
        subst g1
        obtain ⟨vs', a1, a2, a3⟩ := ih h h' vs hv g2
        refine ⟨vs', a1, a2, fun i v hi => ?_⟩
        obtain ⟨v', b1, b2⟩ := a3 i v hi
        refine ⟨v', b1, ?_⟩
        rw [← b2]
        unfold unitsOf
        rw [List.filterMap_cons]
        simp [hp]
      · rename_i hp
        rw [hv, Option.getD_some] at g1
        split at g1
        · cases g1
        rename_i w hw
        obtain ⟨x, g3, g4⟩ := bind_ok g1
        injection g4 with g4
        subst g4
        obtain ⟨vs', a1, a2, a3⟩ := ih _ h' (vs.set j x.1) rfl g2
        refine ⟨vs', a1, by rw [a2]; simp, fun i v hi => ?_⟩
        by_cases hij : j = i
        · subst hij
          rw [hw] at hi
          injection hi with hi
          subst hi
          obtain ⟨v', b1, b2⟩ := a3 j x.1 (by
            rw [List.getElem?_set_self]
            exact (List.getElem?_eq_some_iff.1 hw).1)
          refine ⟨v', b1, ?_⟩
          unfold unitsOf
          rw [List.filterMap_cons]
          simp only [hp, and_self, if_true]
          simp only [feed]
          rw [g3]
          exact b2
        · obtain ⟨v', b1, b2⟩ := a3 i v (by rw [List.getElem?_set_ne hij]; exact hi)
          refine ⟨v', b1, ?_⟩
          rw [← b2]
          unfold unitsOf
          rw [List.filterMap_cons]
          simp [hij]

/-- With several programs, what is written for each is what would be written if the units of the others had not come. -/
theorem C71_programs (n : Nat) (c : Conf) (numbers : List Nat) (evs : List Ev) (h : Hls) (hr : run n c {} (.pat numbers :: evs) = .ok h) :
    ∃ vs, h.vars = some vs ∧ vs.length = numbers.length ∧
      ∀ i x, numbers[i]? = some x → ∃ v, vs[i]? = some v ∧ feed n c (newVar c (decide (1 < numbers.length)) x) (unitsOf i evs) = .ok v := by
  simp only [run] at hr
  obtain ⟨h1, g1, g2⟩ := bind_ok hr
  simp only [handle] at g1
  injection g1 with g1
  subst g1
  obtain ⟨vs', a1, a2, a3⟩ := run_project n c evs _ h _ rfl g2
  refine ⟨vs', a1, by rw [a2]; simp, fun i x hx => ?_⟩
  exact a3 i _ (by rw [List.getElem?_map, hx]; rfl)

/-! ### Bandwidth -/

def bytesOf (us : List U) : Nat := (us.map fun u => u.2.2.flatten.length).sum

/-- The mean rate over the units from the first with data to one at least `analyze` later. -/
def Mean (c : Conf) (us : List U) (b : Nat) : Prop :=
  ∃ e x a u r, us = e ++ x :: a ++ u :: r ∧ bytesOf e = 0 ∧ bytesOf [x] ≠ 0 ∧ x.2.1.pts + c.analyze * 90 ≤ u.2.1.pts ∧
    b = bytesOf (e ++ x :: a ++ [u]) * 8 * 90000 / (u.2.1.pts - x.2.1.pts)

def Bw (c : Conf) (us : List U) (v : Var) : Prop :=
  (v.bandwidth = 0 ∧ v.bwBytes = 0 ∧ bytesOf us = 0) ∨
  (v.bandwidth = 0 ∧ v.bwBytes = bytesOf us ∧ ∃ e x a, us = e ++ x :: a ∧ bytesOf e = 0 ∧ bytesOf [x] ≠ 0 ∧ v.bwDts = x.2.1.pts) ∨
  (v.bandwidth ≠ 0 ∧ Mean c us v.bandwidth)

theorem bytesOf_append (a b : List U) : bytesOf (a ++ b) = bytesOf a + bytesOf b := by simp [bytesOf]

theorem unit_bw {n c v P e b x} (h : unit n c v P e b = .ok x) : ∃ v1, updateBandwidth c v b e.pts = .ok v1 ∧ x.1.bandwidth = v1.bandwidth ∧ x.1.bwBytes = v1.bwBytes ∧ x.1.bwDts = v1.bwDts := by
  unfold unit at h
  obtain ⟨v1, h1, h⟩ := bind_ok h
  obtain ⟨w2, h2, h⟩ := bind_ok h
  obtain ⟨v3, h3, h⟩ := bind_ok h
  obtain ⟨v4, h4, h⟩ := bind_ok h
  injection h with h
  subst h
  refine ⟨v1, h1, ?_⟩
  have e2 : w2.1.bandwidth = v1.bandwidth ∧ w2.1.bwBytes = v1.bwBytes ∧ w2.1.bwDts = v1.bwDts := by
    unfold closeSegment at h2
    dsimp only at h2
    repeat' split at h2
    all_goals first
      | (injection h2 with h2; subst h2; exact ⟨rfl, rfl, rfl⟩)
      | cases h2
  have e3 : v3.bandwidth = w2.1.bandwidth ∧ v3.bwBytes = w2.1.bwBytes ∧ v3.bwDts = w2.1.bwDts := by
    unfold openSegment at h3
    repeat' split at h3
    all_goals first
      | (injection h3 with h3; subst h3; exact ⟨rfl, rfl, rfl⟩)
      | cases h3
  have e4 : v4.bandwidth = v3.bandwidth ∧ v4.bwBytes = v3.bwBytes ∧ v4.bwDts = v3.bwDts := by
    unfold writeUnit at h4
    split at h4
    · injection h4 with h4; subst h4; exact ⟨rfl, rfl, rfl⟩
    · cases h4
  exact ⟨by rw [e4.1, e3.1, e2.1], by rw [e4.2.1, e3.2.1, e2.2.1], by rw [e4.2.2, e3.2.2, e2.2.2]⟩

theorem Mean.more {c us b} (h : Mean c us b) (u : U) : Mean c (us ++ [u]) b := by
  obtain ⟨e, x, a, w, r, h1, h2⟩ := h
  exact ⟨e, x, a, w, r ++ [u], by rw [h1]; simp, h2⟩

theorem bw_step {c us v v1} (u : U) (ha : c.analyze ≠ 0) (h : Bw c us v) (g : updateBandwidth c v u.2.2 u.2.1.pts = .ok v1) : Bw c (us ++ [u]) v1 := by
  unfold updateBandwidth at g
  have hb : bytesOf [u] = u.2.2.flatten.length := by simp [bytesOf]
  rcases h with ⟨h1, h2, h3⟩ | ⟨h1, h2, e, x, a, h3, h4, h5, h6⟩ | ⟨h1, h2⟩
  · rw [if_neg (by simp [h1])] at g
    dsimp only at g
    rw [if_pos h2, h2, Int.sub_self, if_neg (by omega)] at g
    injection g with g
    subst g
    by_cases hd : u.2.2.flatten.length = 0
    · left
      exact ⟨h1, by dsimp only; omega, by rw [bytesOf_append, h3, hb, hd]⟩
    · right; left
      refine ⟨h1, by dsimp only; rw [bytesOf_append, h3, hb], us, u, [], rfl, h3, by rw [hb]; exact hd, rfl⟩
  · have hne : v.bwBytes ≠ 0 := by
      rw [h2, h3, bytesOf_append, show x :: a = [x] ++ a from rfl, bytesOf_append]
      omega
    rw [if_neg (by simp [h1])] at g
    dsimp only at g
    rw [if_neg hne, h6, h2, ← hb, ← bytesOf_append] at g
    have hnext : ∀ w : Var, w.bandwidth = 0 → w.bwBytes = bytesOf (us ++ [u]) → w.bwDts = x.2.1.pts → Bw c (us ++ [u]) w :=
      fun w q1 q2 q3 => .inr (.inl ⟨q1, q2, e, x, a ++ [u], by rw [h3]; simp, h4, h5, q3⟩)
    split at g
    · rename_i hge
      rw [if_neg (by omega)] at g
      injection g with g
      subst g
      have hd : ((u.2.1.pts : Int) - x.2.1.pts).toNat = u.2.1.pts - x.2.1.pts := by omega
      rw [hd]
      obtain ⟨q, hq⟩ : ∃ q, bytesOf (us ++ [u]) * 8 * 90000 / (u.2.1.pts - x.2.1.pts) = q := ⟨_, rfl⟩
      rw [hq]
      by_cases h0 : q = 0
      · subst h0
        exact hnext _ rfl rfl rfl
      · right; right
        refine ⟨h0, e, x, a, u, [], by rw [h3], h4, h5, by omega, ?_⟩
        rw [← hq, h3]
    · injection g with g
      subst g
      exact hnext _ h1 rfl rfl
  · rw [if_pos h1] at g
    injection g with g
    subst g
    exact .inr (.inr ⟨h1, h2.more u⟩)

/-- The bandwidth in the master playlist is the mean over at least `analyze`, of the data of units (without the headers of transport stream packets). -/
theorem C71_bandwidth (n : Nat) (c : Conf) (ha : c.analyze ≠ 0) (multi : Bool) (number : Nat) (us : List U) (v : Var) (h : feed n c (newVar c multi number) us = .ok v)
    (hb : v.bandwidth ≠ 0) : Mean c us v.bandwidth := by
  have key : ∀ us v, feed n c (newVar c multi number) us = .ok v → Bw c us v := by
    apply snocInd
    · intro v h
      simp only [feed] at h
      injection h with h
      subst h
      exact .inl ⟨rfl, rfl, rfl⟩
    · intro us u ih v h
      rw [feed_append] at h
      obtain ⟨v1, g1, g2⟩ := bind_ok h
      simp only [feed] at g2
      obtain ⟨x, g3, g4⟩ := bind_ok g2
      injection g4 with g4
      subst g4
      obtain ⟨w, k1, k2, k3, k4⟩ := unit_bw g3
      have := bw_step u ha (ih v1 g1) k1
      unfold Bw at this ⊢
      rw [k2, k3, k4]
      exact this
  rcases key us v h with ⟨a, -⟩ | ⟨a, -⟩ | ⟨-, a⟩
  · exact absurd a hb
  · exact absurd a hb
  · exact a

/-! ### Old files -/

/-- A segment is not deleted as long as it is in a list: `done j` is the time, in milliseconds, when segment `j` was done; `m` when it was written last, `t` now.
Segments may take up to `D`, and `g` is the time between units. -/
theorem C71_keep (c : Conf) (path : Text) (hp : ∃ a, path = a ++ ".ts".toList) (done : Nat → Nat) (D g : Nat) (hD : ∀ j, done (j + 1) ≤ done j + D) (j m t : Nat)
    (hm : done j ≤ m + g) (ht : t < done (j + c.nsegs)) (hroom : c.nsegs * D + g + 2000 ≤ 2 * (c.maxSeg * c.nsegs)) :
    deleted c path (((t / 1000 : Nat) : Int) - (m / 1000 : Nat)) = false := by
  obtain ⟨a, rfl⟩ := hp
  have hl : ∀ k, done (j + k) ≤ done j + k * D := by
    intro k
    induction k with
    | zero => simp
    | succ k ih =>
      have := hD (j + k)
      rw [← Nat.add_assoc, Nat.succ_mul]
      omega
  have := hl c.nsegs
  have e : maxAge c (a ++ ".ts".toList) = c.maxSeg * c.nsegs / 500 := by
    unfold maxAge
    have l : (a ++ ".ts".toList).length = a.length + 3 := by rw [List.length_append]; rfl
    dsimp only
    rw [l]
    have h3 : (a ++ ".ts".toList).drop (a.length + 3 - 3) = ".ts".toList := by rw [Nat.add_sub_cancel, List.drop_left]
    rw [h3]
    have h4 : ¬ (4 ≤ a.length + 3 ∧ ((a ++ ".ts".toList).drop (a.length + 3 - 4)).take 3 = ".tm".toList) := by
      rintro ⟨g1, g2⟩
      rcases List.eq_nil_or_concat a with h0 | ⟨a', x, h0⟩
      · subst h0
        simp at g1
      · rw [List.concat_eq_append] at h0
        subst h0
        rw [show (a' ++ [x]).length + 3 - 4 = a'.length by simp, List.append_assoc, List.drop_left] at g2
        simp at g2
    rw [if_neg h4, if_pos ⟨by omega, rfl⟩]
  unfold deleted
  rw [e]
  generalize c.maxSeg * c.nsegs = X at *
  generalize c.nsegs * D = Y at *
  rw [Bool.not_eq_false', decide_eq_true_iff]
  omega

/-- A playlist is not deleted before the next one is due, unless lists have one segment: `m` is when it was written, after segment `j`; `t` is now. -/
theorem C71_keep_list (c : Conf) (path : Text) (hp : ∃ a, path = a ++ ".m3u8".toList) (done : Nat → Nat) (D : Nat) (hD : ∀ j, done (j + 1) ≤ done j + D) (j m t : Nat)
    (hm : done j ≤ m) (ht : t < done (j + 1)) (hroom : D + 2000 ≤ c.maxSeg * c.nsegs) :
    deleted c path (((t / 1000 : Nat) : Int) - (m / 1000 : Nat)) = false := by
  obtain ⟨a, rfl⟩ := hp
  have := hD j
  have e : maxAge c (a ++ ".m3u8".toList) = c.maxSeg * c.nsegs / 1000 := by
    unfold maxAge
    have l : (a ++ ".m3u8".toList).length = a.length + 5 := by rw [List.length_append]; rfl
    dsimp only
    rw [l]
    have h5 : (a ++ ".m3u8".toList).drop (a.length + 5 - 5) = ".m3u8".toList := by rw [Nat.add_sub_cancel, List.drop_left]
    have h4 : (a ++ ".m3u8".toList).drop (a.length + 5 - 4) = "m3u8".toList := by
      rw [show a.length + 5 - 4 = (a ++ ['.']).length by simp, show a ++ ".m3u8".toList = (a ++ ['.']) ++ "m3u8".toList by simp, List.drop_left]
    have h3 : (a ++ ".m3u8".toList).drop (a.length + 5 - 3) = "3u8".toList := by
      rw [show a.length + 5 - 3 = (a ++ ['.', 'm']).length by simp, show a ++ ".m3u8".toList = (a ++ ['.', 'm']) ++ "3u8".toList by simp, List.drop_left]
    rw [h5, h4, h3, if_neg (by rintro ⟨-, g⟩; simp at g), if_neg (by rintro ⟨-, g⟩; simp at g), if_pos ⟨by omega, rfl⟩]
  unfold deleted
  rw [e]
  generalize c.maxSeg * c.nsegs = X at *
  rw [Bool.not_eq_false', decide_eq_true_iff]
  omega

/-- With the defaults, all this is so if segments take up to twice the longest time. -/
example : ∃ c : Conf, c.nsegs * (2 * c.maxSeg - 1000) + 1000 + 2000 ≤ 2 * (c.maxSeg * c.nsegs) ∧ (2 * c.maxSeg) + 2000 ≤ c.maxSeg * c.nsegs := ⟨{}, by decide⟩

end Verif.TsHls
