import Verif.TsIn.HlsLemmas
/-
C71: HLS output of nginx-ts-module.
-/
namespace Verif.TsHls
open Verif Verif.TsIn

/-- A program that can be told in PAT and PMT. -/
def Tellable (P : Prog) : Prop := P.number < 65536 ∧ P.number ≠ 0 ∧ P.pid < 8192 ∧ P.pcrPid < 8192 ∧ (∀ e ∈ P.es, e.type < 256 ∧ e.pid < 8192) ∧ P.es.length ≤ 201

instance (P : Prog) : Decidable (Tellable P) := by unfold Tellable; infer_instance

/-- Time from the start of a segment to a unit. -/
def since (s : List U) (u : U) : Int := (u.2.1.dts : Int) - firstDts s

/-- What there is on disk when units `us` of one program came: `S` are the segments. -/
structure Output (c : Conf) (P : Prog) (us : List U) (v : Var) (S : List (List U)) : Prop where
  /-- every unit is in one segment, in order; no segment is empty -/
  parts : S.flatten = us ∧ (∀ s ∈ S, s ≠ []) ∧ S.length = v.seg + 1
  /-- every segment is a file, and there are no others -/
  files : ∀ j, S.length ≤ j → v.disk j = []
  /-- every file can be played alone and has just the units of its segment -/
  plays : ∀ j s, S[j]? = some s → Spec.Plays P.number P.pid P.pcrPid (P.es.map fun e => (e.type, e.pid)) (fun q => (s.filter (·.2.1.pid == q)).map unitOf) (v.disk j)
  /-- after the tables at the start of files, counters go on from file to file -/
  counters : ∃ (pro : List Bytes) (B : List (List Bytes)), B.length = S.length ∧ (∀ j b, B[j]? = some b → v.disk j = pro ++ b) ∧ ∃ ps, TsIn.Spec.exactAll B.flatten = some ps ∧
    ∀ q, (ps.filter (·.pid == q)).map (·.cc) = (List.range (ps.filter (·.pid == q)).length).map (· % 16)
  /-- a file ends before a unit only if it has its size, or it is long enough and the unit is video that can be played from, or there is no video; or it is too long -/
  cut : ∀ j s u r, S[j]? = some s → S[j + 1]? = some (u :: r) → (c.maxSize ≠ 0 ∧ c.maxSize ≤ (v.disk j).flatten.length) ∨
    ((c.minSeg * 90 : Nat) ≤ since s u ∧ ((c.maxSeg * 90 : Nat) ≤ since s u ∨ (if u.2.1.video then u.2.1.rand = true else u.1.video = false)))
  /-- a file has no unit after the first that could have been the start of the next or that is too late -/
  whole : ∀ (j : Nat) s a u r, S[j]? = some s → s = a ++ u :: r → a ≠ [] → since s u < (c.minSeg * 90 : Nat) ∨
    (since s u < (c.maxSeg * 90 : Nat) ∧ (if u.2.1.video then u.2.1.rand = false else u.1.video = true))
  /-- before each unit but the first, a file is smaller than the limit -/
  size : ∀ (j : Nat) s a u r, S[j]? = some s → s = a ++ u :: r → a ≠ [] → c.maxSize = 0 ∨
    ∃ x y, v.disk j = x ++ y ∧ x.flatten.length < c.maxSize ∧ Spec.Plays P.number P.pid P.pcrPid (P.es.map fun e => (e.type, e.pid)) (fun q => (a.filter (·.2.1.pid == q)).map unitOf) x
  /-- the playlist lists the last segments but the one that is written, with the time from start to start -/
  list : S.length = 1 ∧ v.playlists = [] ∨ S.length ≠ 1 ∧ ∃ t, v.playlists.getLast? = some t ∧
    Spec.parse t = some { seq := v.seg - c.nsegs, target := some ((c.maxSeg + 999) / 1000), ended := false, segs := (Spec.window c.nsegs (Spec.extents 0 (S.map firstDts))).map fun x => ((x.2 + 45) / 90, nameOf v x.1) }

theorem fresh_new (c : Conf) (multi : Bool) (number : Nat) : Fresh c (newVar c multi number) := ⟨rfl, rfl, fun _ => rfl, rfl, rfl, rfl⟩

/-- Units written with enough packets are what C70 says. -/
theorem each_read {n k us out k'} (h : writeEach n k us = some (out, k')) (hf : ∀ u ∈ us, Fits u) (hk : ∀ q, k q < 16) :
    (∀ q, k' q < 16) ∧ ∃ ps, TsIn.Spec.exactAll out = some ps ∧ ∀ pid, (ps.filter (·.pid == pid)).map (·.cc) = ((List.range (ps.filter (·.pid == pid)).length).map fun i => (k pid + i) % 16) ∧
      (TsIn.Spec.units (ps.filter (·.pid == pid))).1 = [] ∧
      ∃ rs, TsIn.Spec.readUnits (TsIn.Spec.units (ps.filter (·.pid == pid))).2 = some rs ∧ rs.map (·.2) = (us.filter (·.2.1.pid == pid)).map unitOf := by
  obtain ⟨N, out', k'', ps, g1, g2, g3, -, g4⟩ := C70_units us hf k hk
  have a := g1 (max N n) (by omega)
  rw [writeEach_more (show n ≤ max N n by omega) us k _ h] at a
  injection a with a
  injection a with a1 a2
  subst a1 a2
  refine ⟨g2, ps, g3, fun pid => ?_⟩
  obtain ⟨b1, b2, rs, b3, b4, -⟩ := g4 pid
  exact ⟨b1, b2, rs, b3, b4⟩

theorem tables_read {n P x y} (hP : Tellable P) (h1 : writePat n [P] = some x) (h2 : writePmt n P = some y) : ∃ a m, TsIn.Spec.exactAll (x.1 ++ y.1) = some (a ++ m) ∧
    TsIn.Spec.OneUnit 0 0 false none a ∧ TsIn.Spec.readPat (TsIn.Spec.unitBytes a) = some [(P.number, P.pid)] ∧
    TsIn.Spec.OneUnit P.pid 0 false none m ∧ TsIn.Spec.readPmt (TsIn.Spec.unitBytes m) = some (P.pcrPid, P.es.map fun e => (e.type, e.pid)) := by
  obtain ⟨p1, p2, p3, p4, p5, p6⟩ := hP
  obtain ⟨o1, a, a1, a2, a3, a4⟩ := C70_pat [P] (by intro p hp; rw [List.mem_singleton] at hp; subst hp; exact ⟨p1, p2, p3⟩) (by simp)
  obtain ⟨o2, m, b1, b2, b3, b4, -⟩ := C70_pmt P p3 p4 p1 p5 p6
  have e1 := a1 (max n 1025) (by omega)
  have e2 := b1 (max n 1025) (by omega)
  rw [writePat_more (show n ≤ max n 1025 by omega) h1] at e1
  rw [writePmt_more (show n ≤ max n 1025 by omega) h2] at e2
  injection e1 with e1
  injection e2 with e2
  subst e1 e2
  exact ⟨a, m, exact_append a2 b2, a3, a4, b3, b4⟩

theorem chain_conts {n c pro} : ∀ {S B k k'} {j : Nat} {s}, Chain n c pro k S B k' → (∀ q, k q < 16) → (∀ t ∈ S, ∀ u ∈ t, Fits u) → S[j]? = some s →
    ∃ b k1 k2, (∀ q, k1 q < 16) ∧ B[j]? = some b ∧ writeEach n k1 s = some (b, k2) ∧ SegOk n c pro k1 s b := by
  intro S
  induction S with
  | nil => intro B k k' j s h _ _ g; simp at g
  | cons t S ih =>
    intro B k k' j s h hk hf g
    cases B with
    | nil => cases h
    | cons x B =>
      obtain ⟨h1, k1, h2, h3⟩ := h
      cases j with
      | zero =>
        simp at g
        subst g
        exact ⟨x, k, k1, hk, by simp, h2, h1⟩
      | succ j =>
        rw [List.getElem?_cons_succ] at g
        obtain ⟨b, a1, a2, a0, a3, a4, a5⟩ := ih h3 (each_read h2 (hf t (by simp)) hk).1 (fun t ht => hf t (by simp [ht])) g
        exact ⟨b, a1, a2, a0, by simpa using a3, a4, a5⟩

theorem window_map (N : Nat) (hist : List Seg) (f : Seg → Nat × Nat) (hf : ∀ s, f s = (s.id, s.duration)) :
    ((hist.drop (hist.length - N)).filter fun s => s.duration ≠ 0).map f = Spec.window N (hist.map f) := by
  unfold Spec.window
  rw [List.length_map, ← List.map_drop, List.filter_map]
  congr 1
  apply List.filter_congr
  intro s _
  simp [hf]

theorem inv_output {n c multi number u0 us v S s B b k pro hist} (hP : Tellable u0.1) (hf : ∀ u ∈ u0 :: us, Fits u)
    (I : Inv n c (newVar c multi number) u0.1 (u0 :: us) v S s B b k pro hist) : Output c u0.1 (u0 :: us) v (S ++ [s]) := by
  have hk0 : ∀ q, (newVar c multi number).cont q < 16 := fun q => by show 0 < 16; omega
  have hchain : Chain n c pro (newVar c multi number).cont (S ++ [s]) (B ++ [b]) v.cont := I.chain.snoc I.segOk I.last
  have hlen := I.chain.length
  have hflat : (S ++ [s]).flatten = u0 :: us := by rw [← I.flat]; simp
  have hfit : ∀ t ∈ S ++ [s], ∀ u ∈ t, Fits u := by
    intro t ht u hu
    apply hf
    rw [← hflat, List.mem_flatten]
    exact ⟨t, ht, hu⟩
  have hdisk : ∀ j x, (B ++ [b])[j]? = some x → v.disk j = pro ++ x := by
    intro j x hx
    by_cases hj : j < B.length
    · rw [List.getElem?_append_left hj] at hx
      exact I.before j x hx
    · rw [List.getElem?_append_right (by omega)] at hx
      by_cases hj' : j = B.length
      · subst hj'
        simp at hx
        rw [hlen, ← I.seg, ← hx]
        exact I.disk
      · rw [List.getElem?_eq_none (by simp; omega)] at hx
        cases hx
  obtain ⟨tx, ty, t1, t2, t3⟩ := I.tables.2
  obtain ⟨pa, pm, q1, q2, q3, q4, q5⟩ := tables_read hP t1 t2
  rw [← t3] at q1
  have hplay : ∀ k1 t x k2, writeEach n k1 t = some (x, k2) → (∀ q, k1 q < 16) → (∀ u ∈ t, Fits u) →
      Spec.Plays u0.1.number u0.1.pid u0.1.pcrPid (u0.1.es.map fun e => (e.type, e.pid)) (fun q => (t.filter (·.2.1.pid == q)).map unitOf) (pro ++ x) := by
    intro k1 t x k2 w1 w2 w3
    obtain ⟨-, ps, w4, w5⟩ := each_read w1 w3 w2
    refine ⟨pa, pm, ps, exact_append q1 w4, q2, q3, q4, q5, fun q => ?_⟩
    obtain ⟨-, w6, rs, w7, w8⟩ := w5 q
    exact ⟨w6, rs, w7, w8⟩
  constructor
  · refine ⟨hflat, ?_, by rw [I.seg]; simp⟩
    intro t ht
    rw [List.mem_append, List.mem_singleton] at ht
    rcases ht with ht | rfl
    · exact I.ne.2 t ht
    · exact I.ne.1
  · intro j hj
    apply I.after
    rw [List.length_append, List.length_singleton] at hj
    rw [I.seg]
    omega
  · intro j t ht
    obtain ⟨x, k1, k2, w1, w2, w3, -⟩ := chain_conts hchain hk0 hfit ht
    rw [hdisk j x w2]
    exact hplay k1 t x k2 w3 w1 (hfit t (List.mem_of_getElem? ht))
  · refine ⟨pro, B ++ [b], by simp [hlen], hdisk, ?_⟩
    have hall := hchain.all
    obtain ⟨-, ps, w1, w2⟩ := each_read hall (by rw [hflat]; exact hf) hk0
    refine ⟨ps, w1, fun q => ?_⟩
    rw [(w2 q).1]
    apply List.map_congr_left
    intro i _
    show (0 + i) % 16 = i % 16
    rw [Nat.zero_add]
  · intro j t u r ht hu
    by_cases hj : j < S.length
    · rw [List.getElem?_append_left hj] at ht
      obtain ⟨x, hx⟩ : ∃ x, B[j]? = some x := ⟨B[j]'(by omega), List.getElem?_eq_getElem (by omega)⟩
      have hcut := I.cut j t x _ u r ht hu hx rfl
      rw [I.before j x hx]
      generalize (pro ++ x).flatten.length = z at hcut
      unfold Stay at hcut
      unfold since
      generalize (u.2.1.dts : Int) - firstDts t = d at hcut
      by_cases hs : c.maxSize ≠ 0 ∧ c.maxSize ≤ z
      · exact .inl hs
      · right
        have hs' : c.maxSize = 0 ∨ z < c.maxSize := by omega
        have hcut : ¬ (d < (c.minSeg * 90 : Nat) ∨ d < (c.maxSeg * 90 : Nat) ∧ (u.2.1.video = true ∧ u.2.1.rand = false ∨ u.2.1.video = false ∧ u.1.video = true)) :=
          fun g => hcut ⟨g, hs'⟩
        refine ⟨by omega, ?_⟩
        by_cases hm : (c.maxSeg * 90 : Nat) ≤ d
        · exact .inl hm
        · right
          revert hcut
          cases u.2.1.video <;> cases u.2.1.rand <;> cases u.1.video <;> simp <;> omega
    · rw [List.getElem?_eq_none (by simp; omega)] at hu
      cases hu
  · intro j t a u r ht e ha
    obtain ⟨x, k1, k2, w1, w2, w3, w4⟩ := chain_conts hchain hk0 hfit ht
    have hst := (w4 a u r e ha).1
    unfold Stay at hst
    unfold since
    generalize (u.2.1.dts : Int) - firstDts t = d at hst
    revert hst
    cases u.2.1.video <;> cases u.2.1.rand <;> cases u.1.video <;> simp
  · intro j t a u r ht e ha
    obtain ⟨x, k1, k2, w1, w2, w3, w4⟩ := chain_conts hchain hk0 hfit ht
    obtain ⟨-, x1, y, kx, g1, g2, g3⟩ := w4 a u r e ha
    rcases g3 with g3 | g3
    · exact .inl g3
    · right
      refine ⟨pro ++ x1, y, by rw [hdisk j x w2, g2, List.append_assoc], g3, hplay k1 a x1 kx g1 w1 ?_⟩
      intro w hw
      exact hfit t (List.mem_of_getElem? ht) w (by rw [e]; simp [hw])
  · have hhl : hist.length = v.seg := by
      have := congrArg List.length I.hist.1
      rw [extents_length] at this
      rw [I.seg]
      simpa using this
    rcases I.lists with ⟨l1, l2⟩ | ⟨l0, l⟩
    · exact .inl ⟨by simp [l1], l2⟩
    · right
      refine ⟨by simpa using l0, _, l, ?_⟩
      rw [parse_playlist, listed_ring v I.ring hhl.symm, I.ring.1, ← I.hist.1, ← window_map _ _ _ (fun s => rfl), List.map_map]
      rfl

/-- For any units of a program that were taken, with any limits: all of the above. -/
theorem C71_output (n : Nat) (c : Conf) (multi : Bool) (number : Nat) (u0 : U) (us : List U) (v : Var) (hP : Tellable u0.1) (hf : ∀ u ∈ u0 :: us, Fits u)
    (h : feed n c (newVar c multi number) (u0 :: us) = .ok v) : ∃ S, Output c u0.1 (u0 :: us) v S := by
  obtain ⟨u0', us', S, s, B, b, k, pro, hist, e, I⟩ := inv_feed (fresh_new c multi number) (u0 :: us) v (by simp) h
  injection e with e1 e2
  subst e1 e2
  exact ⟨S ++ [s], inv_output hP hf I⟩

/-! ### It goes on -/

theorem unit_goes (c : Conf) (hN : c.nsegs ≠ 0) (ha : c.analyze ≠ 0) (v : Var) (u : U) (hf : Fits u) (hP : Tellable u.1) (hk : ∀ q, v.cont q < 16) (hs : v.segs.length = c.nsegs) :
    ∃ N x, (∀ n, N ≤ n → unit n c v u.1 u.2.1 u.2.2 = .ok x) ∧ (∀ q, x.1.cont q < 16) ∧ x.1.segs.length = c.nsegs := by
  obtain ⟨P, e, b⟩ := u
  obtain ⟨f1, f2, f3, f4, f5, f6⟩ := hf
  dsimp only at f1 f2 f3 f4 f5 f6 hP
  have h1 : ∃ v1, updateBandwidth c v b e.pts = .ok v1 ∧ v1.cont = v.cont ∧ v1.segs = v.segs := by
    unfold updateBandwidth
    split
    · exact ⟨v, rfl, rfl, rfl⟩
    · dsimp only
      generalize (if v.bwBytes = 0 then e.pts else v.bwDts) = start
      split
      · rw [if_neg (by omega)]
        exact ⟨_, rfl, rfl, rfl⟩
      · exact ⟨_, rfl, rfl, rfl⟩
  obtain ⟨v1, h1, h1c, h1s⟩ := h1
  have h2 : ∃ x, closeSegment c v1 P.video e = .ok x ∧ x.1.cont = v.cont ∧ x.1.segs.length = c.nsegs := by
    unfold closeSegment
    split
    · exact ⟨_, rfl, h1c, by dsimp only; rw [h1s, hs]⟩
    · dsimp only
      split
      · exact ⟨_, rfl, h1c, by dsimp only; rw [h1s, hs]⟩
      · rw [if_neg (by rw [h1s, hs]; exact hN)]
        exact ⟨_, rfl, h1c, by simp [addSeg, h1s, hs]⟩
  obtain ⟨x, h2, h2c, h2s⟩ := h2
  have h3 : ∃ v3, (∀ n, 1025 ≤ n → openSegment n x.1 P = .ok v3) ∧ v3.cont = v.cont ∧ v3.segs.length = c.nsegs := by
    unfold openSegment
    split
    · exact ⟨x.1, fun _ _ => rfl, h2c, h2s⟩
    · split
      · exact ⟨_, fun _ _ => rfl, h2c, h2s⟩
      · obtain ⟨p1, p2, p3, p4, p5, p6⟩ := hP
        obtain ⟨o1, a, a1, -⟩ := C70_pat [P] (by intro p hp; rw [List.mem_singleton] at hp; subst hp; exact ⟨p1, p2, p3⟩) (by simp)
        obtain ⟨o2, m, b1, -⟩ := C70_pmt P p3 p4 p1 p5 p6
        refine ⟨{ x.1 with opened := true, prologue := some (o1 ++ o2), disk := fun q => if q = x.1.seg then o1 ++ o2 else x.1.disk q }, fun n hn => ?_, h2c, h2s⟩
        rw [a1 n hn, b1 n hn]
  obtain ⟨v3, h3, h3c, h3s⟩ := h3
  obtain ⟨o, ps, g1, -⟩ := C70_pes P { e with cont := v3.cont e.pid } b f6 f1 f2 (by rw [h3c]; exact hk _) f3 f4 f5
  dsimp only at g1
  let k' : Nat → Nat := fun q => if q = e.pid then (v3.cont e.pid + ps.length) % 16 else v3.cont q
  refine ⟨max 1025 (19 + b.flatten.length), ({ v3 with disk := fun q => if q = v3.seg then v3.disk q ++ o else v3.disk q, cont := k' }, x.2), fun n hn => ?_, ?_⟩
  · unfold unit
    dsimp only
    rw [h1]
    simp only [R.bind]
    rw [h2]
    simp only
    rw [h3 n (by omega)]
    simp only
    unfold writeUnit
    rw [g1 n (by omega)]
  · refine ⟨?_, h3s⟩
    intro q
    dsimp only [k']
    split
    · omega
    · rw [h3c]; exact hk q

/-- Any units are taken, if a list has any segments and there is any time over which the bandwidth is taken. -/
theorem C71_total (c : Conf) (hN : c.nsegs ≠ 0) (ha : c.analyze ≠ 0) (multi : Bool) (number : Nat) (us : List U) (hf : ∀ u ∈ us, Fits u ∧ Tellable u.1) :
    ∃ N v, ∀ n, N ≤ n → feed n c (newVar c multi number) us = .ok v := by
  have key : ∀ us : List U, (∀ u ∈ us, Fits u ∧ Tellable u.1) → ∀ v : Var, (∀ q, v.cont q < 16) → v.segs.length = c.nsegs → ∃ N v', ∀ n, N ≤ n → feed n c v us = .ok v' := by
    intro us
    induction us with
    | nil => intro _ v _ _; exact ⟨0, v, fun _ _ => rfl⟩
    | cons u us ih =>
      intro hf v hk hs
      obtain ⟨N, x, h1, h2, h3⟩ := unit_goes c hN ha v u (hf u (by simp)).1 (hf u (by simp)).2 hk hs
      obtain ⟨M, v', h4⟩ := ih (fun u hu => hf u (by simp [hu])) x.1 h2 h3
      refine ⟨max N M, v', fun n hn => ?_⟩
      simp only [feed]
      rw [h1 n (by omega)]
      exact h4 n (by omega)
  exact key us hf _ (fun q => by show 0 < 16; omega) (by simp [newVar])

/-! ### The end -/

/-- What is still to come of the last segment: the time to the last of the streams. -/
def longest (t : Nat) (dts : List Nat) : Nat := dts.foldl (fun m x => max m (x - t)) 0

theorem foldl_longest (t : Nat) : ∀ (dts : List Nat) (m : Nat),
    dts.foldl (fun (m : Int) (x : Nat) => if m < (x : Int) - t then (x : Int) - t else m) (m : Int) = ((dts.foldl (fun m x => max m (x - t)) m : Nat) : Int) := by
  intro dts
  induction dts with
  | nil => intro m; rfl
  | cons x dts ih =>
    intro m
    rw [List.foldl_cons, List.foldl_cons, ← ih]
    congr 1
    split <;> omega

/-- At the end the file that was written is listed too, with the time to the last unit of it, and the list ends. -/
theorem C71_end (n : Nat) (c : Conf) (multi : Bool) (number : Nat) (u0 : U) (us : List U) (v w : Var) (dts : List Nat) (hP : Tellable u0.1) (hf : ∀ u ∈ u0 :: us, Fits u)
    (h : feed n c (newVar c multi number) (u0 :: us) = .ok v) (he : finish c v dts = .ok w) :
    w.disk = v.disk ∧ ∃ S, Output c u0.1 (u0 :: us) v S ∧ ∃ t s, w.playlists.getLast? = some t ∧ S.getLast? = some s ∧
      Spec.parse t = some { seq := v.seg + 1 - c.nsegs, target := some ((c.maxSeg + 999) / 1000), ended := true, segs :=
        (Spec.window c.nsegs (Spec.extents 0 (S.map firstDts) ++ [(v.seg, longest (firstDts s) dts)])).map fun x => ((x.2 + 45) / 90, nameOf v x.1) } := by
  obtain ⟨u0', us', S, s, B, b, k, pro, hist, e, I⟩ := inv_feed (fresh_new c multi number) (u0 :: us) v (by simp) h
  injection e with e1 e2
  subst e1 e2
  unfold finish at he
  dsimp only at he
  split at he
  · cases he
  rename_i old hold
  have hNe : c.nsegs ≠ 0 := by
    intro h0
    have := I.ring.1
    rw [h0] at this
    rw [List.length_eq_zero_iff] at this
    rw [this] at hold
    cases hold
  injection he with he
  have hmax := foldl_longest v.segDts dts 0
  have hmax' : (dts.foldl (fun (m : Int) (x : Nat) => if m < (x : Int) - v.segDts then (x : Int) - v.segDts else m) 0).toNat = longest (firstDts s) dts := by
    have e0 : ((0 : Nat) : Int) = 0 := rfl
    rw [e0] at hmax
    rw [hmax, I.dts]
    simp [longest]
  rw [hmax'] at he
  subst he
  have hhl : hist.length = v.seg := by
    have := congrArg List.length I.hist.1
    rw [extents_length] at this
    rw [I.seg]
    simpa using this
  refine ⟨rfl, S ++ [s], inv_output hP hf I, ?_⟩
  dsimp only
  refine ⟨_, s, List.getLast?_concat .., by simp, ?_⟩
  obtain ⟨z, hz⟩ : ∃ z : Var, z = addSeg { v with opened := false } { old with id := v.seg, duration := longest (firstDts s) dts } := ⟨_, rfl⟩
  rw [← hz]
  have hring : RingOk c.nsegs (hist ++ [{ old with id := v.seg, duration := longest (firstDts s) dts }]) z.segs := by
    have := I.ring.add hNe { old with id := v.seg, duration := longest (firstDts s) dts }
    rw [hhl] at this
    rw [hz]
    unfold addSeg
    dsimp only
    rw [I.ring.1]
    exact this
  have hzs : z.seg = (hist ++ [{ old with id := v.seg, duration := longest (firstDts s) dts }]).length := by rw [hz]; simp [addSeg, hhl]
  rw [parse_playlist, listed_ring z hring hzs, hring.1, hzs, List.length_append, List.length_singleton, hhl, ← I.hist.1]
  have e1 := window_map c.nsegs (hist ++ [{ old with id := v.seg, duration := longest (firstDts s) dts }]) _ (fun s => rfl)
  rw [List.map_append] at e1
  simp only [List.map_cons, List.map_nil] at e1
  rw [← e1, List.map_map, List.length_append, List.length_singleton, hhl]
  congr 2
  rw [hz]
  rfl

end Verif.TsHls
