import Verif.TsDash.MpdWrite
/- All streams together: what holds after any units -/
namespace Verif.TsDash
open Verif Verif.TsIn
open Verif.HlsRestore (Text dec)

/-- The units of a stream: those with a time -/
def unitsOf (pid : Nat) (us : List In) : List In := us.filter fun x => x.e.ptsf && x.e.pid == pid

/-- Entries that were never used -/
def Fresh (n : Nat) (r : Rep) : Prop := ∀ k, r.seg ≤ k → k < n → r.segs[k]? = some {}

theorem fresh_close {n : Nat} {r r' : Rep} {closed : Bool} (hl : r.segs.length = n) (h : Fresh n r) (hc : Closed r r' closed) : Fresh n r' := by
  intro k h1 h2
  cases closed with
  | false =>
    obtain ⟨-, e1, e2⟩ := hc.same rfl
    rw [e1]; exact h k (by omega) h2
  | true =>
    obtain ⟨e1, h0, ⟨x, e2⟩, -⟩ := hc.new rfl
    rw [e2, List.getElem?_set_ne]
    · exact h k (by omega) h2
    · rw [hl, Nat.mod_eq_of_lt (by omega)]; omega

/-- A stream after its units -/
structure EntOk (c : Conf) (K : Nat → Spec.Kind) (us : List In) (files : List (Text × Bytes)) (x : Ent) (parts : List (List Spec.Item)) : Prop where
  good : Good c (K x.pid) x.rep.type x.rep.video x.rep parts ((unitsOf x.pid us).flatMap (·.nals))
  flat : parts.flatten = (unitsOf x.pid us).map In.item
  small : Small x.rep.video parts
  fresh : Fresh c.nsegs x.rep
  ran : run c (newRep c x.rep.type x.rep.video) ((unitsOf x.pid us).map fun y => (y.e, y.bufs)) = some (x.rep, true)
  disk : ∀ t, lookup (segName x.pid t) files = lookup t x.rep.files

/-- What a representation knows is what the units of some time told. -/
def Knows (c : Conf) (us : List In) (x : Ent) : Prop :=
  ∃ pre rest r, unitsOf x.pid us = pre ++ rest ∧ run c (newRep c x.rep.type x.rep.video) (pre.map fun y => (y.e, y.bufs)) = some (r, true) ∧
    x.rep.sps = r.sps ∧ x.rep.pps = r.pps ∧ x.rep.avc = r.avc ∧ x.rep.aac = r.aac

/-- What the playlist is made of, but for parameters -/
def face (x : Ent) : Nat × Nat × Bool × List Seg × Nat × Nat := (x.pid, x.rep.type, x.rep.video, x.rep.segs, x.rep.seg, x.rep.bandwidth)

def faces (sets : List ReSet) : List (Bool × List (Nat × Nat × Bool × List Seg × Nat × Nat)) := sets.map fun s => (s.video, s.ents.map face)

theorem faces_setRep (sets : List ReSet) (pid : Nat) (r : Rep) (h : ∀ x ∈ entsOf sets, x.pid = pid → face { x with rep := r } = face x) : faces (setRep sets pid r) = faces sets := by
  unfold faces setRep
  rw [List.map_map]
  refine List.map_congr_left fun s hs => ?_
  simp only [Function.comp, List.map_map]
  congr 1
  refine List.map_congr_left fun x hx => ?_
  have hm : x ∈ entsOf sets := List.mem_flatMap.2 ⟨s, hs, hx⟩
  simp only [Function.comp]
  by_cases hp : x.pid = pid
  · rw [if_pos (by simpa using hp)]; exact h x hm hp
  · rw [if_neg (by simpa using hp)]

theorem setRep_setRep (sets : List ReSet) (pid : Nat) (r r' : Rep) : setRep (setRep sets pid r) pid r' = setRep sets pid r' := by
  unfold setRep
  rw [List.map_map]
  refine List.map_congr_left fun s _ => ?_
  simp only [Function.comp, List.map_map]
  congr 1
  refine List.map_congr_left fun x _ => ?_
  simp only [Function.comp]
  by_cases hp : x.pid = pid <;> simp [hp]

theorem mem_setRep {sets : List ReSet} {pid : Nat} {r : Rep} {y : Ent} (h : y ∈ entsOf (setRep sets pid r)) :
    ∃ x ∈ entsOf sets, x.pid = y.pid ∧ ((x.pid = pid ∧ y = { x with rep := r }) ∨ (x.pid ≠ pid ∧ y = x)) := by
  rw [ents_setRep] at h
  obtain ⟨x, hx, rfl⟩ := List.mem_map.1 h
  refine ⟨x, hx, ?_⟩
  unfold setEnt
  by_cases hp : x.pid = pid
  · rw [if_pos (by simpa using hp)]; exact ⟨rfl, .inl ⟨hp, rfl⟩⟩
  · rw [if_neg (by simpa using hp)]; exact ⟨rfl, .inr ⟨hp, rfl⟩⟩

/-- The playlist that is there -/
structure MpdOk (c : Conf) (date : Nat → Text) (us : List In) (d : Dash) (text : Text) (snap : List ReSet) (now : Nat) : Prop where
  text : ∃ s, d.start = some s ∧ text = mpdText c (date s) (date now) snap
  faces : faces snap = faces d.sets
  knows : ∀ x ∈ entsOf snap, Knows c us x
  inits : ∀ x ∈ entsOf snap, lookup (initName x.pid) d.files = some (initT now x.rep)

structure Inv2 (c : Conf) (date : Nat → Text) (K : Nat → Spec.Kind) (us : List In) (d : Dash) : Prop where
  nodup : ((entsOf d.sets).map (·.pid)).Nodup
  initLen : 0 < d.initLen
  playlistLen : 0 < d.playlistLen
  ents : ∀ x ∈ entsOf d.sets, ∃ parts, EntOk c K us d.files x parts
  mpd : ∀ text, d.mpd = some text → (∀ x ∈ entsOf d.sets, x.rep.bandwidth ≠ 0) ∧ ∃ snap now, MpdOk c date us d text snap now

theorem units_skip {pid : Nat} {us : List In} {x : In} (h : ¬ (x.e.ptsf = true ∧ x.e.pid = pid)) : unitsOf pid (us ++ [x]) = unitsOf pid us := by
  unfold unitsOf
  rw [List.filter_append, List.filter_cons_of_neg (by simpa using h)]
  simp

theorem units_take {pid : Nat} {us : List In} {x : In} (h1 : x.e.ptsf = true) (h2 : x.e.pid = pid) : unitsOf pid (us ++ [x]) = unitsOf pid us ++ [x] := by
  unfold unitsOf
  rw [List.filter_append, List.filter_cons_of_pos (by simpa using ⟨h1, h2⟩)]
  simp

theorem Knows.more {c : Conf} {us : List In} {x : Ent} (h : Knows c us x) (y : In) : Knows c (us ++ [y]) x := by
  obtain ⟨pre, rest, r, h1, h2⟩ := h
  by_cases hy : y.e.ptsf = true ∧ y.e.pid = x.pid
  · exact ⟨pre, rest ++ [y], r, by rw [units_take hy.1 hy.2, h1, List.append_assoc], h2⟩
  · exact ⟨pre, rest, r, by rw [units_skip hy, h1], h2⟩

theorem skip_eq {c : Conf} {date : Nat → Text} {K : Nat → Spec.Kind} {us : List In} {d : Dash} {x : In} (h : Inv2 c date K us d) (hx : ∀ y ∈ entsOf d.sets, ¬ (x.e.ptsf = true ∧ x.e.pid = y.pid)) :
    Inv2 c date K (us ++ [x]) d where
  nodup := h.nodup
  initLen := h.initLen
  playlistLen := h.playlistLen
  ents := by
    intro y hy
    obtain ⟨parts, hp⟩ := h.ents y hy
    refine ⟨parts, ?_⟩
    have e := units_skip (us := us) (hx y hy)
    exact ⟨by rw [e]; exact hp.good, by rw [e]; exact hp.flat, hp.small, hp.fresh, by rw [e]; exact hp.ran, hp.disk⟩
  mpd := by
    intro text ht
    obtain ⟨h1, snap, now, h2⟩ := h.mpd text ht
    exact ⟨h1, snap, now, h2.text, h2.faces, fun y hy => (h2.knows y hy).more x, h2.inits⟩

theorem run_snoc {c : Conf} (u : Es × List Bytes) : ∀ (us : List (Es × List Bytes)) (r r1 r2 : Rep) (closed : Bool), run c r us = some (r1, true) → unit c r1 u.1 u.2 = some (r2, closed, true) →
    run c r (us ++ [u]) = some (r2, true)
  | [], r, r1, r2, closed, h1, h2 => by
    injection h1 with h1
    injection h1 with h1
    subst h1
    show (unit c r u.1 u.2).bind _ = _
    rw [h2]
    rfl
  | v :: us, r, r1, r2, closed, h1, h2 => by
    unfold run at h1
    show (unit c r v.1 v.2).bind _ = _
    obtain ⟨x, hx, h1⟩ := Option.bind_eq_some_iff.1 h1
    rw [hx, Option.bind_some]
    split at h1
    · rename_i hb
      rw [if_pos hb]
      exact run_snoc u us x.1 r1 r2 closed h1 h2
    · injection h1 with h1
      injection h1 with _ h1
      exact nomatch h1

theorem bandwidth_kept {c : Conf} {r r1 : Rep} {bufs : List Bytes} {dts : Nat} (h : updateBandwidth c r bufs dts = some r1) (hb : r.bandwidth ≠ 0) : r1.bandwidth = r.bandwidth := by
  unfold updateBandwidth at h
  rw [if_pos hb] at h
  injection h with h
  rw [h]

theorem nodup_pid {l : List Ent} (h : (l.map (·.pid)).Nodup) {x y : Ent} (hx : x ∈ l) (hy : y ∈ l) (he : x.pid = y.pid) : x = y := by
  induction l with
  | nil => simp at hx
  | cons z l ih =>
    rw [List.map_cons, List.nodup_cons] at h
    rcases List.mem_cons.1 hx with h1 | h1
    · rcases List.mem_cons.1 hy with h2 | h2
      · rw [h1, h2]
      · exact absurd (List.mem_map.2 ⟨y, h2, by rw [← he, h1]⟩) h.1
    · rcases List.mem_cons.1 hy with h2 | h2
      · exact absurd (List.mem_map.2 ⟨x, h1, by rw [he, h2]⟩) h.1
      · exact ih h.2 h1 h2

theorem inits_seg (now : Nat) (l : List Ent) (pid t : Nat) : lookup (segName pid t) (inits now l) = none := by
  refine lookup_none fun f hf => ?_
  obtain ⟨x, -, rfl⟩ := List.mem_map.1 hf
  exact init_seg

theorem inits_get {now : Nat} : ∀ {l : List Ent} {x : Ent}, (l.map (·.pid)).Nodup → x ∈ l → (∀ y ∈ l, y.rep.bandwidth ≠ 0) → lookup (initName x.pid) (inits now l) = some (initT now x.rep)
  | z :: l, x, hn, hx, hb => by
    have e : inits now (z :: l) = (initName z.pid, initT now z.rep) :: inits now l := by
      unfold inits
      rw [List.filter_cons_of_pos (by simpa using hb z List.mem_cons_self), List.map_cons]
    rw [e, lookup]
    rw [List.map_cons, List.nodup_cons] at hn
    rcases List.mem_cons.1 hx with rfl | hx
    · rw [lookup_none, if_pos rfl]
      · rfl
      · intro f hf h
        obtain ⟨y, hy, rfl⟩ := List.mem_map.1 hf
        have := initName_inj h
        exact hn.1 (List.mem_map.2 ⟨y, (List.mem_filter.1 hy).1, this⟩)
    · rw [inits_get hn.2 hx fun y hy => hb y (List.mem_cons_of_mem _ hy)]
      rfl

theorem faces_ents {a b : List ReSet} (h : faces a = faces b) : (entsOf a).map face = (entsOf b).map face := by
  have e : ∀ s : List ReSet, (entsOf s).map face = (faces s).flatMap (·.2) := by
    intro s
    unfold entsOf faces
    induction s with
    | nil => rfl
    | cons x l ih => rw [List.flatMap_cons, List.map_append, ih]; rfl
  rw [e, e, h]

theorem shape_faces {a b : List ReSet} (h : faces a = faces b) : shape a = shape b := by
  have e : ∀ s : List ReSet, shape s = (faces s).map fun x => (x.1, x.2.map fun y => (y.1, y.2.1, y.2.2.1)) := by
    intro s
    unfold shape faces
    rw [List.map_map]
    refine List.map_congr_left fun x _ => ?_
    simp only [Function.comp, List.map_map]
    rfl
  rw [e, e, h]

/-- One unit of one of the streams -/
theorem pes_eq {c : Conf} {date : Nat → Text} {K : Nat → Spec.Kind} {us : List In} {d : Dash} {x : In} {rest : List In} (now : Nat) (hA : 0 < c.analyze) (hS : 0 < c.nsegs) (h : Inv2 c date K us d)
    (hty : ∀ y ∈ entsOf d.sets, Spec.OfType y.rep.type (K y.pid)) (hok : ∀ y ∈ entsOf d.sets, x.e.ptsf = true → x.e.pid = y.pid → x.Ok (K y.pid))
    (hf : ∀ y ∈ entsOf d.sets, Fits c y.rep.video ((unitsOf y.pid (us ++ [x] ++ rest)).map In.item)) :
    ∃ d', pes c date now d x.e x.bufs = some (d', true) ∧ Inv2 c date K (us ++ [x]) d' ∧ shape d'.sets = shape d.sets ∧ ∀ s, d.start = some s → d'.start = some s := by
  unfold pes
  by_cases hp : x.e.ptsf = true
  rotate_left
  · rw [if_pos (by simp [hp])]
    exact ⟨d, rfl, skip_eq h fun y _ hh => hp hh.1, rfl, fun _ hs => hs⟩
  rw [if_neg (by simp [hp])]
  cases hfind : findEnt d.sets x.e.pid with
  | none =>
    refine ⟨d, rfl, skip_eq h fun y hy hh => ?_, rfl, fun _ hs => hs⟩
    have := List.find?_eq_none.1 hfind y hy
    simp at this
    exact this hh.2.symm
  | some ent =>
    dsimp only
    have hmem : ent ∈ entsOf d.sets := List.mem_of_find?_eq_some hfind
    have hpid : ent.pid = x.e.pid := by simpa using List.find?_some hfind
    obtain ⟨parts, hent⟩ := h.ents ent hmem
    obtain ⟨r', closed, parts', hu, hg, hn⟩ := unit_eq hent.good (hok ent hmem hp hpid.symm) hA hS (hty ent hmem) hent.small
    obtain ⟨r1, r2, s1, s2, s3, s4, s5, s6, s7⟩ := unit_steps hA hu
    rw [s1, Option.bind_some, s3, Option.bind_some]
    dsimp only
    have htake := units_take (us := us) hp hpid.symm
    have uniq : ∀ y ∈ entsOf d.sets, y.pid = x.e.pid → y = ent := fun y hy he => nodup_pid h.nodup hy hmem (he.trans hpid.symm)
    -- the fields
    have b1 : ent.rep.bandwidth ≠ 0 → r1.bandwidth = ent.rep.bandwidth := bandwidth_kept s1
    have f1 : r1.files = ent.rep.files := by rw [s2]
    have ty2 : r2.type = ent.rep.type := by rw [s4.type, s2]
    have vi2 : r2.video = ent.rep.video := by rw [s4.video, s2]
    have hlen : ent.rep.segs.length = c.nsegs := by
      rcases hent.good.inv with ⟨-, -, -, -, hl⟩ | ⟨ps, i, p, -, hm⟩
      · exact hl
      · simpa using hm.ring.1
    have hfiles : r2.files = ent.rep.files ++ r2.files.drop r1.files.length := by
      cases closed with
      | false => rw [(s4.same rfl).1, f1]; simp
      | true =>
        obtain ⟨-, -, -, f, hf⟩ := s4.new rfl
        rw [hf, f1]; simp
    generalize hD : ({ d with sets := setRep d.sets x.e.pid r2, files := d.files ++ (r2.files.drop r1.files.length).map fun f => (segName x.e.pid f.1, f.2) } : Dash) = d1
    have d1sets : d1.sets = setRep d.sets x.e.pid r2 := by rw [← hD]
    have d1files : d1.files = d.files ++ (r2.files.drop r1.files.length).map fun f => (segName x.e.pid f.1, f.2) := by rw [← hD]
    have d1mpd : d1.mpd = d.mpd := by rw [← hD]
    have d1start : d1.start = d.start := by rw [← hD]
    -- the playlist
    have key : ∃ d2, (if closed then updatePlaylist c date now d1 else some d1) = some d2 ∧ d2.start = (if closed then some (d1.start.getD now) else d1.start) ∧ d2.sets = d1.sets ∧ 0 < d2.initLen ∧ 0 < d2.playlistLen ∧
        (∃ fs, d2.files = d1.files ++ fs ∧ (∀ pid t, lookup (segName pid t) fs = none) ∧ (closed = false → fs = []) ∧
          ((∀ y ∈ entsOf d1.sets, y.rep.bandwidth ≠ 0) → closed = true → ∀ y ∈ entsOf d1.sets, lookup (initName y.pid) fs = some (initT now y.rep))) ∧
        ((d2.mpd = d1.mpd ∧ (closed = false ∨ ∃ y ∈ entsOf d1.sets, y.rep.bandwidth = 0)) ∨
          (closed = true ∧ (∀ y ∈ entsOf d1.sets, y.rep.bandwidth ≠ 0) ∧ d2.mpd = some (mpdText c (date (d1.start.getD now)) (date now) d1.sets))) := by
      cases closed with
      | false =>
        refine ⟨d1, rfl, rfl, rfl, by rw [← hD]; exact h.initLen, by rw [← hD]; exact h.playlistLen, ⟨[], by simp, fun _ _ => rfl, fun _ => rfl, fun _ hh => nomatch hh⟩, .inl ⟨rfl, .inl rfl⟩⟩
      | true =>
        obtain ⟨d2, w1, w2⟩ := updatePlaylist_eq c date now d1 (by rw [← hD]; exact h.initLen) (by rw [← hD]; exact h.playlistLen)
        have hnd : ((entsOf d1.sets).map (·.pid)).Nodup := by
          have : (entsOf d1.sets).map (·.pid) = (entsOf d.sets).map (·.pid) := by
            rw [d1sets, ents_setRep, List.map_map]
            refine List.map_congr_left fun y _ => ?_
            simp only [Function.comp, setEnt]
            split <;> rfl
          rw [this]; exact h.nodup
        refine ⟨d2, w1, w2.start, w2.sets, w2.initLen, w2.playlistLen, ⟨_, w2.files, fun pid t => inits_seg _ _ _ _, (nomatch ·), fun hb _ y hy => inits_get hnd hy hb⟩, ?_⟩
        rcases w2.mpd with ⟨m1, m2⟩ | ⟨m1, m2⟩
        · exact .inl ⟨m1, .inr m2⟩
        · exact .inr ⟨rfl, m1, m2⟩
    obtain ⟨d2, k1, k0, k2, k3, k4, ⟨fs, k5, k6, k7, k8⟩, k9⟩ := key
    rw [k1, Option.bind_some, if_pos s5, s6]
    refine ⟨{ d2 with sets := setRep d2.sets x.e.pid r' }, rfl, ?_, ?_, ?_⟩
    rotate_left
    · show shape (setRep d2.sets x.e.pid r') = _
      rw [k2, d1sets, setRep_setRep]
      refine shape_setRep _ _ _ fun y hy he => ?_
      rw [uniq y hy he, s7.type, s7.video, ty2, vi2]
      exact ⟨rfl, rfl⟩
    · intro s hs
      show d2.start = _
      rw [k0, d1start, hs]
      split <;> rfl
    have hsets : setRep d2.sets x.e.pid r' = setRep d.sets x.e.pid r' := by rw [k2, d1sets, setRep_setRep]
    have hsmall : Small ent.rep.video parts' := by
      have hfit := hf ent hmem
      have e : (unitsOf ent.pid (us ++ [x] ++ rest)).map In.item = parts'.flatten ++ (unitsOf ent.pid rest).map In.item := by
        rw [next_flatten hn, hent.flat]
        have : unitsOf ent.pid (us ++ [x] ++ rest) = unitsOf ent.pid (us ++ [x]) ++ unitsOf ent.pid rest := by unfold unitsOf; rw [List.filter_append]
        rw [this, htake]
        simp
      rw [e] at hfit
      exact next_small hn hfit hent.good.nonempty
    constructor
    · show ((entsOf (setRep d2.sets x.e.pid r')).map (·.pid)).Nodup
      have : (entsOf (setRep d2.sets x.e.pid r')).map (·.pid) = (entsOf d.sets).map (·.pid) := by
        rw [hsets, ents_setRep, List.map_map]
        refine List.map_congr_left fun y _ => ?_
        simp only [Function.comp, setEnt]
        split <;> rfl
      rw [this]; exact h.nodup
    · exact k3
    · exact k4
    · intro y hy
      have hy : y ∈ entsOf (setRep d.sets x.e.pid r') := by rw [← hsets]; exact hy
      obtain ⟨z, hz, hpz, hc⟩ := mem_setRep hy
      rcases hc with ⟨hc, rfl⟩ | ⟨hc, rfl⟩
      · have := uniq z hz hc
        subst this
        refine ⟨parts', ?_⟩
        have e1 : r'.type = z.rep.type := by rw [s7.type, ty2]
        have e2 : r'.video = z.rep.video := by rw [s7.video, vi2]
        constructor
        · show Good c (K z.pid) r'.type r'.video r' parts' ((unitsOf z.pid (us ++ [x])).flatMap (·.nals))
          rw [e1, e2, htake, List.flatMap_append]
          simpa using hg
        · show parts'.flatten = (unitsOf z.pid (us ++ [x])).map In.item
          rw [next_flatten hn, hent.flat, htake, List.map_append]
          rfl
        · show Small r'.video parts'
          rw [e2]; exact hsmall
        · show Fresh c.nsegs r'
          have g1 : Fresh c.nsegs r1 := by rw [s2]; exact hent.fresh
          have g2 : Fresh c.nsegs r2 := fresh_close (by rw [s2]; exact hlen) g1 s4
          intro k
          rw [s7.seg, s7.segs]
          exact g2 k
        · show run c (newRep c r'.type r'.video) ((unitsOf z.pid (us ++ [x])).map fun y => (y.e, y.bufs)) = some (r', true)
          rw [e1, e2, htake, List.map_append]
          exact run_snoc (x.e, x.bufs) _ _ _ _ _ hent.ran hu
        · intro t
          show lookup (segName z.pid t) d2.files = lookup t r'.files
          rw [k5, d1files, lookup_append, k6, lookup_append, Option.none_or, hc, lookup_map (segName x.e.pid) (fun a b hab => (segName_inj hab).2), s7.files, hfiles, lookup_append]
          rw [← hc, hent.disk]
          congr 1
          rw [hfiles, f1]
          simp
      · obtain ⟨parts0, ho⟩ := h.ents y hz
        refine ⟨parts0, ?_⟩
        have e := units_skip (us := us) (x := x) (pid := y.pid) fun hh => hc hh.2.symm
        refine ⟨by rw [e]; exact ho.good, by rw [e]; exact ho.flat, ho.small, ho.fresh, by rw [e]; exact ho.ran, ?_⟩
        intro t
        show lookup (segName y.pid t) d2.files = _
        rw [k5, d1files, lookup_append, k6, lookup_append, Option.none_or, lookup_none, Option.none_or]
        · exact ho.disk t
        · intro f hf he
          obtain ⟨g, -, rfl⟩ := List.mem_map.1 hf
          exact hc (segName_inj he).1.symm
    · intro text ht
      have ht : d2.mpd = some text := ht
      -- bandwidths of the middle and of the end
      have mid : (∀ y ∈ entsOf d1.sets, y.rep.bandwidth ≠ 0) → ∀ y ∈ entsOf (setRep d2.sets x.e.pid r'), y.rep.bandwidth ≠ 0 := by
        intro hb y hy
        rw [hsets] at hy
        obtain ⟨z, hz, hpz, hc⟩ := mem_setRep hy
        rcases hc with ⟨hc, rfl⟩ | ⟨hc, rfl⟩
        · show r'.bandwidth ≠ 0
          rw [s7.bandwidth]
          refine hb ⟨z.pid, r2⟩ ?_
          rw [d1sets, ents_setRep]
          exact List.mem_map.2 ⟨z, hz, by unfold setEnt; rw [if_pos (by simpa using hc)]⟩
        · refine hb y ?_
          rw [d1sets, ents_setRep]
          exact List.mem_map.2 ⟨y, hz, by unfold setEnt; rw [if_neg (by simpa using hc)]⟩
      have before : (∀ y ∈ entsOf d.sets, y.rep.bandwidth ≠ 0) → ∀ y ∈ entsOf d1.sets, y.rep.bandwidth ≠ 0 := by
        intro hb y hy
        rw [d1sets] at hy
        obtain ⟨z, hz, hpz, hc⟩ := mem_setRep hy
        rcases hc with ⟨hc, rfl⟩ | ⟨hc, rfl⟩
        · show r2.bandwidth ≠ 0
          rw [s4.bandwidth, b1 (hb ent hmem)]
          exact hb ent hmem
        · exact hb y hz
      have facemid : faces (setRep d2.sets x.e.pid r') = faces d1.sets := by
        rw [k2]
        refine faces_setRep _ _ _ fun y hy he => ?_
        rw [d1sets] at hy
        obtain ⟨z, hz, hpz, hc⟩ := mem_setRep hy
        rcases hc with ⟨hc, rfl⟩ | ⟨hc, rfl⟩
        · unfold face
          dsimp only
          rw [s7.type, s7.video, s7.segs, s7.seg, s7.bandwidth]
        · exact absurd he hc
      rcases k9 with ⟨m1, m2⟩ | ⟨m1, m2, m3⟩
      · rw [m1, d1mpd] at ht
        obtain ⟨hb, snap, now', hsn⟩ := h.mpd text ht
        have hcl : closed = false := by
          rcases m2 with m2 | ⟨y, hy, hy0⟩
          · exact m2
          · exact absurd hy0 (before hb y hy)
        subst hcl
        refine ⟨mid (before hb), snap, now', ?_, ?_, fun y hy => (hsn.knows y hy).more x, ?_⟩
        · obtain ⟨s, hs, hs2⟩ := hsn.text
          refine ⟨s, ?_, hs2⟩
          show d2.start = _
          rw [k0, d1start, hs]
          rfl
        · show faces snap = faces (setRep d2.sets x.e.pid r')
          rw [hsn.faces, facemid, d1sets]
          refine (faces_setRep _ _ _ fun y hy he => ?_).symm
          rw [uniq y hy he]
          obtain ⟨-, e1, e2⟩ := s4.same rfl
          unfold face
          dsimp only
          rw [ty2, vi2, e1, e2, s4.bandwidth, b1 (hb ent hmem), s2]
        · intro y hy
          show lookup (initName y.pid) d2.files = _
          rw [k5, k7 rfl, List.append_nil, d1files, (s4.same rfl).1]
          simpa using hsn.inits y hy
      · rw [m3] at ht
        injection ht with ht
        refine ⟨mid m2, d1.sets, now, ⟨_, by show d2.start = _; rw [k0, m1]; rfl, ht.symm⟩, facemid.symm, ?_, ?_⟩
        · intro y hy
          rw [d1sets] at hy
          obtain ⟨z, hz, hpz, hc⟩ := mem_setRep hy
          rcases hc with ⟨hc, rfl⟩ | ⟨hc, rfl⟩
          · have := uniq z hz hc
            subst this
            refine Knows.more ⟨unitsOf z.pid us, [], z.rep, by simp, ?_, ?_, ?_, ?_, ?_⟩ x
            · show run c (newRep c r2.type r2.video) _ = _
              rw [ty2, vi2]
              exact hent.ran
            · show r2.sps = _; rw [s4.sps, s2]
            · show r2.pps = _; rw [s4.pps, s2]
            · show r2.avc = _; rw [s4.avc, s2]
            · show r2.aac = _; rw [s4.aac, s2]
          · obtain ⟨parts0, ho⟩ := h.ents y hz
            exact Knows.more ⟨unitsOf y.pid us, [], y.rep, by simp, ho.ran, rfl, rfl, rfl, rfl⟩ x
        · intro y hy
          show lookup (initName y.pid) d2.files = _
          rw [k5, lookup_append, k8 m2 m1 y hy]
          rfl

theorem runDash_eq {c : Conf} {date : Nat → Text} {K : Nat → Spec.Kind} (hA : 0 < c.analyze) (hS : 0 < c.nsegs) : ∀ (evs : List (Nat × In)) (us : List In) (d : Dash), Inv2 c date K us d →
    (∀ y ∈ entsOf d.sets, Spec.OfType y.rep.type (K y.pid)) → (∀ v ∈ evs, ∀ y ∈ entsOf d.sets, v.2.e.ptsf = true → v.2.e.pid = y.pid → v.2.Ok (K y.pid)) →
    (∀ y ∈ entsOf d.sets, Fits c y.rep.video ((unitsOf y.pid (us ++ evs.map (·.2))).map In.item)) →
    ∃ d', runDash c date d (evs.map fun v => (v.1, v.2.e, v.2.bufs)) = some (d', true) ∧ Inv2 c date K (us ++ evs.map (·.2)) d' ∧ shape d'.sets = shape d.sets ∧ ∀ s, d.start = some s → d'.start = some s
  | [], us, d, h, _, _, _ => ⟨d, rfl, by simpa using h, rfl, fun _ hs => hs⟩
  | v :: evs, us, d, h, hty, hok, hf => by
    have e : us ++ (v :: evs).map (·.2) = us ++ [v.2] ++ evs.map (·.2) := by simp
    rw [e] at hf ⊢
    obtain ⟨d1, h1, h2, h3, hst⟩ := pes_eq v.1 hA hS h hty (hok v List.mem_cons_self) hf
    have tr : ∀ y ∈ entsOf d1.sets, ∃ z ∈ entsOf d.sets, z.pid = y.pid ∧ z.rep.type = y.rep.type ∧ z.rep.video = y.rep.video := by
      intro y hy
      have hm : (y.pid, y.rep.type, y.rep.video) ∈ (entsOf d.sets).map (fun x => (x.pid, x.rep.type, x.rep.video)) := by
        rw [← shape_pids h3]
        exact List.mem_map.2 ⟨y, hy, rfl⟩
      obtain ⟨z, hz, hh⟩ := List.mem_map.1 hm
      simp only [Prod.mk.injEq] at hh
      exact ⟨z, hz, hh.1, hh.2.1, hh.2.2⟩
    obtain ⟨d', h4, h5, h6, hst2⟩ := runDash_eq hA hS evs (us ++ [v.2]) d1 h2
      (by intro y hy; obtain ⟨z, hz, a, b, _⟩ := tr y hy; rw [← a, ← b]; exact hty z hz)
      (by intro w hw y hy; obtain ⟨z, hz, a, _, _⟩ := tr y hy; rw [← a]; exact hok w (List.mem_cons_of_mem _ hw) z hz)
      (by intro y hy; obtain ⟨z, hz, a, _, b⟩ := tr y hy; rw [← a, ← b]; exact hf z hz)
    refine ⟨d', ?_, h5, h6.trans h3, fun s hs => hst2 s (hst s hs)⟩
    rw [List.map_cons]
    unfold runDash
    rw [h1, Option.bind_some, if_pos rfl]
    exact h4

end Verif.TsDash
