import Verif.TsDash.MpdStart
import Verif.TsDash.MpdRate
/- C79: DASH of transport streams as a whole: what a player finds. -/
namespace Verif.TsDash
open Verif Verif.TsIn
open Verif.HlsRestore (Text dec)
open Verif.Mp4 (str readInit)
open Verif.Xml (Plain)

/-- What is assumed of the streams of a program (number and type): numbers are not there twice; each stream has units of its kind (`In.Ok`, C77), that fit into segments (`Fits`, C77). -/
structure Program (c : Conf) (K : Nat → Spec.Kind) (ess : List (Nat × Nat)) (evs : List (Nat × In)) : Prop where
  analyze : 0 < c.analyze
  nsegs : 0 < c.nsegs
  nodup : (ess.map (·.1)).Nodup
  types : ∀ e ∈ ess, Spec.OfType e.2 (K e.1)
  units : ∀ v ∈ evs, ∀ e ∈ ess, v.2.e.ptsf = true → v.2.e.pid = e.1 → v.2.Ok (K e.1)
  fits : ∀ video, ∀ e ∈ Spec.streams video ess, Fits c video ((unitsOf e.1 (evs.map (·.2))).map In.item)

/-- Times of a stream do not go back. -/
def Forward (ess : List (Nat × Nat)) (us : List In) : Prop := ∀ e ∈ ess, ((unitsOf e.1 us).map (·.e.dts)).Pairwise (· ≤ ·)

/-- What a player can do with a representation of the stream `pid` -/
structure Playable (c : Conf) (K : Nat → Spec.Kind) (us : List In) (files : List (Text × Bytes)) (pid type : Nat) (video : Bool) (r : Mpd.Repr) : Prop where
  id : r.id = (toString pid).toList
  timescale : r.timescale = 90000
  bandwidth : r.bandwidth ≠ 0
  /-- The bandwidth is the rate of the stream, over a time. -/
  rate : Spec.Rate c.analyze ((unitsOf pid us).map fun x => (x.e.dts, x.bufs.flatten.length)) r.bandwidth
  /-- The units of the stream are cut by the rules, the last segments that ended are listed, and each one that is listed can be played. -/
  segments : ∃ parts, parts.flatten = (unitsOf pid us).map In.item ∧ Spec.Cuts (rules c video) parts ∧ r.times = Spec.listed c.nsegs parts ∧ ∀ x ∈ r.times, Spec.Plays files r video parts x
  /-- The initialization segment is there; it and the playlist say what some first units of the stream said. -/
  init : ∃ name file e pre rest, Mpd.initName r = some name ∧ Spec.onDisk files name = some file ∧
    readInit file = some ⟨90000, 1, 1, if video then str "vide" else str "soun", entryName type video, e⟩ ∧ unitsOf pid us = pre ++ rest ∧
    Spec.Described (K pid) type video (pre.map fun x => (x.bufs.flatten, x.nals)) (Mpd.readCodec r.codecs) e

theorem shape_setsOf (c : Conf) (ess : List (Nat × Nat)) : shape (setsOf c ess) = (Spec.kinds ess).map fun v => (v, (Spec.streams v ess).map fun e => (e.1, e.2, v)) := by
  unfold shape setsOf
  rw [List.map_map]
  refine List.map_congr_left fun v _ => ?_
  simp only [Function.comp, List.map_map]
  rfl

theorem program_run {c : Conf} {date : Nat → Text} {K : Nat → Spec.Kind} {ess : List (Nat × Nat)} {evs : List (Nat × In)} (hp : Program c K ess evs) :
    ∃ d, runDash c date (pmt c {} ess) (evs.map fun v => (v.1, v.2.e, v.2.bufs)) = some (d, true) ∧ Inv2 c date K (evs.map (·.2)) d ∧ shape d.sets = shape (setsOf c ess) := by
  have hm : ∀ y ∈ entsOf (pmt c {} ess).sets, ∃ type v, (y.pid, type) ∈ Spec.streams v ess ∧ y = ⟨y.pid, newRep c type v⟩ := by
    intro y hy
    rw [pmt_sets] at hy
    obtain ⟨type, v, h1, h2⟩ := mem_setsOf hy
    exact ⟨type, v, h1, h2⟩
  obtain ⟨d, h1, h2, h3, -⟩ := runDash_eq (date := date) (K := K) hp.analyze hp.nsegs evs [] (pmt c {} ess) (inv2_start c date K hp.nodup)
    (by intro y hy; obtain ⟨type, v, h1, h2⟩ := hm y hy; rw [h2]; exact hp.types _ (streams_types h1).1)
    (by intro w hw y hy; obtain ⟨type, v, h1, h2⟩ := hm y hy; exact hp.units w hw _ (streams_types h1).1)
    (by intro y hy; obtain ⟨type, v, h1, h2⟩ := hm y hy; rw [h2]; exact hp.fits v _ h1)
  refine ⟨d, h1, by simpa using h2, by rw [h3, pmt_sets]⟩

theorem face_other {snap sets : List ReSet} (h : faces snap = faces sets) {x : Ent} (hx : x ∈ entsOf snap) : ∃ y ∈ entsOf sets, face y = face x := by
  have hm : face x ∈ (entsOf snap).map face := List.mem_map.2 ⟨x, hx, rfl⟩
  rw [faces_ents h] at hm
  exact List.mem_map.1 hm

/-- **C79.** Whatever the units of the streams of a program are, in whatever order and at whatever times they come: all are taken. A playlist, as soon as there is one, is read by a player as a live presentation with an
adaptation set for video and one for sound (as far as there are such streams), with a representation for each stream; each representation can be played (`Playable`): its initialization segment is on disk
and says what the stream said, exactly the last segments of its stream are listed, each is on disk under the name the playlist gives it, and holds what the stream carried from the time on and for as long as
the playlist says. -/
theorem C79_player (c : Conf) (date : Nat → Text) (K : Nat → Spec.Kind) (ess : List (Nat × Nat)) (evs : List (Nat × In)) (hp : Program c K ess evs) (hd : ∀ t, Plain (date t)) (hf : Forward ess (evs.map (·.2))) :
    ∃ d, runDash c date (pmt c {} ess) (evs.map fun v => (v.1, v.2.e, v.2.bufs)) = some (d, true) ∧
      ∀ text, d.mpd = some text → ∃ doc, Mpd.readMpd text = some doc ∧ doc.kind = Mpd.s "dynamic" ∧ doc.sets.map (fun a => (a.mime, a.reps.map (·.id))) = Spec.wanted ess ∧
        ∀ a ∈ doc.sets, ∀ r ∈ a.reps, ∃ pid type video, (pid, type) ∈ Spec.streams video ess ∧ a.mime = (if video then Mpd.s "video/mp4" else Mpd.s "audio/mp4") ∧
          Playable c K (evs.map (·.2)) d.files pid type video r := by
  obtain ⟨d, h1, h2, h3⟩ := program_run (date := date) hp
  refine ⟨d, h1, ?_⟩
  intro text ht
  obtain ⟨hb, snap, now, hs⟩ := h2.mpd text ht
  obtain ⟨s, -, htx⟩ := hs.text
  have hsh : shape snap = (Spec.kinds ess).map fun v => (v, (Spec.streams v ess).map fun e => (e.1, e.2, v)) := by rw [shape_faces hs.faces, h3, shape_setsOf]
  have hrd := readMpd_eq c _ _ snap (hd s) (hd now)
  rw [← htx] at hrd
  refine ⟨_, hrd, rfl, ?_, ?_⟩
  · have e1 : (docOf c (date s) (date now) snap).sets.map (fun a => (a.mime, a.reps.map (·.id))) =
        (shape snap).map fun x => (if x.1 then Mpd.s "video/mp4" else Mpd.s "audio/mp4", x.2.map fun y => dec y.1) := by
      unfold docOf shape
      rw [List.map_map, List.map_map]
      refine List.map_congr_left fun x _ => ?_
      simp only [Function.comp, setOf, List.map_map]
      rfl
    rw [e1, hsh, List.map_map]
    unfold Spec.wanted
    refine List.map_congr_left fun v _ => ?_
    simp only [Function.comp, List.map_map]
    congr 1
    refine List.map_congr_left fun e _ => ?_
    exact dec_repr e.1
  · intro a ha r hr
    obtain ⟨st, hst, rfl⟩ := List.mem_map.1 ha
    obtain ⟨x, hx, rfl⟩ := List.mem_map.1 hr
    have hxm : x ∈ entsOf snap := List.mem_flatMap.2 ⟨st, hst, hx⟩
    -- its stream
    obtain ⟨v, hv, hstr, hvid, hxv⟩ : ∃ v, st.video = v ∧ (x.pid, x.rep.type) ∈ Spec.streams v ess ∧ x.rep.video = v ∧ True := by
      have hm : (st.video, st.ents.map fun x => (x.pid, x.rep.type, x.rep.video)) ∈ shape snap := List.mem_map.2 ⟨st, hst, rfl⟩
      rw [hsh] at hm
      obtain ⟨v, -, he⟩ := List.mem_map.1 hm
      simp only [Prod.mk.injEq] at he
      have hm2 : (x.pid, x.rep.type, x.rep.video) ∈ st.ents.map fun x => (x.pid, x.rep.type, x.rep.video) := List.mem_map.2 ⟨x, hx, rfl⟩
      rw [← he.2] at hm2
      obtain ⟨e, hm3, he2⟩ := List.mem_map.1 hm2
      simp only [Prod.mk.injEq] at he2
      obtain ⟨e1, e2⟩ := e
      dsimp only at he2
      rw [← he2.1, ← he2.2.1]
      exact ⟨v, he.1.symm, hm3, he2.2.2.symm, trivial⟩
    obtain ⟨hess, htak⟩ := streams_types hstr
    refine ⟨x.pid, x.rep.type, v, hstr, by show (if st.video = true then _ else _) = _; rw [hv], ?_⟩
    obtain ⟨y, hy, hface⟩ := face_other hs.faces hxm
    unfold face at hface
    simp only [Prod.mk.injEq] at hface
    obtain ⟨f1, f2, f3, f4, f5, f6⟩ := hface
    obtain ⟨parts, hent⟩ := h2.ents y hy
    have hgood : Good c (K x.pid) x.rep.type v y.rep parts ((unitsOf x.pid (evs.map (·.2))).flatMap (·.nals)) := by
      have := hent.good
      rw [f1, f2, f3, hvid] at this
      exact this
    have hflat : parts.flatten = (unitsOf x.pid (evs.map (·.2))).map In.item := by rw [← f1]; exact hent.flat
    have hsorted : (parts.flatten.map (·.u.dts)).Pairwise (· ≤ ·) := by
      rw [hflat, List.map_map]
      exact hf _ hess
    have htimes : timesOf x.rep = Spec.listed c.nsegs parts := by
      have := good_times hgood hent.fresh hsorted
      unfold timesOf ringOf at this ⊢
      rw [f4, f5] at this
      exact this
    constructor
    · exact dec_repr x.pid
    · rfl
    · show x.rep.bandwidth ≠ 0
      rw [← f6]
      exact hb y hy
    · have := (measured_run hp.analyze _ [] _ _ (measured_new c y.rep.type y.rep.video) hent.ran).1.rate (hb y hy)
      rw [f6, f1, List.nil_append, List.map_map] at this
      exact this
    · refine ⟨parts, hflat, (good_seg hgood).2.2.2.1, htimes, ?_⟩
      intro z hz
      have hz : z ∈ timesOf x.rep := hz
      rw [htimes] at hz
      obtain ⟨number, p, q, file, g1, g2, g3, g4, g5⟩ := good_disk hgood hsorted hz
      refine ⟨number, p, q, segName x.pid z.1, file, g1, g2, g3, mediaName_eq x z.1, ?_, g5⟩
      rw [lookup_onDisk, ← f1, hent.disk]
      exact g4
    · obtain ⟨pre, rest, r, k1, k2, k3, k4, k5, k6⟩ := hs.knows x hxm
      rw [hvid] at k2
      have hpre : ∀ z ∈ pre, z.Ok (K x.pid) := by
        intro z hz
        have hzu : z ∈ unitsOf x.pid (evs.map (·.2)) := by rw [k1]; exact List.mem_append_left _ hz
        obtain ⟨hz1, hz2⟩ := List.mem_filter.1 hzu
        obtain ⟨w, hw, rfl⟩ := List.mem_map.1 hz1
        simp only [Bool.and_eq_true, beq_iff_eq] at hz2
        exact hp.units w hw _ hess hz2.1 hz2.2
      have hfit : Fits c v (pre.map In.item) := by
        have := hp.fits v _ hstr
        dsimp only at this
        rw [k1, List.map_append] at this
        exact fits_prefix this
      obtain ⟨e, t1, t2⟩ := told_all now hp.analyze hp.nsegs (hp.types _ hess) htak hvid hpre hfit k2 k3 k4 k5 k6
      exact ⟨initName x.pid, _, e, pre, rest, initName_eq x, by rw [lookup_onDisk]; exact hs.inits x hxm, t1, k1, t2⟩

theorem runDash_append (c : Conf) (date : Nat → Text) : ∀ (a b : List (Nat × Es × List Bytes)) (d d' : Dash), runDash c date d a = some (d', true) → runDash c date d (a ++ b) = runDash c date d' b
  | [], b, d, d', h => by
    have : d = d' := congrArg Prod.fst (Option.some.inj h)
    rw [this]
    rfl
  | u :: a, b, d, d', h => by
    unfold runDash at h
    show (pes c date u.1 d u.2.1 u.2.2).bind _ = _
    obtain ⟨x, hx, h⟩ := Option.bind_eq_some_iff.1 h
    rw [hx, Option.bind_some]
    split at h
    · rename_i hb
      rw [if_pos hb]
      exact runDash_append c date a b x.1 d' h
    · exact nomatch congrArg Prod.snd (Option.some.inj h)

/-- **C79.** Once there is a playlist, there always is one; the time from which a player counts (`availabilityStartTime`) never changes. -/
theorem C79_stays (c : Conf) (date : Nat → Text) (K : Nat → Spec.Kind) (ess : List (Nat × Nat)) (evs more : List (Nat × In)) (hp : Program c K ess (evs ++ more)) (hd : ∀ t, Plain (date t)) (d d' : Dash) (text : Text)
    (h1 : runDash c date (pmt c {} ess) (evs.map fun v => (v.1, v.2.e, v.2.bufs)) = some (d, true)) (h2 : runDash c date (pmt c {} ess) ((evs ++ more).map fun v => (v.1, v.2.e, v.2.bufs)) = some (d', true))
    (ht : d.mpd = some text) : ∃ text' doc doc', d'.mpd = some text' ∧ Mpd.readMpd text = some doc ∧ Mpd.readMpd text' = some doc' ∧ doc'.start = doc.start := by
  have hp1 : Program c K ess evs := by
    refine ⟨hp.analyze, hp.nsegs, hp.nodup, hp.types, fun v hv => hp.units v (List.mem_append_left _ hv), fun video e he => ?_⟩
    have := hp.fits video e he
    rw [List.map_append, show unitsOf e.1 (evs.map (·.2) ++ more.map (·.2)) = unitsOf e.1 (evs.map (·.2)) ++ unitsOf e.1 (more.map (·.2)) by unfold unitsOf; rw [List.filter_append], List.map_append] at this
    exact fits_prefix this
  obtain ⟨d1, r1, i1, s1⟩ := program_run (date := date) hp1
  rw [h1] at r1
  have : d = d1 := congrArg Prod.fst (Option.some.inj r1)
  subst this
  obtain ⟨hb, snap, now, hs⟩ := i1.mpd text ht
  obtain ⟨s, hst, htx⟩ := hs.text
  have hrd := readMpd_eq c _ _ snap (hd s) (hd now)
  rw [← htx] at hrd
  have hm : ∀ y ∈ entsOf d.sets, ∃ z ∈ Spec.streams y.rep.video ess, z = (y.pid, y.rep.type) := by
    intro y hy
    have hy2 : (y.pid, y.rep.type, y.rep.video) ∈ (entsOf d.sets).map (fun x => (x.pid, x.rep.type, x.rep.video)) := List.mem_map.2 ⟨y, hy, rfl⟩
    rw [shape_pids s1] at hy2
    obtain ⟨z, hz, he⟩ := List.mem_map.1 hy2
    obtain ⟨type, v, h3, h4⟩ := mem_setsOf hz
    rw [h4] at he
    simp only [Prod.mk.injEq] at he
    have hv : v = y.rep.video := he.2.2
    rw [hv] at h3
    refine ⟨_, h3, ?_⟩
    rw [he.1, ← he.2.1]
    rfl
  obtain ⟨d2, r2, i2, -, st2⟩ := runDash_eq (date := date) (K := K) hp.analyze hp.nsegs more (evs.map (·.2)) d i1
    (by intro y hy; obtain ⟨z, hz, he⟩ := hm y hy; have := hp.types z (streams_types hz).1; rw [he] at this; exact this)
    (by intro w hw y hy; obtain ⟨z, hz, he⟩ := hm y hy; have := hp.units w (List.mem_append_right _ hw) z (streams_types hz).1; rw [he] at this; exact this)
    (by intro y hy; obtain ⟨z, hz, he⟩ := hm y hy; have := hp.fits y.rep.video z hz; rw [he, List.map_append] at this; exact this)
  rw [List.map_append, runDash_append c date _ _ _ _ h1, r2] at h2
  have : d2 = d' := congrArg Prod.fst (Option.some.inj h2)
  subst this
  have hmpd : ∃ text', d2.mpd = some text' := by
    clear i2 st2 hs hb
    have keep : ∀ (l : List (Nat × Es × List Bytes)) (d d' : Dash) (b : Bool), runDash c date d l = some (d', b) → d.mpd.isSome = true → d'.mpd.isSome = true := by
      intro l
      induction l with
      | nil => intro d d' b h hh; have e : d = d' := congrArg Prod.fst (Option.some.inj h); rw [← e]; exact hh
      | cons u l ih =>
        intro d d' b h hh
        unfold runDash at h
        obtain ⟨x, hx, h⟩ := Option.bind_eq_some_iff.1 h
        have hx1 : x.1.mpd.isSome = true := by
          unfold pes at hx
          split at hx
          · rw [← Option.some.inj hx]; exact hh
          · split at hx
            · rw [← Option.some.inj hx]; exact hh
            · obtain ⟨r, -, hx⟩ := Option.bind_eq_some_iff.1 hx
              obtain ⟨y, -, hx⟩ := Option.bind_eq_some_iff.1 hx
              obtain ⟨d3, hd3, hx⟩ := Option.bind_eq_some_iff.1 hx
              have h3 : d3.mpd.isSome = true := by
                split at hd3
                · unfold updatePlaylist at hd3
                  obtain ⟨z, -, hd3⟩ := Option.bind_eq_some_iff.1 hd3
                  dsimp only at hd3
                  split at hd3
                  · rw [← Option.some.inj hd3]; exact hh
                  · obtain ⟨w, -, rfl⟩ := Option.map_eq_some_iff.1 hd3
                    rfl
                · rw [← Option.some.inj hd3]; exact hh
              dsimp only at hx
              split at hx
              · obtain ⟨w, -, rfl⟩ := Option.map_eq_some_iff.1 hx
                exact h3
              · rw [← Option.some.inj hx]; exact h3
        split at h
        · exact ih x.1 d' b h hx1
        · have e : x.1 = d' := congrArg Prod.fst (Option.some.inj h)
          rw [← e]; exact hx1
    have := keep _ _ _ _ r2 (by rw [ht]; rfl)
    exact Option.isSome_iff_exists.1 this
  obtain ⟨text', ht'⟩ := hmpd
  obtain ⟨-, snap', now', hs'⟩ := i2.mpd text' ht'
  obtain ⟨s', hst', htx'⟩ := hs'.text
  have hrd' := readMpd_eq c _ _ snap' (hd s') (hd now')
  rw [← htx'] at hrd'
  rw [st2 s hst] at hst'
  injection hst' with hst'
  subst hst'
  exact ⟨_, _, _, ht', hrd, hrd', rfl⟩

/-- What is listed follows without gaps: a segment begins when the one before it ends, for times that do not go back. -/
theorem C79_gapless (n : Nat) (parts : List (List Spec.Item)) (hs : (parts.flatten.map (·.u.dts)).Pairwise (· ≤ ·)) (a : Nat) (x y : Nat × Nat)
    (hx : (Spec.listed n parts)[a]? = some x) (hy : (Spec.listed n parts)[a + 1]? = some y) : x.1 + x.2 = y.1 := by
  have hss := hs.sublist (starts_sub parts)
  have key : ∀ (S : List Nat), S.Pairwise (· ≤ ·) → ∀ (a : Nat) (x y : Nat × Nat), ((Spec.gaps S).filter fun x => decide (x.2 ≠ 0))[a]? = some x →
      ((Spec.gaps S).filter fun x => decide (x.2 ≠ 0))[a + 1]? = some y → x.1 + x.2 = y.1 := by
    have first : ∀ (S : List Nat) (t : Nat) (y : Nat × Nat), ((Spec.gaps (t :: S)).filter fun x => decide (x.2 ≠ 0))[0]? = some y → (t :: S).Pairwise (· ≤ ·) → y.1 = t := by
      intro S
      induction S with
      | nil => intro t y h; simp [Spec.gaps] at h
      | cons u S ih =>
        intro t y h hp
        rw [Spec.gaps] at h
        by_cases h0 : u - t = 0
        · rw [List.filter_cons_of_neg (by simpa using h0)] at h
          have hle : t ≤ u := (List.pairwise_cons.1 hp).1 u List.mem_cons_self
          have := ih u y h (List.pairwise_cons.1 hp).2
          omega
        · rw [List.filter_cons_of_pos (by simpa using h0)] at h
          simp at h
          rw [← h]
    intro S
    induction S with
    | nil => intro _ a x y h; simp [Spec.gaps] at h
    | cons t S ih =>
      intro hp a x y h1 h2
      cases S with
      | nil => simp [Spec.gaps] at h1
      | cons u S =>
        have hle : t ≤ u := (List.pairwise_cons.1 hp).1 u List.mem_cons_self
        have hp' := (List.pairwise_cons.1 hp).2
        rw [Spec.gaps] at h1 h2
        by_cases h0 : u - t = 0
        · rw [List.filter_cons_of_neg (by simpa using h0)] at h1 h2
          exact ih hp' a x y h1 h2
        · rw [List.filter_cons_of_pos (by simpa using h0)] at h1 h2
          cases a with
          | zero =>
            simp only [List.getElem?_cons_zero, Option.some.injEq] at h1
            rw [List.getElem?_cons_succ] at h2
            have := first S u y h2 hp'
            rw [← h1, this]
            show t + (u - t) = u
            omega
          | succ a =>
            rw [List.getElem?_cons_succ] at h1 h2
            exact ih hp' a x y h1 h2
  have drop : ∀ (k : Nat) (S : List Nat), (Spec.gaps S).drop k = Spec.gaps (S.drop k) := by
    intro k
    induction k with
    | zero => intro S; rfl
    | succ k ih =>
      intro S
      match S with
      | [] => simp [Spec.gaps]
      | [t] => simp [Spec.gaps]
      | t :: u :: S => rw [Spec.gaps, List.drop_succ_cons, ih, List.drop_succ_cons]
  unfold Spec.listed Spec.lastOf at hx hy
  rw [drop] at hx hy
  exact key _ (hss.sublist (List.drop_sublist _ _)) a x y hx hy

/-- The streams of a program and their representations -/
theorem ents_stream {c : Conf} {ess : List (Nat × Nat)} {sets : List ReSet} (h : shape sets = shape (setsOf c ess)) {y : Ent} (hy : y ∈ entsOf sets) : (y.pid, y.rep.type) ∈ Spec.streams y.rep.video ess := by
  have hy2 : (y.pid, y.rep.type, y.rep.video) ∈ (entsOf sets).map (fun x => (x.pid, x.rep.type, x.rep.video)) := List.mem_map.2 ⟨y, hy, rfl⟩
  rw [shape_pids h] at hy2
  obtain ⟨z, hz, he⟩ := List.mem_map.1 hy2
  obtain ⟨type, v, h3, h4⟩ := mem_setsOf hz
  rw [h4] at he
  simp only [Prod.mk.injEq] at he
  have hv : v = y.rep.video := he.2.2
  have ht : type = y.rep.type := he.2.1
  rw [hv, he.1, ht] at h3
  exact h3

theorem streams_ent {c : Conf} {ess : List (Nat × Nat)} {sets : List ReSet} (h : shape sets = shape (setsOf c ess)) {video : Bool} {e : Nat × Nat} (he : e ∈ Spec.streams video ess) : ∃ y ∈ entsOf sets, y.pid = e.1 := by
  have hk : video ∈ Spec.kinds ess := (kinds_mem ess video).2 (List.ne_nil_of_mem he)
  have hm : (⟨e.1, newRep c e.2 video⟩ : Ent) ∈ entsOf (setsOf c ess) := by
    unfold entsOf setsOf
    exact List.mem_flatMap.2 ⟨_, List.mem_map.2 ⟨video, hk, rfl⟩, List.mem_map.2 ⟨e, he, rfl⟩⟩
  have hm2 : (e.1, e.2, video) ∈ (entsOf (setsOf c ess)).map (fun x => (x.pid, x.rep.type, x.rep.video)) := List.mem_map.2 ⟨_, hm, rfl⟩
  rw [← shape_pids h] at hm2
  obtain ⟨y, hy, hye⟩ := List.mem_map.1 hm2
  simp only [Prod.mk.injEq] at hye
  exact ⟨y, hy, hye.1⟩

/-- All streams of a program have a rate of their own (not 0), by the units that have come. -/
def AllRates (c : Conf) (ess : List (Nat × Nat)) (us : List In) : Prop :=
  ∀ video, ∀ e ∈ Spec.streams video ess, ∃ rate, rate ≠ 0 ∧ Spec.Rate c.analyze ((unitsOf e.1 us).map fun x => (x.e.dts, x.bufs.flatten.length)) rate

/-- **C79.** As soon as the rates of all streams are known, whatever is written to disk comes with a playlist. -/
theorem C79_appears (c : Conf) (date : Nat → Text) (K : Nat → Spec.Kind) (ess : List (Nat × Nat)) (evs : List (Nat × In)) (v : Nat × In) (hp : Program c K ess (evs ++ [v])) (d d' : Dash)
    (h1 : runDash c date (pmt c {} ess) (evs.map fun v => (v.1, v.2.e, v.2.bufs)) = some (d, true)) (h2 : runDash c date (pmt c {} ess) ((evs ++ [v]).map fun v => (v.1, v.2.e, v.2.bufs)) = some (d', true))
    (hr : AllRates c ess ((evs ++ [v]).map (·.2))) (hf : d'.files ≠ d.files) : d'.mpd.isSome = true := by
  obtain ⟨d2, r2, i2, s2⟩ := program_run (date := date) hp
  rw [h2] at r2
  have : d' = d2 := congrArg Prod.fst (Option.some.inj r2)
  subst this
  -- all are known in the end
  have hk : ∀ y ∈ entsOf d'.sets, y.rep.bandwidth ≠ 0 := by
    intro y hy
    obtain ⟨parts, hent⟩ := i2.ents y hy
    obtain ⟨rate, k1, k2⟩ := hr _ _ (ents_stream s2 hy)
    refine known_run hp.analyze hent.ran k1 ?_
    rw [List.map_map]
    exact k2
  rw [List.map_append, runDash_append c date _ _ _ _ h1] at h2
  obtain ⟨x, hx, h2⟩ := Option.bind_eq_some_iff.1 h2
  split at h2
  rotate_left
  · exact nomatch congrArg Prod.snd (Option.some.inj h2)
  have hxd : x.1 = d' := congrArg Prod.fst (Option.some.inj h2)
  unfold pes at hx
  split at hx
  · exact absurd (by rw [← hxd, ← Option.some.inj hx]) hf
  split at hx
  · exact absurd (by rw [← hxd, ← Option.some.inj hx]) hf
  rename_i ent hfind
  obtain ⟨q1, g1, hx⟩ := Option.bind_eq_some_iff.1 hx
  obtain ⟨q2, g2, hx⟩ := Option.bind_eq_some_iff.1 hx
  dsimp only at hx
  obtain ⟨d3, g3, hx⟩ := Option.bind_eq_some_iff.1 hx
  have hc := closed_eq g2
  -- after copying, rates are as they were
  have hfin : ∃ q, d'.sets = setRep d3.sets v.2.e.pid q ∧ q.bandwidth = q2.1.bandwidth ∧ d'.files = d3.files ∧ d'.mpd = d3.mpd := by
    have ho := like_open q2.1 v.2.e
    split at hx
    · obtain ⟨y, hy, rfl⟩ := Option.map_eq_some_iff.1 hx
      have hs := same_copy hy
      exact ⟨y.1, by rw [← hxd], by rw [hs.bandwidth, ho.bandwidth], by rw [← hxd], by rw [← hxd]⟩
    · have hx := Option.some.inj hx
      exact ⟨_, by rw [← hxd, ← hx], ho.bandwidth, by rw [← hxd, ← hx], by rw [← hxd, ← hx]⟩
  obtain ⟨q, w1, w2, w3, w4⟩ := hfin
  rw [w4]
  split at g3
  rotate_left
  · rename_i hcl
    have hcl : q2.2 = false := by simpa using hcl
    have hsame := (hc.same hcl).1
    have g3 := Option.some.inj g3
    exact absurd (by rw [w3, ← g3]; simp [hsame]) hf
  unfold updatePlaylist at g3
  obtain ⟨z, -, g3⟩ := Option.bind_eq_some_iff.1 g3
  dsimp only at g3
  split at g3
  · rename_i hany
    exfalso
    have g3 := Option.some.inj g3
    have e3 : d3.sets = setRep d.sets v.2.e.pid q2.1 := by rw [← g3]
    obtain ⟨y, hy, hy0⟩ := List.any_eq_true.1 hany
    have hy0 : y.rep.bandwidth = 0 := by simpa using hy0
    rw [← e3] at hy
    obtain ⟨st, hst, hy⟩ := List.mem_flatMap.1 hy
    have hmem : (if y.pid == v.2.e.pid then { y with rep := q } else y) ∈ entsOf d'.sets := by
      rw [w1]
      unfold setRep entsOf
      exact List.mem_flatMap.2 ⟨_, List.mem_map.2 ⟨st, hst, rfl⟩, List.mem_map.2 ⟨y, hy, rfl⟩⟩
    have hb := hk _ hmem
    by_cases hpid : y.pid = v.2.e.pid
    · rw [if_pos (by simpa using hpid)] at hb
      -- y is the one
      rw [e3] at hst
      obtain ⟨st0, -, rfl⟩ := List.mem_map.1 hst
      obtain ⟨y0, -, hy1⟩ := List.mem_map.1 hy
      have hrep : y.rep = q2.1 := by
        by_cases h0 : y0.pid = v.2.e.pid
        · rw [if_pos (by simpa using h0)] at hy1; rw [← hy1]
        · rw [if_neg (by simpa using h0)] at hy1
          rw [hy1] at h0
          exact absurd hpid h0
      dsimp only at hb
      rw [w2, ← hrep] at hb
      exact hb hy0
    · rw [if_neg (by simpa using hpid)] at hb
      exact hb hy0
  · obtain ⟨w, -, rfl⟩ := Option.map_eq_some_iff.1 g3
    rfl

/-- **C79 (violation).** If one of the streams that the program has by its PMT sends nothing (sound that is announced and silent, say), there never is a playlist, whatever the others send. -/
theorem C79_silent_violation (c : Conf) (date : Nat → Text) (K : Nat → Spec.Kind) (ess : List (Nat × Nat)) (evs : List (Nat × In)) (hp : Program c K ess evs) (video : Bool) (e : Nat × Nat) (he : e ∈ Spec.streams video ess)
    (hs : ∀ v ∈ evs, v.2.e.pid ≠ e.1) : ∃ d, runDash c date (pmt c {} ess) (evs.map fun v => (v.1, v.2.e, v.2.bufs)) = some (d, true) ∧ d.mpd = none := by
  obtain ⟨d, r, i, s⟩ := program_run (date := date) hp
  refine ⟨d, r, ?_⟩
  cases hm : d.mpd with
  | none => rfl
  | some text =>
    exfalso
    obtain ⟨y, hy, hye⟩ := streams_ent s he
    obtain ⟨hb, -⟩ := i.mpd text hm
    obtain ⟨parts, hent⟩ := i.ents y hy
    have hu : unitsOf y.pid (evs.map (·.2)) = [] := by
      refine List.filter_eq_nil_iff.2 fun x hx => ?_
      obtain ⟨v, hv, rfl⟩ := List.mem_map.1 hx
      have := hs v hv
      rw [hye]
      simp [this]
    have hran := hent.ran
    rw [hu] at hran
    have : newRep c y.rep.type y.rep.video = y.rep := congrArg Prod.fst (Option.some.inj hran)
    exact hb y hy (by rw [← this]; rfl)

end Verif.TsDash
