import Verif.TsDash.MpdRing
import Verif.TsDash.MpdHeard
import Verif.TsDash.InitProps
/- The sets that come of a PMT; what a decoder learns -/
namespace Verif.TsDash
open Verif Verif.TsIn
open Verif.HlsRestore (Text dec)
open Verif.Mp4 (str readInit)
open Verif.BitOp (bitsOf bitEnc bitVal byteBits)

/-! ### Sets -/

theorem taken_eq (t : Nat) : taken t = if Spec.videoTypes.contains t then some true else if Spec.soundTypes.contains t then some false else none := by
  unfold taken Spec.videoTypes Spec.soundTypes
  simp only [List.contains_cons, List.contains_nil, Bool.or_false, Bool.or_eq_true, beq_iff_eq]

theorem not_both (t : Nat) : ¬ (t ∈ Spec.videoTypes ∧ t ∈ Spec.soundTypes) := by
  intro ⟨h1, h2⟩
  have : ∀ t ∈ Spec.videoTypes, t ∉ Spec.soundTypes := by decide
  exact this t h1 h2

def setsOf (c : Conf) (ess : List (Nat × Nat)) : List ReSet := (Spec.kinds ess).map fun v => ⟨v, (Spec.streams v ess).map fun e => ⟨e.1, newRep c e.2 v⟩⟩

theorem streams_snoc (v : Bool) (ess : List (Nat × Nat)) (e : Nat × Nat) : Spec.streams v (ess ++ [e]) = Spec.streams v ess ++ if (if v then Spec.videoTypes else Spec.soundTypes).contains e.2 then [e] else [] := by
  unfold Spec.streams
  rw [List.filter_append]
  congr 1
  by_cases h : (if v then Spec.videoTypes else Spec.soundTypes).contains e.2 = true
  · rw [if_pos h, List.filter_cons_of_pos (by exact h)]; rfl
  · rw [if_neg h, List.filter_cons_of_neg (by exact h)]; rfl

theorem taken_iff (t : Nat) (v : Bool) : taken t = some v ↔ (if v then Spec.videoTypes else Spec.soundTypes).contains t = true := by
  rw [taken_eq]
  have hb := not_both t
  rw [← List.contains_iff_mem, ← List.contains_iff_mem] at hb
  cases h1 : Spec.videoTypes.contains t <;> cases h2 : Spec.soundTypes.contains t <;> cases v <;> simp_all

theorem kinds_mem (ess : List (Nat × Nat)) (v : Bool) : v ∈ Spec.kinds ess ↔ Spec.streams v ess ≠ [] := by
  unfold Spec.kinds
  cases h : ess.find? fun e => Spec.videoTypes.contains e.2 || Spec.soundTypes.contains e.2 with
  | none =>
    have : Spec.streams v ess = [] := by
      unfold Spec.streams
      rw [List.filter_eq_nil_iff]
      intro e he hc
      have := List.find?_eq_none.1 h e he
      cases v <;> simp_all
    rw [this]
    simp
  | some e =>
    have hm := List.mem_of_find?_eq_some h
    have hk := List.find?_some h
    dsimp only at hk ⊢
    have hw : Spec.streams (Spec.videoTypes.contains e.2) ess ≠ [] := by
      intro h0
      unfold Spec.streams at h0
      rw [List.filter_eq_nil_iff] at h0
      have := h0 e hm
      cases hc : Spec.videoTypes.contains e.2 <;> rw [hc] at hk this <;> simp_all
    by_cases hv : v = Spec.videoTypes.contains e.2
    · rw [← hv] at hw
      refine ⟨fun _ => hw, fun _ => ?_⟩
      rw [hv]
      split <;> simp
    · have hv' : v = !Spec.videoTypes.contains e.2 := by
        generalize Spec.videoTypes.contains e.2 = w at *
        cases v <;> cases w <;> simp_all
      rw [hv']
      generalize Spec.videoTypes.contains e.2 = w at *
      cases hs : (Spec.streams (!w) ess).isEmpty with
      | true =>
        have : Spec.streams (!w) ess = [] := by simpa using hs
        rw [if_pos rfl, this]
        cases w <;> simp
      | false =>
        have : Spec.streams (!w) ess ≠ [] := by intro h0; rw [h0] at hs; simp at hs
        rw [if_neg (by simp)]
        exact ⟨fun _ => this, fun _ => by simp⟩

theorem kinds_snoc (ess : List (Nat × Nat)) (e : Nat × Nat) : Spec.kinds (ess ++ [e]) = Spec.kinds ess ++
    match taken e.2 with
    | none => []
    | some v => if (Spec.kinds ess).contains v then [] else [v] := by
  have hk : (Spec.videoTypes.contains e.2 || Spec.soundTypes.contains e.2) = (taken e.2).isSome := by
    rw [taken_eq]
    cases Spec.videoTypes.contains e.2 <;> cases Spec.soundTypes.contains e.2 <;> rfl
  cases h : ess.find? fun e => Spec.videoTypes.contains e.2 || Spec.soundTypes.contains e.2 with
  | none =>
    have h0 : Spec.kinds ess = [] := by unfold Spec.kinds; rw [h]
    have hs : ∀ v, Spec.streams v ess = [] := by
      intro v
      have := kinds_mem ess v
      rw [h0] at this
      simpa using this
    rw [h0, List.nil_append]
    unfold Spec.kinds
    rw [List.find?_append, h, Option.none_or]
    cases ht : taken e.2 with
    | none =>
      rw [ht] at hk
      rw [List.find?_cons_of_neg (by rw [hk]; simp)]
      rfl
    | some v =>
      rw [ht] at hk
      rw [List.find?_cons_of_pos (by rw [hk]; rfl)]
      dsimp only
      have hv : Spec.videoTypes.contains e.2 = v := by
        rw [taken_eq] at ht
        cases hc : Spec.videoTypes.contains e.2 <;> rw [hc] at ht <;> simp_all
      rw [hv, streams_snoc, hs, List.nil_append]
      have : ¬ (if (!v) = true then Spec.videoTypes else Spec.soundTypes).contains e.2 = true := by
        intro hc
        have := (taken_iff e.2 (!v)).2 hc
        rw [ht] at this
        cases v <;> simp at this
      rw [if_neg this]
      rfl
  | some e0 =>
    unfold Spec.kinds
    rw [List.find?_append, h, Option.some_or]
    dsimp only
    cases ht : taken e.2 with
    | none =>
      dsimp only
      generalize Spec.videoTypes.contains e0.2 = w
      rw [streams_snoc]
      have : ¬ (if (!w) = true then Spec.videoTypes else Spec.soundTypes).contains e.2 = true := by
        intro hc
        have := (taken_iff e.2 (!w)).2 hc
        rw [ht] at this
        exact nomatch this
      rw [if_neg this, List.append_nil, List.append_nil]
    | some v =>
      dsimp only
      have key : ∀ w : Bool, (if (Spec.streams (!w) (ess ++ [e])).isEmpty then [w] else [w, !w]) = (if (Spec.streams (!w) ess).isEmpty then [w] else [w, !w]) ++
          if (if (Spec.streams (!w) ess).isEmpty then [w] else [w, !w]).contains v then [] else [v] := by
       intro w
       rw [streams_snoc]
       by_cases hv : v = w
       · subst hv
         have : ¬ (if (!v) = true then Spec.videoTypes else Spec.soundTypes).contains e.2 = true := by
           intro hc
           have := (taken_iff e.2 (!v)).2 hc
           rw [ht] at this
           cases v <;> simp at this
         rw [if_neg this, List.append_nil]
         cases (Spec.streams (!v) ess).isEmpty <;> simp
       · have hv' : v = !w := by cases v <;> cases w <;> simp_all
         subst hv'
         rw [if_pos ((taken_iff e.2 (!w)).1 ht)]
         cases hs : (Spec.streams (!w) ess).isEmpty with
         | true => cases w <;> simp
         | false => simp
      exact key _

theorem addEs_eq (c : Conf) (ess : List (Nat × Nat)) (e : Nat × Nat) : addEs c (setsOf c ess) e = setsOf c (ess ++ [e]) := by
  unfold addEs
  have hother : ∀ v, taken e.2 ≠ some v → Spec.streams v (ess ++ [e]) = Spec.streams v ess := by
    intro v hv
    rw [streams_snoc, if_neg fun hc => hv ((taken_iff e.2 v).2 hc), List.append_nil]
  cases ht : taken e.2 with
  | none =>
    dsimp only
    unfold setsOf
    rw [kinds_snoc, ht]
    dsimp only
    rw [List.append_nil]
    refine List.map_congr_left fun v _ => ?_
    rw [hother v (by rw [ht]; simp)]
  | some v =>
    dsimp only
    have hself : Spec.streams v (ess ++ [e]) = Spec.streams v ess ++ [e] := by rw [streams_snoc, if_pos ((taken_iff e.2 v).1 ht)]
    have hany : (setsOf c ess).any (·.video == v) = (Spec.kinds ess).contains v := by
      unfold setsOf
      rw [List.any_map, Bool.eq_iff_iff]
      simp [Function.comp, List.any_eq_true]
    rw [hany]
    cases hc : (Spec.kinds ess).contains v with
    | true =>
      rw [if_pos rfl]
      unfold setsOf
      rw [kinds_snoc, ht]
      dsimp only
      rw [if_pos hc, List.append_nil, List.map_map]
      refine List.map_congr_left fun w _ => ?_
      simp only [Function.comp]
      by_cases hw : w = v
      · subst hw
        rw [if_pos (by simp), hself, List.map_append]
        rfl
      · rw [if_neg (by simpa using hw), hother w (by rw [ht]; simpa using fun h => hw h.symm)]
    | false =>
      rw [if_neg (by simp)]
      have hs0 : Spec.streams v ess = [] := by
        have := kinds_mem ess v
        rw [← List.contains_iff_mem, hc] at this
        simpa using this
      unfold setsOf
      rw [kinds_snoc, ht]
      dsimp only
      rw [if_neg (by rw [hc]; simp), List.map_append, List.map_cons, List.map_nil, hself, hs0]
      congr 1
      refine List.map_congr_left fun w hw => ?_
      have : w ≠ v := by
        rintro rfl
        rw [← List.contains_iff_mem, hc] at hw
        exact nomatch hw
      rw [hother w (by rw [ht]; simpa using fun h => this h.symm)]

theorem pmt_sets (c : Conf) (d : Dash) (ess : List (Nat × Nat)) : (pmt c d ess).sets = setsOf c ess := by
  have key : ∀ (post pre : List (Nat × Nat)), post.foldl (addEs c) (setsOf c pre) = setsOf c (pre ++ post) := by
    intro post
    induction post with
    | nil => intro pre; simp
    | cons e post ih =>
      intro pre
      rw [List.foldl_cons, addEs_eq, ih]
      simp
  exact key ess []

theorem mem_setsOf {c : Conf} {ess : List (Nat × Nat)} {x : Ent} (h : x ∈ entsOf (setsOf c ess)) : ∃ type v, (x.pid, type) ∈ Spec.streams v ess ∧ x = ⟨x.pid, newRep c type v⟩ := by
  obtain ⟨s, hs, hx⟩ := List.mem_flatMap.1 h
  obtain ⟨v, -, rfl⟩ := List.mem_map.1 hs
  obtain ⟨e, he, rfl⟩ := List.mem_map.1 hx
  exact ⟨e.2, v, he, rfl⟩

theorem kinds_nodup (ess : List (Nat × Nat)) : (Spec.kinds ess).Nodup := by
  unfold Spec.kinds
  split
  · exact List.nodup_nil
  · dsimp only
    split
    · simp
    · rename_i e _ _
      cases Spec.videoTypes.contains e.2 <;> simp

theorem streams_types {v : Bool} {ess : List (Nat × Nat)} {e : Nat × Nat} (h : e ∈ Spec.streams v ess) : e ∈ ess ∧ taken e.2 = some v := by
  obtain ⟨h1, h2⟩ := List.mem_filter.1 h
  exact ⟨h1, (taken_iff e.2 v).2 h2⟩

theorem fst_unique {l : List (Nat × Nat)} (h : (l.map (·.1)).Nodup) {x y : Nat × Nat} (hx : x ∈ l) (hy : y ∈ l) (he : x.1 = y.1) : x = y := by
  induction l with
  | nil => simp at hx
  | cons z l ih =>
    rw [List.map_cons, List.nodup_cons] at h
    rcases List.mem_cons.1 hx with h1 | h1
    · rcases List.mem_cons.1 hy with h2 | h2
      · rw [h1, h2]
      · exact absurd (List.mem_map.2 ⟨y, h2, by rw [← he, h1]⟩) h.1
    · rcases List.mem_cons.1 hy with h2 | h2
      · exact absurd (List.mem_map.2 ⟨x, h1, by rw [he, h2]⟩) h.1
      · exact ih h.2 h1 h2

theorem pids_nodup (c : Conf) {ess : List (Nat × Nat)} (h : (ess.map (·.1)).Nodup) : ((entsOf (setsOf c ess)).map (·.pid)).Nodup := by
  have hn := kinds_nodup ess
  unfold entsOf setsOf
  rw [List.flatMap_map, List.map_flatMap]
  generalize Spec.kinds ess = ks at hn
  induction ks with
  | nil => exact List.nodup_nil
  | cons v ks ih =>
    rw [List.nodup_cons] at hn
    rw [List.flatMap_cons, List.nodup_append]
    refine ⟨?_, ih hn.2, ?_⟩
    · rw [List.map_map]
      have hsub : (Spec.streams v ess).Sublist ess := List.filter_sublist
      exact (hsub.map (·.1)).nodup h
    · intro a ha b hb hab
      subst hab
      obtain ⟨x, hx, rfl⟩ := List.mem_map.1 ha
      obtain ⟨e, he, rfl⟩ := List.mem_map.1 hx
      obtain ⟨w, hw, hb⟩ := List.mem_flatMap.1 hb
      obtain ⟨y, hy, hb⟩ := List.mem_map.1 hb
      obtain ⟨e', he', rfl⟩ := List.mem_map.1 hy
      have hb : e'.1 = e.1 := hb
      obtain ⟨m1, t1⟩ := streams_types he
      obtain ⟨m2, t2⟩ := streams_types he'
      have : e' = e := fst_unique h m2 m1 hb
      rw [this, t1] at t2
      injection t2 with t2
      rw [t2] at hn
      exact hn.1 hw

theorem inv2_start (c : Conf) (date : Nat → Text) (K : Nat → Spec.Kind) {ess : List (Nat × Nat)} (h : (ess.map (·.1)).Nodup) : Inv2 c date K [] (pmt c {} ess) where
  nodup := by rw [pmt_sets]; exact pids_nodup c h
  initLen := by show 0 < 256; decide
  playlistLen := by show 0 < 128; decide
  ents := by
    intro x hx
    rw [pmt_sets] at hx
    obtain ⟨type, v, -, hx⟩ := mem_setsOf hx
    rw [hx]
    refine ⟨[], good_new c _ type v, rfl, by intro ps p h; simp at h, ?_, rfl, fun t => rfl⟩
    intro k _ hk
    show (List.replicate c.nsegs ({} : Seg))[k]? = _
    rw [List.getElem?_replicate, if_pos hk]
  mpd := fun text ht => nomatch ht

/-! ### What a decoder learns -/

theorem byte_of_bits {b : UInt8} {n : Nat} (hn : n < 256) (h : byteBits b = bitEnc 8 n) : b.toNat = n := by
  have h1 := congrArg bitVal h
  rw [← Codec.bitEnc_u8, BitOp.bitVal_bitEnc, BitOp.bitVal_bitEnc, Nat.mod_eq_of_lt b.toNat_lt, Nat.mod_eq_of_lt hn] at h1
  exact h1

theorem sps_bytes {b0 b1 b2 b3 : UInt8} {s : Bytes} {hdr : Nat} {q : Codec.Spec.Sps} {rest : List Bool} (hq : q.profile < 256 ∧ q.constraints < 256 ∧ q.level < 256)
    (h : bitsOf (b0 :: b1 :: b2 :: b3 :: s) = bitEnc 8 hdr ++ q.bits ++ rest) : b1.toNat = q.profile ∧ b2.toNat = q.constraints ∧ b3.toNat = q.level := by
  have l8 : ∀ b : UInt8, (byteBits b).length = 8 := fun b => by rw [← Codec.bitEnc_u8, BitOp.bitEnc_length]
  have e8 : ∀ n, (bitEnc 8 n).length = 8 := fun n => BitOp.bitEnc_length ..
  unfold Codec.Spec.Sps.bits at h
  simp only [Codec.bitsOf_cons, List.append_assoc] at h
  obtain ⟨-, h⟩ := List.append_inj h (by rw [l8, e8])
  obtain ⟨h1, h⟩ := List.append_inj h (by rw [l8, e8])
  obtain ⟨h2, h⟩ := List.append_inj h (by rw [l8, e8])
  obtain ⟨h3, h⟩ := List.append_inj h (by rw [l8, e8])
  exact ⟨byte_of_bits hq.1 h1, byte_of_bits hq.2.1 h2, byte_of_bits hq.2.2 h3⟩

theorem fits_prefix {c : Conf} {video : Bool} {a b : List Spec.Item} (h : Fits c video (a ++ b)) : Fits c video a := by
  rcases h with ⟨h0, h1, h2⟩ | h
  · exact .inl ⟨h0, h1, fun i hi => h2 i (List.mem_append_left _ hi)⟩
  · refine .inr ?_
    rw [weight_append] at h
    omega

/-- Names of sample entries (14496-12, -14, -15) -/
def entryName (type : Nat) (video : Bool) : Bytes := if video then (if type = 0x1b then str "avc1" else str "mp4v") else str "mp4a"

theorem told_all {c : Conf} {k : Spec.Kind} {video : Bool} {pre : List In} {r r0 : Rep} (now : Nat) (hA : 0 < c.analyze) (hS : 0 < c.nsegs) (hty : Spec.OfType r0.type k) (hv : taken r0.type = some video) (hv0 : r0.video = video)
    (hok : ∀ x ∈ pre, x.Ok k) (hf : Fits c video (pre.map In.item)) (hrun : run c (newRep c r0.type video) (pre.map fun y => (y.e, y.bufs)) = some (r, true))
    (h1 : r0.sps = r.sps) (h2 : r0.pps = r.pps) (h3 : r0.avc = r.avc) (h4 : r0.aac = r.aac) :
    ∃ e, readInit (initT now r0) = some ⟨90000, 1, 1, if video then str "vide" else str "soun", entryName r0.type video, e⟩ ∧
      Spec.Described k r0.type video (pre.map fun x => (x.bufs.flatten, x.nals)) (Mpd.readCodec (codecOf r0)) e := by
  obtain ⟨r', parts, g1, g2, -, -⟩ := run_eq (c := c) (k := k) (type := r0.type) (video := video) hA hS hty pre _ [] [] (good_new c k r0.type video) (by intro ps p h; simp at h) hok (by simpa using hf)
  rw [hrun] at g1
  have : r = r' := congrArg Prod.fst (Option.some.inj g1)
  subst this
  have fine : ∀ n ∈ pre.flatMap (·.nals), Fine n := by
    intro n hn
    obtain ⟨x, hx, hxn⟩ := List.mem_flatMap.1 hn
    exact (hok x hx).fine n hxn
  have hsps : r0.sps = (pre.flatMap (·.nals)).find? Spec.isSps := by rw [h1]; simpa using g2.sps
  have hpps : r0.pps = (pre.flatMap (·.nals)).find? Spec.isPps := by rw [h2]; simpa using g2.pps
  have hsh : ShortSets r0 := by
    constructor
    · intro s hs
      rw [hsps] at hs
      obtain ⟨m1, m2⟩ := nal_mem hs
      have := ((fine s m1).1 m2).1
      omega
    · intro p hp
      rw [hpps] at hp
      obtain ⟨m1, m2⟩ := nal_mem hp
      have := (fine p m1).2 m2
      omega
  have hin := readInit_eq now hsh
  have hfm : formatOf r0 = entryName r0.type video := by
    unfold formatOf entryName
    rw [hv0]
    rfl
  rw [hfm, hv0] at hin
  have hflat : (pre.map fun x => (x.bufs.flatten, x.nals)).flatMap (·.2) = pre.flatMap (·.nals) := by rw [List.flatMap_map]
  refine ⟨_, hin, ?_⟩
  cases k with
  | avc =>
    have hty : r0.type = avcType := hty
    have hvt : video = true := by
      rw [hty] at hv
      exact (Option.some.inj hv).symm
    intro s p hs hp
    rw [hflat] at hs hp
    have hk : Known r := g2.aux
    have hrs : r.sps = some s := by rw [← h1, hsps, hs]
    have hrp : r.pps = some p := by rw [← h2, hpps, hp]
    obtain ⟨a, st, ha⟩ := hk.dec s hrs
    have hav : r0.avc = some a := by
      rw [h3, hk.avc, hrs, hrp]
      show (Codec.parse Codec.tsAvc s).bind (·.1) = some a
      rw [ha]
      rfl
    have h4 := sps_length ha
    obtain ⟨hdr, q, rest, -, -, q3, q4, q5⟩ := (Codec.C72_ts_avc s).1 a st ha
    have q256 : q.profile < 256 ∧ q.constraints < 256 ∧ q.level < 256 := ⟨q3.1, q3.2.1, q3.2.2.1⟩
    have np : p ≠ [] := by
      rintro rfl
      exact absurd (nal_mem hp).2 (by decide)
    have hpic := readPicture_eq hsh (by rw [hv0]; exact hvt) hty (by rw [h1]; exact hrs) (by rw [h2]; exact hrp) h4 np
    have ls := hsh.1 s (by rw [h1]; exact hrs)
    have lp := hsh.2 p (by rw [h2]; exact hrp)
    match s, h4, ls, q4, hpic with
    | b0 :: b1 :: b2 :: b3 :: s, _, ls, q4, hpic =>
      obtain ⟨p1, p2, p3⟩ := sps_bytes q256 q4
      refine ⟨_, _, _, b1, b2, b3, rfl, ?_, hpic, readAvcConf_eq b0 b1 b2 b3 s p ls lp⟩
      have := codec_avc hav (by rw [q5.1]; exact q256.1) (by rw [q5.2.1]; exact q256.2.1) (by rw [q5.2.2.1]; exact q256.2.2)
      rw [this, q5.1, q5.2.1, q5.2.2.1, p1, p2, p3]
  | aac index =>
    have hty : r0.type = aacType := hty
    have hvf : video = false := by
      rw [hty] at hv
      exact (Option.some.inj hv).symm
    intro o i ch hs
    have hne : (newRep c r0.type video).type ≠ avcType := by rw [show (newRep c r0.type video).type = r0.type from rfl, hty]; decide
    obtain ⟨ha, -, -⟩ := run_aac _ _ _ hne hrun
    obtain ⟨-, -, hn⟩ := run_none _ _ _ hne hrun
    rw [show (newRep c r0.type video).type = aacType from hty, fold_aac, show (newRep c r0.type video).aac = none from rfl, Option.none_or] at ha
    have hmap : r0.aac.map (fun a => (a.profile, a.freqIndex, a.chan)) = some (o, i, ch) := by
      rw [h4, ha, findSome_map, ← hs]
      rw [List.findSome?_map, List.findSome?_map]
      clear hs ha hf hrun hsps hpps hflat fine g1 g2
      induction pre with
      | nil => rfl
      | cons x ins ih =>
        rw [List.findSome?_cons, List.findSome?_cons]
        have := (told_eq (hok x List.mem_cons_self)).1
        simp only [Function.comp]
        rw [this, ← ih fun y hy => hok y (List.mem_cons_of_mem _ hy)]
    have hb : o < 31 ∧ i < 15 ∧ ch < 16 := by
      obtain ⟨u, hu, hx2⟩ := List.exists_of_findSome?_eq_some hs
      obtain ⟨x, hx, rfl⟩ := List.mem_map.1 hu
      exact (told_eq (hok x hx)).2 o i ch hx2
    obtain ⟨a, hra, hae⟩ := Option.map_eq_some_iff.1 hmap
    simp only [Prod.mk.injEq] at hae
    obtain ⟨rfl, rfl, rfl⟩ := hae
    have hvo := readVoice_eq (r := r0) (by rw [hv0]; exact hvf)
    rw [hra] at hvo
    refine ⟨codec_aac (by rw [h3]; exact hn) hra, _, _, _, ascB a, hvo, ?_, rfl, readAsc_eq a hb.1 hb.2.1 hb.2.2⟩
    show oti r0.type = 0x40
    rw [hty]
    rfl
  | other =>
    have hty : r0.type ≠ avcType ∧ r0.type ≠ aacType := hty
    intro object ho
    obtain ⟨ha, -, -⟩ := run_aac _ _ _ (by exact hty.1) hrun
    obtain ⟨-, -, hn⟩ := run_none _ _ _ (by exact hty.1) hrun
    rw [fold_other _ (by exact hty.2)] at ha
    have ha : r.aac = none := ha
    have hn : r.avc = none := hn
    have hot : oti r0.type = object := by
      have key : ∀ x ∈ Spec.objectTypes, oti x.1 = x.2 := by decide
      exact key _ ho
    have hc := codec_other (r := r0) (by rw [h3]; exact hn) (by rw [h4]; exact ha)
    rw [hv0, hot] at hc
    refine ⟨hc, decoderOf r0 (r0.aac.map ascB), hot, ?_⟩
    cases video with
    | true =>
      rw [if_pos rfl]
      exact ⟨_, _, readVisual_eq hv0 hty.1⟩
    | false =>
      rw [if_neg (by simp)]
      exact ⟨_, _, readVoice_eq hv0⟩

end Verif.TsDash
