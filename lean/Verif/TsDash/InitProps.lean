import Verif.TsDash.InitEntry
import Verif.TsDash.InitHeard
import Verif.TsDash.Props
import Verif.TsDash.Examples
/- C78: initialization segments of transport streams. -/
namespace Verif.TsDash
open Verif Verif.TsIn
open Verif.Mp4 (str readInit)
open Verif.BitOp (bitsOf bitEnc bitsOf_length bitEnc_length)

theorem newRep_init (now : Nat) {r : Rep} (cap : Nat) (hc : 0 < cap) : ∃ n cap', initFile now r n cap = some (initT now r, cap') ∧ cap ≤ cap' := by
  have key : ∀ k : Nat, k < 2 ^ k := fun k => Nat.lt_two_pow_self
  have h1 : (initT now r).length < cap * 2 ^ (initT now r).length := by
    have := key (initT now r).length
    have h2 : 1 * 2 ^ (initT now r).length ≤ cap * 2 ^ (initT now r).length := Nat.mul_le_mul_right _ hc
    omega
  obtain ⟨cap', h2⟩ := initFile_eq now r _ cap h1
  exact ⟨_, cap', h2⟩

/-- **C78.** Whatever is known of a track: the loop that looks for a buffer ends, and the file does not depend on the buffer; a player finds one track, number 1, as in the segments, with
times of 90000 ticks a second. -/
theorem C78_init (now : Nat) (r : Rep) (hs : ShortSets r) :
    ∃ file e, (∀ cap, 0 < cap → ∃ n cap', initFile now r n cap = some (file, cap') ∧ cap ≤ cap') ∧
      readInit file = some ⟨90000, 1, 1, if r.video then str "vide" else str "soun", formatOf r, e⟩ :=
  ⟨initT now r, entryB r, fun cap hc => newRep_init now cap hc, readInit_eq now hs⟩

theorem sps_length {s : Bytes} {a : Codec.Avc} {st : Codec.St} (h : Codec.parse Codec.tsAvc s = some (some a, st)) : 4 ≤ s.length := by
  obtain ⟨hdr, q, rest, -, -, -, hb, -⟩ := (Codec.C72_ts_avc s).1 a st h
  have h1 := congrArg List.length hb
  simp only [bitsOf_length, Codec.Spec.Sps.bits, List.length_append, bitEnc_length] at h1
  omega

theorem nal_mem {ns : List Bytes} {f : Bytes → Bool} {n : Bytes} (h : ns.find? f = some n) : n ∈ ns ∧ f n = true := ⟨List.mem_of_find?_eq_some h, List.find?_some h⟩

/-- **C78.** Of a stream of H.264 whose parameter sets have come, a player finds in the initialization segment: the size of the picture that the first SPS tells (modulo 16 bits), and the configuration of
the decoder with exactly the first SPS and the first PPS, the profile and the level of the SPS, and lengths of 4 bytes, as the samples have them. -/
theorem C78_picture (c : Conf) (ins : List In) (hA : 0 < c.analyze) (hS : 0 < c.nsegs) (hok : ∀ x ∈ ins, x.Ok .avc) (hf : Fits c true (ins.map In.item)) (s p : Bytes)
    (hs : (ins.flatMap (·.nals)).find? Spec.isSps = some s) (hp : (ins.flatMap (·.nals)).find? Spec.isPps = some p) (now : Nat) :
    ∃ r file e q a k, run c (newRep c avcType true) (ins.map fun x => (x.e, x.bufs)) = some (r, true) ∧ (∀ cap, 0 < cap → ∃ n cap', initFile now r n cap = some (file, cap')) ∧
      readInit file = some ⟨90000, 1, 1, str "vide", str "avc1", e⟩ ∧
      (∃ hdr rest, hdr % 32 = 7 ∧ bitsOf s = bitEnc 8 hdr ++ Codec.Spec.Sps.bits q ++ rest) ∧ Codec.Tells a q ∧
      Mp4.readPicture e = some ⟨a.width % 65536, a.height % 65536, k⟩ ∧
      ∃ pr co le, (s.drop 1).take 3 = [pr, co, le] ∧ Spec.readAvcConf k = some ⟨pr.toNat, co.toNat, le.toNat, 4, [s], [p], []⟩ := by
  obtain ⟨r, parts, h1, h2, -, -⟩ := run_eq (c := c) (k := .avc) (type := avcType) (video := true) hA hS rfl ins _ [] [] (good_new c .avc avcType true) (by intro ps p h; simp at h) hok (by simpa using hf)
  have hk : Known r := h2.aux
  have hrs : r.sps = some s := by rw [← hs]; simpa using h2.sps
  have hrp : r.pps = some p := by rw [← hp]; simpa using h2.pps
  obtain ⟨a, st, ha⟩ := hk.dec s hrs
  have hav : r.avc = some a := by
    rw [hk.avc, hrs, hrp]
    show (Codec.parse Codec.tsAvc s).bind (·.1) = some a
    rw [ha]
    rfl
  have h4 := sps_length ha
  obtain ⟨hdr, q, rest, -, q2, -, q4, q5⟩ := (Codec.C72_ts_avc s).1 a st ha
  have fine : ∀ n ∈ ins.flatMap (·.nals), Fine n := by
    intro n hn
    obtain ⟨x, hx, hxn⟩ := List.mem_flatMap.1 hn
    exact (hok x hx).fine n hxn
  have ls : s.length < 2 ^ 16 := by
    obtain ⟨m1, m2⟩ := nal_mem hs
    have := ((fine s m1).1 m2).1
    omega
  have lp : p.length < 2 ^ 16 := by
    obtain ⟨m1, m2⟩ := nal_mem hp
    have := (fine p m1).2 m2
    omega
  have np : p ≠ [] := by
    rintro rfl
    exact absurd (nal_mem hp).2 (by decide)
  have hsh : ShortSets r := by
    constructor
    · intro s' hs'
      rw [hrs] at hs'
      injection hs' with hs'
      rw [← hs']; exact ls
    · intro p' hp'
      rw [hrp] at hp'
      injection hp' with hp'
      rw [← hp']; exact lp
  have hpic := readPicture_eq hsh h2.video h2.type hrs hrp h4 np
  have hw : widthOf r = a.width ∧ heightOf r = a.height := by
    unfold widthOf heightOf
    rw [hav]
    exact ⟨rfl, rfl⟩
  rw [hw.1, hw.2] at hpic
  have hin := readInit_eq now hsh
  have hfm : formatOf r = str "avc1" := by
    unfold formatOf
    rw [if_pos h2.video, if_pos h2.type]
    rfl
  rw [hfm, if_pos h2.video] at hin
  refine ⟨r, _, _, q, a, _, h1, fun cap hc => ?_, hin, ⟨hdr, rest, q2, q4⟩, q5, hpic, ?_⟩
  · obtain ⟨n, cap', h, -⟩ := newRep_init now (r := r) cap hc
    exact ⟨n, cap', h⟩
  · match s, h4, ls with
    | b0 :: b1 :: b2 :: b3 :: s, _, ls => exact ⟨b1, b2, b3, rfl, readAvcConf_eq b0 b1 b2 b3 s p ls lp⟩

/-- What a unit of AAC tells -/
theorem told_eq {index : Nat} {x : In} (hx : x.Ok (.aac index)) : ((Codec.tsAac (x.bufs.flatten.take 7)).join.map fun a => (a.profile, a.freqIndex, a.chan)) = Spec.adtsSays x.bufs.flatten ∧
    ∀ o i ch, Spec.adtsSays x.bufs.flatten = some (o, i, ch) → o < 31 ∧ i < 15 ∧ ch < 16 := by
  obtain ⟨fs, freq, hfr, hok, hb, -, -⟩ := hx.carries
  have hb : x.bufs.flatten = fs.flatMap (fun f => f.head ++ f.raw) := hb
  cases fs with
  | nil =>
    rw [hb]
    exact ⟨rfl, fun o i ch h => nomatch h⟩
  | cons f fs =>
    obtain ⟨b0, b1, b2, b3, b4, b5, rest, hh, hl, -, hi⟩ := hok f List.mem_cons_self
    obtain ⟨b6, rest, rfl⟩ : ∃ b6 r, rest = b6 :: r := by
      cases rest with
      | nil =>
        rw [hh] at hl
        simp at hl
        split at hl <;> omega
      | cons a b => exact ⟨a, b, rfl⟩
    obtain ⟨hr, hr0⟩ := rates_get hfr
    have hx15 : b2.toNat >>> 2 &&& 0x0f = b2.toNat / 4 % 16 := by
      rw [Nat.shiftRight_eq_div_pow, show (0x0f : Nat) = 2 ^ 4 - 1 from rfl, Nat.and_two_pow_sub_one_eq_mod]
    have hch : (b2.toNat &&& 0x01) <<< 2 ||| b3.toNat >>> 6 = b2.toNat % 2 * 4 + b3.toNat / 64 := by
      have e1 : b2.toNat &&& 0x01 = b2.toNat % 2 := by rw [show (0x01 : Nat) = 2 ^ 1 - 1 from rfl, Nat.and_two_pow_sub_one_eq_mod]
      have e2 : b3.toNat >>> 6 = b3.toNat / 64 := by rw [Nat.shiftRight_eq_div_pow]
      have e3 : b3.toNat / 64 < 4 := by have := b3.toNat_lt; omega
      rw [e1, e2]
      have : ∀ u < 2, ∀ v < 4, u <<< 2 ||| v = u * 4 + v := by decide
      exact this _ (Nat.mod_lt _ (by decide)) _ e3
    have hpr : b2.toNat >>> 6 = b2.toNat / 64 := by rw [Nat.shiftRight_eq_div_pow]
    have i13 : index < 13 := by
      obtain ⟨hi, _⟩ := List.getElem?_eq_some_iff.1 hfr
      exact hi
    have e : x.bufs.flatten = b0 :: b1 :: b2 :: b3 :: b4 :: b5 :: b6 :: (rest ++ (f.raw ++ fs.flatMap (fun f => f.head ++ f.raw))) := by
      rw [hb, List.flatMap_cons, hh]
      simp
    rw [e]
    constructor
    · simp only [List.take_succ_cons, List.take_zero, Codec.tsAac, Spec.adtsSays]
      rw [hx15, hi, hr]
      cases freq with
      | zero => exact absurd rfl hr0
      | succ k =>
        rw [hch, hpr]
        rfl
    · intro o i ch h
      simp only [Spec.adtsSays, Option.some.injEq, Prod.mk.injEq] at h
      obtain ⟨rfl, rfl, rfl⟩ := h
      have := b2.toNat_lt
      have := b3.toNat_lt
      omega

theorem findSome_map {α β γ : Type} (f : α → Option β) (g : β → γ) : ∀ l : List α, (l.findSome? f).map g = l.findSome? fun x => (f x).map g
  | [] => rfl
  | a :: l => by
    rw [List.findSome?_cons, List.findSome?_cons]
    cases f a with
    | none => simpa using findSome_map f g l
    | some b => rfl

/-- What the first frame of a stream of AAC says -/
def firstSays (ins : List In) : Option (Nat × Nat × Nat) := ins.findSome? fun x => Spec.adtsSays x.bufs.flatten

theorem short_none {r : Rep} (h1 : r.sps = none) (h2 : r.pps = none) : ShortSets r := ⟨fun s h => absurd h (by rw [h1]; simp), fun s h => absurd h (by rw [h2]; simp)⟩

/-- No parameter sets but of H.264 -/
theorem nals_none {k : Spec.Kind} (hk : k ≠ .avc) {ins : List In} (hok : ∀ x ∈ ins, x.Ok k) : ins.flatMap (·.nals) = [] := by
  rw [List.flatMap_eq_nil_iff]
  intro x hx
  have := (hok x hx).carries
  cases k with
  | avc => exact absurd rfl hk
  | aac index => obtain ⟨_, _, _, _, _, h, _⟩ := this; exact h
  | other => exact this.1

/-- **C78.** Of a stream of AAC of which a frame has come, a player finds in the initialization segment a decoder of AAC whose configuration is: object type, frequency and channels as in the header of the
first frame. -/
theorem C78_sound_partial (c : Conf) (ins : List In) (index : Nat) (hA : 0 < c.analyze) (hS : 0 < c.nsegs) (hok : ∀ x ∈ ins, x.Ok (.aac index)) (hf : Fits c false (ins.map In.item)) (o i ch : Nat)
    (hs : firstSays ins = some (o, i, ch)) (now : Nat) :
    ∃ r file e k, run c (newRep c aacType false) (ins.map fun x => (x.e, x.bufs)) = some (r, true) ∧ (∀ cap, 0 < cap → ∃ n cap', initFile now r n cap = some (file, cap')) ∧
      readInit file = some ⟨90000, 1, 1, str "soun", str "mp4a", e⟩ ∧
      Spec.readVoice e = some (2, 90000, ⟨0x40, 5, r.bandwidth * 2 % 2 ^ 32, r.bandwidth % 2 ^ 32, some k⟩) ∧ Spec.readAsc k = some (o, i, ch) := by
  obtain ⟨r, parts, h1, h2, -, -⟩ := run_eq (c := c) (k := .aac index) (type := aacType) (video := false) hA hS rfl ins _ [] [] (good_new c (.aac index) aacType false) (by intro ps p h; simp at h) hok (by simpa using hf)
  obtain ⟨ha, -, -⟩ := run_aac _ _ _ (by show aacType ≠ avcType; decide) h1
  have hty : (newRep c aacType false).type = aacType := rfl
  have hn0 : (newRep c aacType false).aac = none := rfl
  rw [hty, fold_aac, hn0, Option.none_or] at ha
  have hn := nals_none (by simp) hok
  have hsh : ShortSets r := by
    refine short_none ?_ ?_
    · rw [h2.sps, hn]; rfl
    · rw [h2.pps, hn]; rfl
  have hmap : r.aac.map (fun a => (a.profile, a.freqIndex, a.chan)) = some (o, i, ch) := by
    rw [ha, findSome_map, ← hs]
    unfold firstSays
    rw [List.findSome?_map]
    clear hs ha hf h1 h2 hn
    induction ins with
    | nil => rfl
    | cons x ins ih =>
      rw [List.findSome?_cons, List.findSome?_cons]
      have := (told_eq (hok x List.mem_cons_self)).1
      simp only [Function.comp]
      rw [this, ← ih fun y hy => hok y (List.mem_cons_of_mem _ hy)]
  have hb : o < 31 ∧ i < 15 ∧ ch < 16 := by
    unfold firstSays at hs
    obtain ⟨x, hx, hx2⟩ := List.exists_of_findSome?_eq_some hs
    exact (told_eq (hok x hx)).2 o i ch hx2
  obtain ⟨a, hra, hae⟩ := Option.map_eq_some_iff.1 hmap
  simp only [Prod.mk.injEq] at hae
  obtain ⟨rfl, rfl, rfl⟩ := hae
  have hv := h2.video
  have hin := readInit_eq now hsh
  have hfm : formatOf r = str "mp4a" := by
    unfold formatOf
    rw [hv]
    rfl
  rw [hfm, hv] at hin
  have hvo := readVoice_eq hv
  rw [hra] at hvo
  have hot : decoderOf r (some (ascB a)) = ⟨0x40, 5, r.bandwidth * 2 % 2 ^ 32, r.bandwidth % 2 ^ 32, some (ascB a)⟩ := by
    unfold decoderOf
    rw [hv, h2.type]
    rfl
  refine ⟨r, _, _, ascB a, h1, fun cap hc => ?_, hin, ?_, readAsc_eq a hb.1 hb.2.1 hb.2.2⟩
  · obtain ⟨n, cap', h, -⟩ := newRep_init now (r := r) cap hc
    exact ⟨n, cap', h⟩
  · rw [hvo]
    show some (2, 90000, decoderOf r (some (ascB a))) = _
    rw [hot]

/-- **C78.** Of any other stream: a decoder for the type of the stream, without configuration -/
theorem C78_other (c : Conf) (ins : List In) (type object : Nat) (video : Bool) (hA : 0 < c.analyze) (hS : 0 < c.nsegs) (ht : Spec.OfType type .other) (ho : (type, object) ∈ Spec.objectTypes)
    (hok : ∀ x ∈ ins, x.Ok .other) (hf : Fits c video (ins.map In.item)) (now : Nat) :
    ∃ r file e, run c (newRep c type video) (ins.map fun x => (x.e, x.bufs)) = some (r, true) ∧ (∀ cap, 0 < cap → ∃ n cap', initFile now r n cap = some (file, cap')) ∧
      readInit file = some ⟨90000, 1, 1, if video then str "vide" else str "soun", if video then str "mp4v" else str "mp4a", e⟩ ∧
      ∃ d : Spec.Decoder, d = ⟨object, if video then 4 else 5, r.bandwidth * 2 % 2 ^ 32, r.bandwidth % 2 ^ 32, none⟩ ∧
        (video = true → ∃ w h, Spec.readVisual e = some (w, h, d)) ∧ (video = false → ∃ n f, Spec.readVoice e = some (n, f, d)) := by
  obtain ⟨r, parts, h1, h2, -, -⟩ := run_eq (c := c) (k := .other) (type := type) (video := video) hA hS ht ins _ [] [] (good_new c .other type video) (by intro ps p h; simp at h) hok (by simpa using hf)
  have htn : type ≠ avcType := ht.1
  obtain ⟨ha, -, -⟩ := run_aac _ _ _ (by exact htn) h1
  rw [fold_other _ (by exact ht.2)] at ha
  have ha : r.aac = none := ha
  have hn := nals_none (by simp) hok
  have hsh : ShortSets r := by
    refine short_none ?_ ?_
    · rw [h2.sps, hn]; rfl
    · rw [h2.pps, hn]; rfl
  have hv := h2.video
  have hrt := h2.type
  have hin := readInit_eq now hsh
  have hfm : formatOf r = if video then str "mp4v" else str "mp4a" := by
    unfold formatOf
    rw [if_neg (show ¬ r.type = avcType by rw [hrt]; exact htn), hv]
    rfl
  rw [hfm, hv] at hin
  have hot : oti type = object := by
    have key : ∀ x ∈ Spec.objectTypes, oti x.1 = x.2 := by decide
    exact key _ ho
  have hd : decoderOf r (r.aac.map ascB) = ⟨object, if video then 4 else 5, r.bandwidth * 2 % 2 ^ 32, r.bandwidth % 2 ^ 32, none⟩ := by
    unfold decoderOf
    rw [hv, hrt, hot, ha]
    rfl
  refine ⟨r, _, _, h1, fun cap hc => ?_, hin, _, rfl, fun hvt => ?_, fun hvf => ?_⟩
  · obtain ⟨n, cap', h, -⟩ := newRep_init now (r := r) cap hc
    exact ⟨n, cap', h⟩
  · have := readVisual_eq (r := r) (by rw [hv, hvt]) (by rw [hrt]; exact htn)
    rw [hd] at this
    exact ⟨_, _, this⟩
  · have := readVoice_eq (r := r) (by rw [hv, hvf])
    rw [hd] at this
    exact ⟨_, _, this⟩

end Verif.TsDash
