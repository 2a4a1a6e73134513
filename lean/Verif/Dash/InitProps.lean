import Verif.Dash.InitLemmas
/-
C67, continued: the initialization segments of DASH say what the tracks are.
-/
namespace Verif.Mp4
open Verif

theorem row_cons {t x : Bytes} {l : List (Bytes × Bytes)} (h : t.length = 4) (hx : 8 + x.length < 2 ^ 32) (hl : Row l) : Row ((t, x) :: l) := by
  intro q hq
  rcases List.mem_cons.1 hq with e | e
  · rw [e]; exact ⟨h, hx⟩
  · exact hl q e

theorem row_nil : Row [] := fun _ h => absurd h (by simp)

theorem numAt_append (a x b : Bytes) (off k v : Nat) (ha : a.length = off) (hx : x = beEnc k v) : numAt off k (a ++ (x ++ b)) = some (v % 256 ^ k) := by
  unfold numAt
  rw [List.drop_left' ha, hx, num_cons]
  rfl

def avcA : Bytes := beEnc 4 0 ++ beEnc 2 0 ++ beEnc 2 1 ++ beEnc 2 0 ++ beEnc 2 0 ++ beEnc 4 0 ++ beEnc 4 0 ++ beEnc 4 0
def avcB : Bytes := beEnc 4 0x480000 ++ beEnc 4 0x480000 ++ beEnc 4 0 ++ beEnc 2 1 ++ beEnc 4 0 ++ beEnc 4 0 ++ beEnc 4 0 ++ beEnc 4 0 ++ beEnc 4 0 ++ beEnc 4 0 ++
  beEnc 4 0 ++ beEnc 4 0 ++ beEnc 2 0x18 ++ beEnc 2 0xffff

theorem avc1H_eq (w h : Nat) : avc1H w h = avcA ++ (beEnc 2 w ++ (beEnc 2 h ++ avcB)) := by
  unfold avc1H avcA avcB
  repeat rw [List.append_assoc]

/-- What is read of the file of a track. -/
theorem readInit_eq (c : Codec) (video : Bool) (conf : Bytes) (hl : conf.length ≤ 1000000) :
    readInit (flat [(tag "ftyp", ftypB), (tag "moov", moovB c video conf)]) =
      some ⟨1000, 1, 1, if video then str "vide" else str "soun", if video then str "avc1" else str "mp4a", entryB c video conf⟩ := by
  have b1 := moovB_le c video conf
  have b2 := trakB_le c video conf
  have b3 := mdiaB_le c video conf
  have b4 := minfB_le c video conf
  have b5 := stblB_le c video conf
  have b6 := stsdB_le c video conf
  have b7 := entryB_le c video conf
  have k1 : child "moov" (flat [(tag "ftyp", ftypB), (tag "moov", moovB c video conf)]) = some (moovB c video conf) := by
    refine child_at "moov" [(tag "ftyp", ftypB)] _ [] ?_ ?_ (by simp)
    · exact row_cons (by decide +kernel) (by decide +kernel) (row_cons (by decide +kernel) (by omega) row_nil)
    · show str "moov" ∉ [tag "ftyp"]
      decide +kernel
  have rm : Row [(tag "mvhd", mvhdB), (tag "mvex", flat [(tag "trex", trexB)]), (tag "trak", trakB c video conf)] :=
    row_cons (by decide +kernel) (by decide +kernel) (row_cons (by decide +kernel) (by decide +kernel) (row_cons (by decide +kernel) (by omega) row_nil))
  have k2 : child "mvex" (moovB c video conf) = some (flat [(tag "trex", trexB)]) := by
    refine child_at "mvex" [(tag "mvhd", mvhdB)] _ [(tag "trak", trakB c video conf)] rm ?_ ?_
    · show str "mvex" ∉ [tag "mvhd"]
      decide +kernel
    · show str "mvex" ∉ [tag "trak"]
      decide +kernel
  have k3 : child "trex" (flat [(tag "trex", trexB)]) = some trexB := by decide +kernel
  have k4 : child "trak" (moovB c video conf) = some (trakB c video conf) := by
    refine child_at "trak" [(tag "mvhd", mvhdB), (tag "mvex", flat [(tag "trex", trexB)])] _ [] rm ?_ (by simp)
    show str "trak" ∉ [tag "mvhd", tag "mvex"]
    decide +kernel
  have rt : Row [(tag "tkhd", tkhdB c video), (tag "mdia", mdiaB c video conf)] :=
    row_cons (by decide +kernel) (by rw [tkhdB_len]; omega) (row_cons (by decide +kernel) (by omega) row_nil)
  have k5 : child "tkhd" (trakB c video conf) = some (tkhdB c video) := by
    refine child_at "tkhd" [] _ [(tag "mdia", mdiaB c video conf)] rt (by simp) ?_
    show str "tkhd" ∉ [tag "mdia"]
    decide +kernel
  have k6 : child "mdia" (trakB c video conf) = some (mdiaB c video conf) := by
    refine child_at "mdia" [(tag "tkhd", tkhdB c video)] _ [] rt ?_ (by simp)
    show str "mdia" ∉ [tag "tkhd"]
    decide +kernel
  have rd : Row [(tag "mdhd", mdhdB), (tag "hdlr", hdlrB video), (tag "minf", minfB c video conf)] :=
    row_cons (by decide +kernel) (by decide +kernel) (row_cons (by decide +kernel) (by rw [hdlrB_len]; omega) (row_cons (by decide +kernel) (by omega) row_nil))
  have k7 : child "mdhd" (mdiaB c video conf) = some mdhdB := by
    refine child_at "mdhd" [] _ [(tag "hdlr", hdlrB video), (tag "minf", minfB c video conf)] rd (by simp) ?_
    show str "mdhd" ∉ [tag "hdlr", tag "minf"]
    decide +kernel
  have k8 : child "hdlr" (mdiaB c video conf) = some (hdlrB video) := by
    refine child_at "hdlr" [(tag "mdhd", mdhdB)] _ [(tag "minf", minfB c video conf)] rd ?_ ?_
    · show str "hdlr" ∉ [tag "mdhd"]
      decide +kernel
    · show str "hdlr" ∉ [tag "minf"]
      decide +kernel
  have k9 : child "minf" (mdiaB c video conf) = some (minfB c video conf) := by
    refine child_at "minf" [(tag "mdhd", mdhdB), (tag "hdlr", hdlrB video)] _ [] rd ?_ (by simp)
    show str "minf" ∉ [tag "mdhd", tag "hdlr"]
    decide +kernel
  have k10 : child "stbl" (minfB c video conf) = some (stblB c video conf) := by
    refine child_at "stbl" [mhd video, (tag "dinf", boxText (tag "dref") drefB)] _ [] ?_ ?_ (by simp)
    · have := mhd_len video
      refine row_cons (t := (mhd video).1) (x := (mhd video).2) this.1 (by omega) (row_cons (by decide +kernel) (by decide +kernel) (row_cons (by decide +kernel) (by omega) row_nil))
    · show str "stbl" ∉ [(mhd video).1, tag "dinf"]
      cases video <;> decide +kernel
  have k11 : child "stsd" (stblB c video conf) = some (stsdB c video conf) := by
    refine child_at "stsd" [] _ [(tag "stts", beEnc 4 0 ++ beEnc 4 0), (tag "stsc", beEnc 4 0 ++ beEnc 4 0), (tag "stsz", beEnc 4 0 ++ beEnc 4 0 ++ beEnc 4 0),
      (tag "stco", beEnc 4 0 ++ beEnc 4 0)] ?_ (by simp) ?_
    · exact row_cons (by decide +kernel) (by omega) (row_cons (by decide +kernel) (by decide +kernel) (row_cons (by decide +kernel) (by decide +kernel) (row_cons (by decide +kernel) (by decide +kernel)
        (row_cons (by decide +kernel) (by decide +kernel) row_nil))))
    · show str "stsd" ∉ [tag "stts", tag "stsc", tag "stsz", tag "stco"]
      decide +kernel
  have k12 : numAt 12 4 mdhdB = some 1000 := by decide +kernel
  have k13 : numAt 12 4 (tkhdB c video) = some 1 := by
    unfold tkhdB
    simp only [List.append_assoc]
    have := numAt_append (beEnc 1 0 ++ (beEnc 3 0xf ++ (beEnc 4 0 ++ beEnc 4 0))) (beEnc 4 1)
      (beEnc 4 0 ++ (beEnc 4 0 ++ (beEnc 4 0 ++ (beEnc 4 0 ++ (beEnc 4 0 ++ (beEnc 2 (if video then 0 else 0x0100) ++ (beEnc 2 0 ++ (matrixT ++
        (beEnc 4 (if video then c.width * 65536 else 0) ++ beEnc 4 (if video then c.height * 65536 else 0)))))))))) 12 4 1 (by simp only [beEnc_length, List.length_append]) rfl
    simp only [List.append_assoc] at this
    exact this
  have k14 : numAt 4 4 trexB = some 1 := by decide +kernel
  have k15 : ((hdlrB video).drop 8).take 4 = if video then str "vide" else str "soun" := by cases video <;> decide +kernel
  have e8 : (beEnc 4 0 ++ beEnc 4 1).length = 8 := by decide +kernel
  have k16 : boxes ((stsdB c video conf).drop 8) = some [⟨0, entryTag video, entryB c video conf⟩] := by
    unfold stsdB
    rw [List.drop_left' e8]
    exact boxes_one (p := (entryTag video, entryB c video conf)) ⟨entryTag_len video, by dsimp only; omega⟩
  have k17 : numAt 4 4 (stsdB c video conf) = some 1 := by
    unfold stsdB
    rw [List.append_assoc]
    exact numAt_append (beEnc 4 0) (beEnc 4 1) _ 4 4 1 (beEnc_length ..) rfl
  unfold readInit
  rw [k1]
  simp only [Option.bind_some]
  rw [k2]
  simp only [Option.bind_some]
  rw [k3, k4]
  simp only [Option.bind_some]
  rw [k5, k6]
  simp only [Option.bind_some]
  rw [k7, k8, k9]
  simp only [Option.bind_some]
  rw [k10]
  simp only [Option.bind_some]
  rw [k11]
  simp only [Option.bind_some]
  rw [k12, k13, k14]
  simp only [Option.bind_some]
  rw [k16]
  simp only []
  rw [if_pos k17, k15]
  cases video <;> rfl

/-- The file of the video track: times in milliseconds, the same track as in the fragments, H.264, the size of the picture and the configuration of the header
that came. -/
theorem C67_init_video_partial (c : Codec) (x : Bytes) (l : List Bytes) (hc : c.avc = some (x :: l)) (h5 : 5 < x.length) (hx : x.length ≤ 1000000) :
    ∃ file e, initFile c true = some file ∧ readInit file = some ⟨1000, 1, 1, str "vide", str "avc1", e⟩ ∧
      readPicture e = some ⟨c.width % 65536, c.height % 65536, x.drop 5⟩ := by
  have hk : Conf c true (x.drop 5) := ⟨x, l, hc, h5, rfl⟩
  have hl : (x.drop 5).length ≤ 1000000 := by rw [List.length_drop]; omega
  refine ⟨_, _, initFile_eq c true _ hk hl, readInit_eq c true _ hl, ?_⟩
  unfold readPicture
  have k1 : numAt 24 2 (entryB c true (x.drop 5)) = some (c.width % 65536) := by
    simp only [entryB, if_true]
    rw [avc1H_eq, List.append_assoc, List.append_assoc]
    exact numAt_append _ (beEnc 2 c.width) _ 24 2 c.width (by decide +kernel) rfl
  have k2 : numAt 26 2 (entryB c true (x.drop 5)) = some (c.height % 65536) := by
    simp only [entryB, if_true]
    rw [avc1H_eq, ← List.append_assoc, List.append_assoc (avcA ++ _), List.append_assoc]
    refine numAt_append (avcA ++ beEnc 2 c.width) (beEnc 2 c.height) _ 26 2 c.height ?_ rfl
    have : avcA.length = 24 := by decide +kernel
    rw [List.length_append, this, beEnc_length]
  have k3 : child "avcC" ((entryB c true (x.drop 5)).drop 78) = some (x.drop 5) := by
    simp only [entryB, if_true]
    rw [List.drop_left' (avc1H_len _ _)]
    have := child_at "avcC" [] (x.drop 5) [] (row_cons (by decide +kernel) (by omega) row_nil) (by simp) (by simp)
    simp only [List.nil_append, flat, List.append_nil] at this
    exact this
  rw [k1, k2, k3]
  rfl

def hdCodec : Codec := ⟨1280, 720, 2, 2, 44100, some [[0x17, 0, 0, 0, 0, 1, 100, 0, 31]], some [[0xaf, 0, 0x12, 0x10]]⟩

example : ∃ file e, initFile hdCodec true = some file ∧ readInit file = some ⟨1000, 1, 1, str "vide", str "avc1", e⟩ ∧
    readPicture e = some ⟨1280, 720, [1, 100, 0, 31]⟩ :=
  C67_init_video_partial hdCodec [0x17, 0, 0, 0, 0, 1, 100, 0, 31] [] rfl (by decide) (by decide)

theorem desc_descT (t : UInt8) (v : Nat) (x rest : Bytes) (ht : UInt8.ofNat v = t) (hn : x.length < 128) :
    desc t (descT v x.length ++ (x ++ rest)) = some (x, rest) := by
  have e1 : ∀ k : Nat, beEnc 1 k = [UInt8.ofNat k] := by intro k; simp [beEnc]
  unfold descT
  rw [e1, e1]
  simp only [List.cons_append, List.nil_append, desc, ht, ne_eq, not_true, if_false]
  have h2 : (UInt8.ofNat (x.length % 128)).toNat = x.length := by
    rw [UInt8.toNat_ofNat']
    omega
  simp only [descLen, h2, hn, if_true, Option.bind_some, Nat.zero_mul, Nat.zero_add]
  rw [if_neg (by rw [List.length_append]; omega), List.take_left' rfl, List.drop_left' rfl]

theorem readEsds_eq (x : Bytes) (h : x.length ≤ 104) : readEsds (esdsB x) = some x := by
  have e4 : ∀ k n, (beEnc k n).length = k := beEnc_length
  have a0 : (esdsB x).drop 4 = descT 3 (23 + x.length) ++ ((beEnc 2 1 ++ beEnc 1 0 ++ descT 4 (15 + x.length) ++ (beEnc 1 0x40 ++ beEnc 1 0x15 ++ beEnc 3 0 ++
      beEnc 4 0x1F151 ++ beEnc 4 0x1F14D ++ descT 5 x.length ++ x) ++ (descT 6 1 ++ beEnc 1 2)) ++ []) := by
    unfold esdsB
    simp only [List.append_assoc, List.append_nil]
    rw [List.drop_left' (e4 ..)]
  have l1 : (beEnc 2 1 ++ beEnc 1 0 ++ descT 4 (15 + x.length) ++ (beEnc 1 0x40 ++ beEnc 1 0x15 ++ beEnc 3 0 ++
      beEnc 4 0x1F151 ++ beEnc 4 0x1F14D ++ descT 5 x.length ++ x) ++ (descT 6 1 ++ beEnc 1 2)).length = 23 + x.length := by
    simp only [List.length_append, descT, e4]; omega
  have l2 : (beEnc 1 0x40 ++ beEnc 1 0x15 ++ beEnc 3 0 ++ beEnc 4 0x1F151 ++ beEnc 4 0x1F14D ++ descT 5 x.length ++ x).length = 15 + x.length := by
    simp only [List.length_append, descT, e4]
  unfold readEsds
  rw [a0, ← l1, desc_descT 3 3 _ [] rfl (by rw [l1]; omega)]
  simp only [Option.bind_some]
  rw [if_neg (by simp)]
  have a1 : (beEnc 2 1 ++ beEnc 1 0 ++ descT 4 (15 + x.length) ++ (beEnc 1 0x40 ++ beEnc 1 0x15 ++ beEnc 3 0 ++
      beEnc 4 0x1F151 ++ beEnc 4 0x1F14D ++ descT 5 x.length ++ x) ++ (descT 6 1 ++ beEnc 1 2)).drop 3 = descT 4 (15 + x.length) ++ ((beEnc 1 0x40 ++ beEnc 1 0x15 ++
      beEnc 3 0 ++ beEnc 4 0x1F151 ++ beEnc 4 0x1F14D ++ descT 5 x.length ++ x) ++ (descT 6 1 ++ beEnc 1 2)) := by
    have e3 : (beEnc 2 1 ++ beEnc 1 0).length = 3 := by decide +kernel
    simp only [List.append_assoc]
    rw [← List.append_assoc (beEnc 2 1), List.drop_left' e3]
  rw [a1, ← l2, desc_descT 4 4 _ _ rfl (by rw [l2]; omega)]
  simp only [Option.bind_some]
  have a2 : desc 6 (descT 6 1 ++ beEnc 1 2) = some ([2], []) := by decide +kernel
  rw [a2]
  simp only [Option.bind_some]
  rw [if_neg (by simp)]
  have a3 : (beEnc 1 0x40 ++ beEnc 1 0x15 ++ beEnc 3 0 ++ beEnc 4 0x1F151 ++ beEnc 4 0x1F14D ++ descT 5 x.length ++ x).drop 13 = descT 5 x.length ++ (x ++ []) := by
    have e13 : (beEnc 1 0x40 ++ beEnc 1 0x15 ++ beEnc 3 0 ++ beEnc 4 0x1F151 ++ beEnc 4 0x1F14D).length = 13 := by decide +kernel
    rw [List.append_assoc _ (descT 5 x.length), List.drop_left' e13, List.append_nil]
  rw [a3, desc_descT 5 5 _ _ rfl (by omega)]
  simp only [Option.bind_some]
  rw [if_neg (by simp)]

/-- The file of the audio track: times in milliseconds, the same track as in the fragments, AAC, the channels, and the configuration of the header that came, if it
has at most 104 bytes. The rate of the sample entry is always 1000 Hz. -/
theorem C67_init_audio_partial (c : Codec) (x : Bytes) (l : List Bytes) (hc : c.aac = some (x :: l)) (h2 : 2 ≤ x.length) (hx : x.length ≤ 106) :
    ∃ file e, initFile c false = some file ∧ readInit file = some ⟨1000, 1, 1, str "soun", str "mp4a", e⟩ ∧
      readSound e = some ⟨c.channels % 65536, 1000, x.drop 2⟩ := by
  have hk : Conf c false (x.drop 2) := ⟨x, l, hc, h2, rfl⟩
  have hl : (x.drop 2).length ≤ 104 := by rw [List.length_drop]; omega
  refine ⟨_, _, initFile_eq c false _ hk (by omega), readInit_eq c false _ (by omega), ?_⟩
  generalize x.drop 2 = y at hl
  unfold readSound
  have k1 : numAt 16 2 (entryB c false y) = some (c.channels % 65536) := by
    simp only [entryB, Bool.false_eq_true, if_false, mp4aH, List.append_assoc]
    have := numAt_append (beEnc 4 0 ++ (beEnc 2 0 ++ (beEnc 2 1 ++ (beEnc 4 0 ++ beEnc 4 0)))) (beEnc 2 c.channels)
      (beEnc 2 (c.sampleSize * 8) ++ (beEnc 4 0 ++ (beEnc 2 1000 ++ (beEnc 2 c.rate ++ boxText (tag "esds") (esdsB y))))) 16 2 c.channels (by decide +kernel) rfl
    simp only [List.append_assoc] at this
    exact this
  have k2 : ∃ r, numAt 24 4 (entryB c false y) = some r ∧ r / 65536 = 1000 := by
    simp only [entryB, Bool.false_eq_true, if_false, mp4aH, List.append_assoc]
    have e2 : ∀ k : Nat, beEnc 2 k = [UInt8.ofNat (k / 256), UInt8.ofNat k] := by intro k; simp [beEnc]
    have ej : beEnc 4 (1000 * 65536 + c.rate % 65536) = beEnc 2 1000 ++ beEnc 2 c.rate := by
      have e4 : ∀ k : Nat, beEnc 4 k = [UInt8.ofNat (k / 16777216), UInt8.ofNat (k / 65536), UInt8.ofNat (k / 256), UInt8.ofNat k] := by intro k; simp [beEnc]
      rw [e2 1000, e2 c.rate, e4]
      have : ∀ a b : Nat, a % 256 = b % 256 → UInt8.ofNat a = UInt8.ofNat b := by
        intro a b h
        apply UInt8.toNat_inj.1
        simp [h]
      have a := this ((1000 * 65536 + c.rate % 65536) / 16777216) (1000 / 256) (by omega)
      have b := this ((1000 * 65536 + c.rate % 65536) / 65536) 1000 (by omega)
      have d := this ((1000 * 65536 + c.rate % 65536) / 256) (c.rate / 256) (by omega)
      have e := this (1000 * 65536 + c.rate % 65536) c.rate (by omega)
      rw [a, b, d, e]
      rfl
    have := numAt_append (beEnc 4 0 ++ (beEnc 2 0 ++ (beEnc 2 1 ++ (beEnc 4 0 ++ (beEnc 4 0 ++ (beEnc 2 c.channels ++ (beEnc 2 (c.sampleSize * 8) ++ beEnc 4 0)))))))
      (beEnc 2 1000 ++ beEnc 2 c.rate) (boxText (tag "esds") (esdsB y)) 24 4 (1000 * 65536 + c.rate % 65536) (by simp only [beEnc_length, List.length_append]) ej.symm
    simp only [List.append_assoc] at this
    exact ⟨_, this, by omega⟩
  have k3 : child "esds" ((entryB c false y).drop 28) = some (esdsB y) := by
    simp only [entryB, Bool.false_eq_true, if_false]
    rw [List.drop_left' (mp4aH_len _ _ _)]
    have := child_at "esds" [] (esdsB y) [] (row_cons (by decide +kernel) (by rw [esdsB_len]; omega) row_nil) (by simp) (by simp)
    simp only [List.nil_append, flat, List.append_nil] at this
    exact this
  obtain ⟨r, k2, k2'⟩ := k2
  rw [k1, k2, k3]
  simp only [Option.bind_some]
  rw [readEsds_eq y hl]
  simp only [Option.map_some, k2']

example : ∃ file e, initFile hdCodec false = some file ∧ readInit file = some ⟨1000, 1, 1, str "soun", str "mp4a", e⟩ ∧ readSound e = some ⟨2, 1000, [0x12, 0x10]⟩ :=
  C67_init_audio_partial hdCodec [0xaf, 0, 0x12, 0x10] [] rfl (by decide) (by decide)

/-- The rate of the sound is not in the sample entry: for 44100 Hz a reader finds 1000 Hz. -/
theorem C67_rate_violation : ∃ file e s, initFile hdCodec false = some file ∧ readInit file = some ⟨1000, 1, 1, str "soun", str "mp4a", e⟩ ∧ readSound e = some s ∧
    s.rate ≠ hdCodec.rate := by
  obtain ⟨file, e, h1, h2, h3⟩ := C67_init_audio_partial hdCodec [0xaf, 0, 0x12, 0x10] [] rfl (by decide) (by decide)
  exact ⟨file, e, _, h1, h2, h3, by decide⟩

/-- A configuration of 105 bytes or more (a program config element, for example) is not read: the length of the outer descriptor is cut to seven bits. -/
theorem C67_config_violation : readEsds (esdsB (List.replicate 105 0)) = none := by decide +kernel

/-- The first audio frame of a stream without video crashes the server: the file for video is written first and follows the NULL header. -/
theorem C67_audio_only_violation (c : Codec) (h : c.avc = none) : initSegments c = none := by
  have key : ∀ b, avcc c b = none := by
    intro b
    simp [avcc, h]
  have sn : ∀ (a w : W), (∀ b, w b = none) → ∀ b, (a ;; w) b = none := by
    intro a w hw b
    unfold W.seq
    cases a b with
    | none => rfl
    | some y => exact hw y
  have ns : ∀ (w a : W), (∀ b, w b = none) → ∀ b, (w ;; a) b = none := by
    intro w a hw b
    unfold W.seq
    rw [hw]
    rfl
  have bx : ∀ (t : Bytes) (w : W), (∀ b, w b = none) → ∀ b, box t w b = none := by
    intro t w hw b
    unfold box boxP
    dsimp only
    rw [hw]
    rfl
  have h1 : ∀ b, avc1 c b = none := bx _ _ (sn _ _ key)
  have h2 : ∀ b, stsd c true b = none := bx _ _ (sn _ _ h1)
  have h3 : ∀ b, stbl c true b = none := bx _ _ (ns _ _ (ns _ _ (ns _ _ (ns _ _ h2))))
  have h4 : ∀ b, minf c true b = none := bx _ _ (sn _ _ h3)
  have h5 : ∀ b, mdia c true b = none := bx _ _ (sn _ _ h4)
  have h6 : ∀ b, trak c true b = none := bx _ _ (sn _ _ h5)
  have h7 : ∀ b, moov c true b = none := bx _ _ (sn _ _ h6)
  have h8 : initFile c true = none := sn _ _ h7 []
  unfold initSegments
  rw [h8]
  rfl

example : initSegments { hdCodec with avc := none } = none := C67_audio_only_violation _ rfl

end Verif.Mp4
