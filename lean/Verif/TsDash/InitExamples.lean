import Verif.TsDash.InitProps
/- Streams that meet the hypotheses of the theorems of C78, and where initialization segments of transport streams are wrong -/
namespace Verif.TsDash
open Verif Verif.TsIn
open Verif.Mp4 (str readInit numAt child)

/-- 1920x1080, high profile, level 4.0 -/
example : ∃ r file e q a k, run {} (newRep {} avcType true) (exIns.map fun x => (x.e, x.bufs)) = some (r, true) ∧ (∀ cap, 0 < cap → ∃ n cap', initFile 0 r n cap = some (file, cap')) ∧
    readInit file = some ⟨90000, 1, 1, str "vide", str "avc1", e⟩ ∧
    (∃ hdr rest, hdr % 32 = 7 ∧ BitOp.bitsOf exSps = BitOp.bitEnc 8 hdr ++ Codec.Spec.Sps.bits q ++ rest) ∧ Codec.Tells a q ∧
    Mp4.readPicture e = some ⟨a.width % 65536, a.height % 65536, k⟩ ∧
    ∃ pr co le, (exSps.drop 1).take 3 = [pr, co, le] ∧ Spec.readAvcConf k = some ⟨pr.toNat, co.toNat, le.toNat, 4, [exSps], [exPps], []⟩ :=
  C78_picture {} exIns (by decide) (by decide) exIns_ok (.inr (by decide +kernel)) exSps exPps (by decide +kernel) (by decide +kernel) 0

/-- What is in the file of a run, with a buffer of 256 bytes at first -/
def fileOf (c : Conf) (type : Nat) (video : Bool) (us : List (Es × List Bytes)) : Option Bytes := (run c (newRep c type video) us).bind fun x => (initFile 0 x.1 10 256).map (·.1)

def entryOf (file : Bytes) : Option Bytes := (readInit file).map (·.entry)

example : ((fileOf {} avcType true (exIns.map fun x => (x.e, x.bufs))).bind entryOf |>.bind Mp4.readPicture |>.map fun p => (p.width, p.height, Spec.readAvcConf p.config)) =
    some (1920, 1080, some ⟨100, 0, 40, 4, [exSps], [exPps], []⟩) := by decide +kernel

def exSounds : List In := [exSound 0, exSound 450000]

theorem exSounds_ok : ∀ x ∈ exSounds, x.Ok (.aac 4) := by
  intro x hx
  have : x = exSound 0 ∨ x = exSound 450000 := by simpa [exSounds] using hx
  rcases this with rfl | rfl <;> exact exSound_ok _ (by decide)

/-- AAC, LC, 44100 Hz, 2 channels -/
example : ∃ r file e k, run {} (newRep {} aacType false) (exSounds.map fun x => (x.e, x.bufs)) = some (r, true) ∧ (∀ cap, 0 < cap → ∃ n cap', initFile 0 r n cap = some (file, cap')) ∧
    readInit file = some ⟨90000, 1, 1, str "soun", str "mp4a", e⟩ ∧
    Spec.readVoice e = some (2, 90000, ⟨0x40, 5, r.bandwidth * 2 % 2 ^ 32, r.bandwidth % 2 ^ 32, some k⟩) ∧ Spec.readAsc k = some (2, 4, 2) :=
  C78_sound_partial {} exSounds 4 (by decide) (by decide) exSounds_ok (.inl ⟨by decide, by decide, by decide +kernel⟩) 2 4 2 (by decide +kernel) 0

/-- MPEG layer 3 -/
example : ∃ r file e, run {} (newRep {} 3 false) ([exMp3].map fun x => (x.e, x.bufs)) = some (r, true) ∧ (∀ cap, 0 < cap → ∃ n cap', initFile 0 r n cap = some (file, cap')) ∧
    readInit file = some ⟨90000, 1, 1, if false then str "vide" else str "soun", if false then str "mp4v" else str "mp4a", e⟩ ∧
    ∃ d : Spec.Decoder, d = ⟨0x6b, if false then 4 else 5, r.bandwidth * 2 % 2 ^ 32, r.bandwidth % 2 ^ 32, none⟩ ∧
      (false = true → ∃ w h, Spec.readVisual e = some (w, h, d)) ∧ (false = false → ∃ n f, Spec.readVoice e = some (n, f, d)) :=
  C78_other {} [exMp3] 3 0x6b false (by decide) (by decide) ⟨by decide, by decide⟩ (by decide) (by
    intro x hx
    have : x = exMp3 := by simpa using hx
    subst this
    exact ⟨⟨rfl, by decide +kernel⟩, by intro n hn; exact absurd hn (by simp [exMp3]), by decide, by decide⟩) (.inr (by decide +kernel)) 0

/-- Any representation with short parameter sets -/
example : ∃ file e, (∀ cap, 0 < cap → ∃ n cap', initFile 7 { newRep {} avcType true with sps := some exSps } n cap = some (file, cap') ∧ cap ≤ cap') ∧
    readInit file = some ⟨90000, 1, 1, str "vide", str "avc1", e⟩ :=
  C78_init 7 { newRep {} avcType true with sps := some exSps } ⟨by intro s h; injection h with h; rw [← h]; decide, by intro p h; exact nomatch h⟩

/-! ### Violations -/

/-- A frame of sound: mono, 44100 Hz -/
def exMono (dts : Nat) : Es × List Bytes := ({ type := 0x0f, pid := 257, video := false, pts := dts, dts := dts, rand := true }, [[0xff, 0xf1, 0x50, 0x40, 1, 0x1f, 0xfc, 1]])

/-- The sample entry of sound says two channels and a rate of 1.4 Hz (`samplerate` is a number of 16.16 bits, and 90000 is not shifted), whatever the sound is: for one channel at 44100 Hz, what
14496-14 (5.6) and 14496-12 (12.2.3.2) have there is 1 and 44100. The configuration of the decoder is right. -/
theorem C78_rate_violation : ((fileOf {} aacType false [exMono 0, exMono 450000]).bind entryOf |>.bind Spec.readVoice |>.map fun v => (v.1, v.2.1 / 65536, v.2.2.info.bind Spec.readAsc)) =
    some (2, 1, some (2, 4, 1)) := by decide +kernel

/-- As soon as the bandwidth is known, the initialization segment is written, even if a parameter set has not come: then there is a sample entry for H.264 without configuration, which no player can use. -/
theorem C78_unknown_violation : ∃ r file e, run {} (newRep {} avcType true) ([exOther 0, exOther 450000].map fun x => (x.e, x.bufs)) = some (r, true) ∧ r.bandwidth ≠ 0 ∧
    initFile 0 r 10 256 = some (file, 1024) ∧ readInit file = some ⟨90000, 1, 1, str "vide", str "avc1", e⟩ ∧ Mp4.readPicture e = none := by
  have key : ((run {} (newRep {} avcType true) ([exOther 0, exOther 450000].map fun x => (x.e, x.bufs))).bind fun x => (initFile 0 x.1 10 256).bind fun y => (readInit y.1).map fun z =>
      decide ((x.2 = true ∧ x.1.bandwidth ≠ 0) ∧ y.2 = 1024 ∧ (z.timescale = 90000 ∧ z.track = 1 ∧ z.fragmentTrack = 1) ∧ (z.handler = str "vide" ∧ z.format = str "avc1") ∧ (Mp4.readPicture z.entry).isNone = true)) =
    some true := by decide +kernel
  obtain ⟨x, h1, key⟩ := Option.bind_eq_some_iff.1 key
  obtain ⟨y, h2, key⟩ := Option.bind_eq_some_iff.1 key
  obtain ⟨z, h3, key⟩ := Option.map_eq_some_iff.1 key
  obtain ⟨x1, x2⟩ := x
  obtain ⟨y1, y2⟩ := y
  obtain ⟨z1, z2, z3, z4, z5, z6⟩ := z
  obtain ⟨⟨k1, k2⟩, k3, ⟨k4, k5, k7⟩, ⟨k8, k9⟩, k6⟩ := of_decide_eq_true key
  subst k1 k3 k4 k5 k7 k8 k9
  exact ⟨x1, y1, z6, h1, k2, h2, h3, Option.isNone_iff_eq_none.1 k6⟩

/-- For the high profile the record has to go on with the chroma format and the depths (14496-15, 5.3.3.1.2): it does not. -/
theorem C78_high_violation : ((fileOf {} avcType true (exIns.map fun x => (x.e, x.bufs))).bind entryOf |>.bind Mp4.readPicture |>.bind fun p => (Spec.readAvcConf p.config).map fun k => (k.profile, k.ext)) =
    some (100, []) := by decide +kernel

/-- `next_track_ID` is that of the track there is (14496-12, 8.2.2.3: it has to be larger). -/
theorem C78_next_violation : ((fileOf {} avcType true (exIns.map fun x => (x.e, x.bufs))).bind fun f => (child "moov" f).bind fun m => (child "mvhd" m).bind fun h => (numAt 96 4 h).bind fun n =>
    (readInit f).map fun i => (n, i.track)) = some (1, 1) := by decide +kernel

end Verif.TsDash
