import Verif.TsDash.Safe
/- Streams that meet the hypotheses of the theorems of C77 -/
namespace Verif.TsDash
open Verif Verif.TsIn

def exSps : Bytes := 0x67 :: Codec.hdBytes
def exPps : Bytes := [0x68, 0xee, 0x3c, 0x80]
def exIdr : Bytes := [0x65, 0x88, 0x84]
def exSlice : Bytes := [0x41, 0x9a]

/-- A picture to start with, cut within a start code and within a parameter set -/
def exKey (dts : Nat) : In where
  e := { type := 0x1b, pid := 256, video := true, pts := dts + 3000, dts := dts, rand := true }
  bufs := [[0, 0], [0, 1, 0x67, 0x64, 0x00, 0x28, 0xac, 0xd9], [], [0x40, 0x78, 0x02, 0x27, 0xe5, 0x40, 0, 0, 0, 1, 0x68, 0xee, 0x3c, 0x80, 0, 0, 1, 0x65, 0x88, 0x84, 0]]
  nals := [exSps, exPps, exIdr]
  samples := [⟨[0, 0, 0, 3, 0x65, 0x88, 0x84], dts, Spec.wrap (dts + 3000) dts, true⟩]

/-- Another picture -/
def exOther (dts : Nat) : In where
  e := { type := 0x1b, pid := 256, video := true, pts := dts, dts := dts, rand := false }
  bufs := [[0, 0, 1], [0x41, 0x9a]]
  nals := [exSlice]
  samples := [⟨[0, 0, 0, 2, 0x41, 0x9a], dts, Spec.wrap dts dts, false⟩]

theorem exDecodes : Decodes exSps := by
  obtain ⟨o1, o2, o3, o4, o5, o6⟩ := Codec.hd1080_ok
  obtain ⟨a, st, h1, -⟩ := (Codec.C72_ts_avc (0x67 :: Codec.hdBytes)).2 0x67 Codec.hd1080 [false, true, false, false, false, false, false, false] (by decide) (by decide) o3 (by decide +kernel)
  exact ⟨a, st, h1⟩

theorem exKey_ok (dts : Nat) (h : dts < 2 ^ 63) : (exKey dts).Ok .avc where
  carries := ⟨[(1, exSps), (1, exPps), (0, exIdr)], 1, by simp, by decide +kernel, rfl, rfl, rfl⟩
  fine := by
    intro n hn
    have : n = exSps ∨ n = exPps ∨ n = exIdr := by simpa [exKey] using hn
    rcases this with rfl | rfl | rfl
    · exact ⟨fun _ => ⟨by decide, exDecodes⟩, fun h => absurd h (by decide +kernel)⟩
    · exact ⟨fun h => absurd h (by decide +kernel), fun _ => by decide⟩
    · exact ⟨fun h => absurd h (by decide +kernel), fun h => absurd h (by decide +kernel)⟩
  pts := by show dts + 3000 < 2 ^ 64; omega
  dts := by show dts < 2 ^ 64; omega

theorem exOther_ok (dts : Nat) (h : dts < 2 ^ 63) : (exOther dts).Ok .avc where
  carries := ⟨[(0, exSlice)], 0, by simp, by decide +kernel, rfl, rfl, rfl⟩
  fine := by
    intro n hn
    have : n = exSlice := by simpa [exOther] using hn
    subst this
    exact ⟨fun h => absurd h (by decide +kernel), fun h => absurd h (by decide +kernel)⟩
  pts := by show dts < 2 ^ 64; omega
  dts := by show dts < 2 ^ 64; omega

/-- Three pictures, the third 10 seconds after the first -/
def exIns : List In := [exKey 1000, exOther 4600, exKey 901000]

theorem exIns_ok : ∀ x ∈ exIns, x.Ok .avc := by
  intro x hx
  have : x = exKey 1000 ∨ x = exOther 4600 ∨ x = exKey 901000 := by simpa [exIns] using hx
  rcases this with rfl | rfl | rfl
  · exact exKey_ok _ (by decide)
  · exact exOther_ok _ (by decide)
  · exact exKey_ok _ (by decide)

/-- H.264: two segments; the first has a file named after 1000, which a player reads as two samples -/
example : ∃ r parts, run {} (newRep {} avcType true) (exIns.map fun x => (x.e, x.bufs)) = some (r, true) ∧ parts.flatten = exIns.map In.item ∧ Spec.Files true 0 parts none r.files :=
  let ⟨r, parts, h1, h2, _, h3, _⟩ := C77_segments {} .avc avcType true exIns (by decide) (by decide) rfl exIns_ok (.inr (by decide +kernel))
  ⟨r, parts, h1, h2, h3⟩

example : ((run {} (newRep {} avcType true) (exIns.map fun x => (x.e, x.bufs))).map fun x => x.1.files.map fun f => (f.1, Spec.readMedia f.2)) =
    some [(1000, some ⟨0, 1000, [⟨[0, 0, 0, 3, 0x65, 0x88, 0x84], some 3600, some 0, some 3000⟩, ⟨[0, 0, 0, 2, 0x41, 0x9a], some 896400, some 0x10000, some 0⟩]⟩)] := by decide +kernel

/-- The parameter sets are those of the first picture. -/
example : ∃ r, run {} (newRep {} avcType true) (exIns.map fun x => (x.e, x.bufs)) = some (r, true) ∧ r.sps = some exSps ∧ r.pps = some exPps := by
  obtain ⟨r, h1, h2, h3, -⟩ := C77_params {} exIns true (by decide) (by decide) exIns_ok (.inr (by decide +kernel))
  exact ⟨r, h1, by rw [h2]; decide +kernel, by rw [h3]; decide +kernel⟩

/-- Two frames of sound at 44100 Hz, cut within a header -/
def exSound (dts : Nat) : In where
  e := { type := 0x0f, pid := 257, video := false, pts := dts, dts := dts, rand := true }
  bufs := [[0xff, 0xf1, 0x50, 0x80, 1, 0x5f, 0xfc, 1, 2, 3, 0xff, 0xf1, 0x50], [0x80, 1, 0x3f, 0xfc, 4, 5]]
  nals := []
  samples := [⟨[1, 2, 3], dts, Spec.wrap dts dts, true⟩, ⟨[4, 5], dts + 2089, Spec.wrap dts dts, true⟩]

theorem exSound_ok (dts : Nat) (h : dts < 2 ^ 63) : (exSound dts).Ok (.aac 4) where
  carries := ⟨[⟨[0xff, 0xf1, 0x50, 0x80, 1, 0x5f, 0xfc], [1, 2, 3]⟩, ⟨[0xff, 0xf1, 0x50, 0x80, 1, 0x3f, 0xfc], [4, 5]⟩], 44100, rfl, by
    intro f hf
    have : f = ⟨[0xff, 0xf1, 0x50, 0x80, 1, 0x5f, 0xfc], [1, 2, 3]⟩ ∨ f = ⟨[0xff, 0xf1, 0x50, 0x80, 1, 0x3f, 0xfc], [4, 5]⟩ := by simpa using hf
    rcases this with rfl | rfl
    · exact ⟨_, _, _, _, _, _, _, rfl, by decide, by decide, by decide⟩
    · exact ⟨_, _, _, _, _, _, _, rfl, by decide, by decide, by decide⟩, rfl, rfl, rfl⟩
  fine := by intro n hn; exact absurd hn (by simp [exSound])
  pts := by show dts < 2 ^ 64; omega
  dts := by show dts < 2 ^ 64; omega

example : ∃ r parts, run {} (newRep {} aacType false) ([exSound 0, exSound 450000].map fun x => (x.e, x.bufs)) = some (r, true) ∧ Spec.Files false 0 parts none r.files ∧
    ∀ e, ∃ r', finish {} r e = some r' ∧ Spec.Files false 0 parts (some e.dts) r'.files :=
  let ⟨r, parts, h1, _, _, h3, _, h4⟩ := C77_segments {} (.aac 4) aacType false [exSound 0, exSound 450000] (by decide) (by decide) rfl (by
    intro x hx
    have : x = exSound 0 ∨ x = exSound 450000 := by simpa using hx
    rcases this with rfl | rfl <;> exact exSound_ok _ (by decide)) (.inl ⟨by decide, by decide, by decide +kernel⟩)
  ⟨r, parts, h1, h3, h4⟩

/-- MPEG layer 3: units are samples. -/
def exMp3 : In where
  e := { type := 0x03, pid := 257, video := false, pts := 90, dts := 90, rand := true }
  bufs := [[0xff, 0xfb], [0x90, 0x64]]
  nals := []
  samples := [⟨[0xff, 0xfb, 0x90, 0x64], 90, 0, true⟩]

example : ∃ r parts, run {} (newRep {} 3 false) ([exMp3].map fun x => (x.e, x.bufs)) = some (r, true) ∧ List.flatten parts = [exMp3.item] :=
  let ⟨r, parts, h1, h2, _⟩ := C77_segments {} .other 3 false [exMp3] (by decide) (by decide) ⟨by decide, by decide⟩ (by
    intro x hx
    have : x = exMp3 := by simpa using hx
    subst this
    exact ⟨⟨rfl, by decide +kernel⟩, by intro n hn; exact absurd hn (by simp [exMp3]), by decide, by decide⟩) (.inr (by decide +kernel))
  ⟨r, parts, h1, h2⟩

/-- Units of a sample -/
example : Spec.readUnits 2 (Annex.lenPrefixed 4 [exIdr, exSlice]) = some [exIdr, exSlice] := C77_units _ (by decide) 2 (by decide)

/-- Times that do not go back: the file of the first segment lasts up to the second. -/
example : ∃ f, Spec.Holds true 0 [(exKey 1000).item, (exOther 4600).item] 901000 f ∧
    ∃ g, Spec.readMedia f.2 = some g ∧ g.time = 1000 ∧ g.time + (g.samples.filterMap (·.duration)).sum = 901000 := by
  obtain ⟨r, parts, h1, h2, h3, h4, -, hfin⟩ := C77_segments {} .avc avcType true [exKey 1000, exOther 4600] (by decide) (by decide) rfl
    (fun x hx => exIns_ok x (by simp at hx; rcases hx with rfl | rfl <;> simp [exIns])) (.inr (by decide +kernel))
  have hone : ∃ p, parts = [p] := by
    have hf : r.files = [] := by
      have : ((run {} (newRep {} avcType true) ([exKey 1000, exOther 4600].map fun x => (x.e, x.bufs))).map fun x => x.1.files) = some [] := by decide +kernel
      rw [h1] at this
      simpa using this
    cases parts with
    | nil => simp at h2
    | cons p ps =>
      cases ps with
      | nil => exact ⟨p, rfl⟩
      | cons q ps =>
        obtain ⟨f, fs, t, h, -⟩ := h4
        rw [hf] at h
        exact nomatch h
  obtain ⟨p, rfl⟩ := hone
  have hp : p = [(exKey 1000).item, (exOther 4600).item] := by simpa using h2
  subst hp
  obtain ⟨r', -, f, -, hh⟩ := hfin { type := 0x1b, pid := 256, video := true, dts := 901000 }
  refine ⟨f, hh, ?_⟩
  exact C77_gapless true 0 _ 901000 f ⟨[0, 0, 0, 3, 0x65, 0x88, 0x84], 1000, 3000, true⟩ [⟨[0, 0, 0, 2, 0x41, 0x9a], 4600, 0, false⟩] hh (by decide +kernel) rfl
    ⟨by decide, by decide, by decide, by decide⟩

/-- Bytes that are no stream at all: an error, but nothing else -/
example : ∃ r ok, run {} (newRep {} avcType true) [({ type := 0x1b, pid := 256, video := true }, [[0, 0, 0], [0, 5], []])] = some (r, ok) ∧ ∀ e, ∃ r', finish {} r e = some r' :=
  C77_safe_partial {} avcType true _ (by decide) (by decide) (by
    intro _ u hu
    have : u = (({ type := 0x1b, pid := 256, video := true } : Es), [[0, 0, 0], [0, 5], []]) := by simpa using hu
    subst this
    intro a x y hx hs
    exfalso
    have hx : ([0, 0, 0, 0, 5] : Bytes) = a ++ x ++ y := by simpa using hx
    cases x with
    | nil => simp [Spec.isSps, Annex.nalType] at hs
    | cons c x =>
      have hm : c ∈ ([0, 0, 0, 0, 5] : Bytes) := by rw [hx]; simp
      have hc : c = 0 ∨ c = 5 := by simpa using hm
      rcases hc with rfl | rfl <;> simp [Spec.isSps, Annex.nalType] at hs)

/-- Sound that ends within a frame: an error -/
example : ∃ r ok, run {} (newRep {} aacType false) [({ type := 0x0f, pid := 257, video := false }, [[0xff, 0xf1, 0x50, 0x80, 0xff, 0x5f, 0xfc, 1]])] = some (r, ok) ∧ ∀ e, ∃ r', finish {} r e = some r' :=
  C77_safe_partial {} aacType false _ (by decide) (by decide) (fun h => absurd h (by decide))

end Verif.TsDash
