import Verif.Codec.Lemmas
/-
C72: parts of a sequence parameter set.
-/
namespace Verif.Codec
open Verif Verif.BitOp

theorem flags_none : ∀ (ls : List (Option (List Int))), (∀ l ∈ ls, l = none) →
    ls.flatMap Spec.listBits = (List.replicate ls.length [false]).flatten := by
  intro ls
  induction ls with
  | nil => intro _; rfl
  | cons l ls ih =>
    intro h
    rw [List.flatMap_cons, ih (fun l hl => h l (by simp [hl])), h l (by simp), List.length_cons, List.replicate_succ, List.flatten_cons]
    rfl

theorem gets_replicate (p : Rd Nat) (b : List Bool) (v : Nat) (h : Gets p b v) (n : Nat) : Gets (times p n) (List.replicate n b).flatten () := by
  have := gets_times (p := p) (List.replicate n b) (by intro b' hb; rw [(List.mem_replicate.1 hb).2]; exact ⟨v, h⟩)
  rwa [List.length_replicate] at this

theorem gets_rtmpChroma (c : Spec.Chroma) (h1 : c.format + 1 < 2 ^ 64) (h2 : c.luma + 1 < 2 ^ 64) (h3 : c.chroma + 1 < 2 ^ 64)
    (hl : ∀ ls, c.lists = some ls → ls.length = (if c.format = 3 then 12 else 8) ∧ ∀ l ∈ ls, l = none) : Gets rtmpChroma c.bits () := by
  unfold rtmpChroma Spec.Chroma.bits
  rw [List.append_assoc, List.append_assoc, List.append_assoc, List.append_assoc]
  apply (gets_ue _ h1).bind
  have hsep : ∃ v, Gets (onlyIf (c.format == 3) (u 1) 0) (if c.format = 3 then [c.separate] else []) v := by
    unfold onlyIf
    by_cases h : c.format = 3
    · rw [if_pos (by simpa using h), if_pos h]
      exact ⟨_, gets_flag _⟩
    · rw [if_neg (by simpa using h), if_neg h]
      exact ⟨0, Gets.pure 0⟩
  obtain ⟨v, hsep⟩ := hsep
  apply hsep.bind
  apply (gets_ue _ h2).bind
  apply (gets_ue _ h3).bind
  apply (gets_flag _).bind
  cases hls : c.lists with
  | none =>
    apply Gets.bind' (gets_flag false) ?_ (List.append_nil _).symm
    exact Gets.pure ()
  | some ls =>
    obtain ⟨g1, g2⟩ := hl ls hls
    dsimp only
    rw [flags_none ls g2, g1]
    exact Gets.bind' (gets_flag true) (gets_replicate _ _ _ (gets_flag false) _) rfl

theorem gets_refs (p : Rd Nat) (hp : ∀ k, k + 1 < 2 ^ 64 → Gets p (golombCode k) k) (rs : List Int) (h : ∀ r ∈ rs, Spec.codeNum r + 1 < 2 ^ 64) : Gets (times p rs.length) (rs.flatMap Spec.se) () := by
  have := gets_times (p := p) (rs.map Spec.se) (by
    intro b hb
    obtain ⟨r, hr, rfl⟩ := List.mem_map.1 hb
    exact ⟨_, hp _ (h r hr)⟩)
  rwa [List.length_map, ← List.flatMap_def] at this

theorem gets_rtmpPoc (p : Spec.Poc) (h : ∀ k ∈ (match p with | .lsb k => [k] | .offsets _ n t rs => [Spec.codeNum n, Spec.codeNum t, rs.length] ++ rs.map Spec.codeNum | .output t => [t]), k + 1 < 2 ^ 64) (h2 : ∀ t, p = .output t → 2 ≤ t) :
    Gets rtmpPoc p.bits () := by
  unfold rtmpPoc
  cases p with
  | lsb k =>
    apply (gets_ue 0 (by decide)).bind
    rw [if_pos rfl]
    exact Gets.bind' (gets_ue k (h k (by simp))) (Gets.pure ()) (List.append_nil _).symm
  | offsets z n t rs =>
    simp only [Spec.Poc.bits]
    rw [List.append_assoc, List.append_assoc, List.append_assoc, List.append_assoc]
    apply (gets_ue 1 (by decide)).bind
    rw [if_neg (by decide), if_pos rfl]
    apply (gets_flag z).bind
    apply (gets_ue (Spec.codeNum n) (h _ (by simp))).bind
    apply (gets_ue (Spec.codeNum t) (h _ (by simp))).bind
    apply (gets_ue rs.length (h _ (by simp))).bind
    exact gets_refs ue gets_ue rs (fun r hr => h _ (by simp; exact .inr (.inr (.inr ⟨r, hr, rfl⟩))))
  | output t =>
    have := h2 t rfl
    apply Gets.bind' (gets_ue t (h _ (by simp))) ?_ (List.append_nil _).symm
    rw [if_neg (by omega), if_neg (by omega)]
    exact Gets.pure ()

/-- What is cropped, as it is coded -/
def cropOf : Option (Nat × Nat × Nat × Nat) → Nat × Nat × Nat × Nat
  | none => (0, 0, 0, 0)
  | some x => x

theorem gets_rtmpCrop (c : Option (Nat × Nat × Nat × Nat)) (h : ∀ k ∈ (match c with | none => [] | some (l, r, t, b) => [l, r, t, b]), k + 1 < 2 ^ 64) :
    Gets rtmpCrop (Spec.cropBits c) (cropOf c) := by
  unfold rtmpCrop
  cases c with
  | none =>
    apply Gets.bind' (gets_flag false) ?_ (List.append_nil _).symm
    exact Gets.pure _
  | some x =>
    obtain ⟨l, r, t, b⟩ := x
    dsimp only at h
    simp only [Spec.cropBits, List.append_assoc]
    apply (gets_flag true).bind
    rw [if_neg (by decide)]
    apply (gets_ue l (h _ (by simp))).bind
    apply (gets_ue r (h _ (by simp))).bind
    apply (gets_ue t (h _ (by simp))).bind
    exact Gets.bind' (gets_ue b (h _ (by simp))) (Gets.pure _) (List.append_nil _).symm

theorem gets_rtmpSps (s : Spec.Sps) (hok : s.Ok) (hn : s.NoLists) (hp : s.profile ∉ [128, 138, 139, 134, 135]) (c : Ctx) :
    Gets (rtmpSps c) s.bits { c with refFrames := s.refFrames, width := size64 (s.width + 1) ((cropOf s.crop).1 + (cropOf s.crop).2.1), height := size64 ((2 - s.frameMbsOnly.toNat) * (s.height + 1)) ((cropOf s.crop).2.2.1 + (cropOf s.crop).2.2.2) } := by
  obtain ⟨o1, o2, o3, o4', o7, o5, o6⟩ := hok
  have o4 : ∀ k ∈ s.codes, k + 1 < 2 ^ 64 := fun k hk => by have := o4' k hk; omega
  clear o4'
  unfold rtmpSps Spec.Sps.bits
  unfold Spec.Sps.codes at o4
  simp only [List.append_assoc]
  apply (gets_u 8 _ (by omega) o1).bind
  apply (gets_u 8 _ (by omega) o2).bind
  apply (gets_u 8 _ (by omega) o3).bind
  apply (gets_ue s.id (o4 _ (by simp))).bind
  have hch : Gets (onlyIf (rtmpHigh.contains s.profile) rtmpChroma ()) (Spec.highBits s.high) () := by
    unfold onlyIf
    cases hh : s.high with
    | none =>
      rw [hh] at o5
      rw [if_neg]
      · exact Gets.pure ()
      · intro g
        have : s.profile ∈ Spec.highProfiles := (show ∀ p ∈ rtmpHigh, p ∈ Spec.highProfiles by decide) _ (by simpa using g)
        simpa using o5.2 this
    | some ch =>
      rw [hh] at o5
      have := o5.1 rfl
      rw [if_pos]
      · apply gets_rtmpChroma
        · exact o4 _ (by simp [hh])
        · exact o4 _ (by simp [hh])
        · exact o4 _ (by simp [hh])
        · intro ls hls
          exact ⟨o6 ch hh ls hls, hn ch hh ls hls⟩
      · have := (show ∀ p ∈ Spec.highProfiles, p ∉ [128, 138, 139, 134, 135] → p ∈ rtmpHigh by decide) _ this hp
        simpa using this
  apply hch.bind
  apply (gets_ue s.frameNum (o4 _ (by simp))).bind
  refine (gets_rtmpPoc s.poc (fun k hk => o4 k ?_) (fun t ht => by have := o7 t ht; omega)).bind ?_
  · simp only [List.mem_append]
    exact .inl (.inr hk)
  apply (gets_ue s.refFrames (o4 _ (by simp))).bind
  apply (gets_flag s.gaps).bind
  apply (gets_ue s.width (o4 _ (by simp))).bind
  apply (gets_ue s.height (o4 _ (by simp))).bind
  apply (gets_flag s.frameMbsOnly).bind
  have hmb : ∃ v, Gets (onlyIf (s.frameMbsOnly.toNat == 0) (u 1) 0) (if s.frameMbsOnly then [] else [s.mbaff]) v := by
    cases s.frameMbsOnly with
    | true => exact ⟨0, Gets.pure 0⟩
    | false => exact ⟨_, gets_flag _⟩
  obtain ⟨v, hmb⟩ := hmb
  apply hmb.bind
  apply (gets_flag s.direct).bind
  refine Gets.bind' (gets_rtmpCrop s.crop (fun k hk => o4 k ?_)) (Gets.pure _) (List.append_nil _).symm
  simp only [List.mem_append]
  exact .inr hk

/-- Sizes do not wrap. -/
theorem size64_eq (w c : Nat) (h : c * 2 ≤ w * 16) (hw : w * 16 < 2 ^ 64) : size64 w c = w * 16 - c * 2 := by
  unfold size64
  rw [Int.emod_eq_of_lt (by omega) (by omega)]
  omega

end Verif.Codec
