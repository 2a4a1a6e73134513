import Verif.Codec.HevcModel
import Verif.Codec.HevcSpec
import Verif.Codec.Violations
/-
C73: parts of HEVC headers.
-/
namespace Verif.Codec
open Verif Verif.BitOp

theorem gets_failed : Gets failed [] false := fun s l h1 h2 => ⟨s, by unfold failed; rw [h1], by simpa using h2, h1⟩

theorem gets_subFlags : ∀ (ls : List Spec.SubLayer), Gets (subFlags ls.length) (ls.flatMap (fun l => [l.profile.isSome, l.level.isSome])) (ls.map fun l => (l.profile.isSome.toNat, l.level.isSome.toNat)) := by
  intro ls
  induction ls with
  | nil => exact Gets.pure []
  | cons l ls ih =>
    rw [List.flatMap_cons]
    show Gets (subFlags (ls.length + 1)) ([l.profile.isSome] ++ ([l.level.isSome] ++ ls.flatMap (fun l => [l.profile.isSome, l.level.isSome]))) _
    unfold subFlags
    exact Gets.bind (gets_flag _) (Gets.bind (gets_flag _) (Gets.bind' ih (Gets.pure _) (List.append_nil _).symm))

theorem gets_opt (o : Option (List Bool)) (n : Nat) (h : ∀ b, o = some b → b.length = n) : ∃ v, Gets (onlyIf (o.isSome.toNat != 0) (u n) 0) (o.getD []) v := by
  cases o with
  | none => exact ⟨0, Gets.pure 0⟩
  | some b => exact gets_u_any n b (h b rfl)

theorem gets_subLayers : ∀ (ls : List Spec.SubLayer), (∀ l ∈ ls, l.Ok) → Gets (subLayers (ls.map fun l => (l.profile.isSome.toNat, l.level.isSome.toNat))) (ls.flatMap Spec.SubLayer.bits) () := by
  intro ls
  induction ls with
  | nil => intro _; exact Gets.pure ()
  | cons l ls ih =>
    intro h
    obtain ⟨h1, h2⟩ := h l (by simp)
    rw [List.flatMap_cons, Spec.SubLayer.bits, List.append_assoc, List.map_cons]
    unfold subLayers
    obtain ⟨v, hv⟩ := gets_opt l.profile 88 h1
    obtain ⟨w, hw⟩ := gets_opt l.level 8 h2
    exact hv.bind (hw.bind (ih fun l hl => h l (by simp [hl])))

theorem replicate_two (n : Nat) : (List.replicate n [false, false]).flatten = List.replicate (2 * n) false := by
  induction n with
  | zero => rfl
  | succ n ih => rw [List.replicate_succ, List.flatten_cons, ih, show 2 * (n + 1) = 2 * n + 1 + 1 by omega, List.replicate_succ, List.replicate_succ]; rfl

theorem gets_hevcPtl (s : Spec.HevcSps) (hok : s.Ok) : Gets (hevcPtl s.subs.length) s.ptl () := by
  obtain ⟨o1, o2, o3, o4, o5, _⟩ := hok
  unfold hevcPtl Spec.HevcSps.ptl
  simp only [List.append_assoc]
  obtain ⟨v, hv⟩ := gets_u_any 88 s.general o2
  obtain ⟨w, hw⟩ := gets_u_any 8 s.level o3
  refine hv.bind (hw.bind ((gets_subFlags s.subs).bind ?_))
  have hr : Gets (onlyIf (s.subs.length != 0) (times (u 2) (8 - s.subs.length)) ()) (if s.subs = [] then [] else List.replicate (2 * (8 - s.subs.length)) false) () := by
    cases h : s.subs with
    | nil => exact Gets.pure ()
    | cons l ls =>
      rw [if_neg (by simp), ← replicate_two]
      show Gets (times (u 2) _) _ ()
      exact gets_replicate (u 2) (bitEnc 2 0) 0 (gets_u 2 0 (by omega) (by omega)) _
  exact hr.bind (gets_subLayers s.subs o5)

/-- Width and height that are read -/
def hevcSize (s : Spec.HevcSps) : Nat × Nat :=
  match s.window with
  | none => (s.width, s.height)
  | some (l, r, t, b) => (window64 s.width (subSampling s.format).1 l r, window64 s.height (subSampling s.format).2 t b)

theorem gets_hevcWindow (s : Spec.HevcSps) (h : ∀ l r t b, s.window = some (l, r, t, b) → l < 2 ^ 32 - 1 ∧ r < 2 ^ 32 - 1 ∧ t < 2 ^ 32 - 1 ∧ b < 2 ^ 32 - 1) :
    Gets (hevcWindow s.format s.width s.height) (Spec.windowBits s.window) (hevcSize s) := by
  unfold hevcWindow hevcSize
  cases hw : s.window with
  | none =>
    refine Gets.bind' (gets_flag false) ?_ (List.append_nil _).symm
    exact Gets.pure _
  | some x =>
    obtain ⟨l, r, t, b⟩ := x
    obtain ⟨h1, h2, h3, h4⟩ := h l r t b hw
    simp only [Spec.windowBits, List.append_assoc]
    refine (gets_flag true).bind ?_
    rw [if_neg (by decide)]
    exact (gets_ue l (by omega)).bind ((gets_ue r (by omega)).bind ((gets_ue t (by omega)).bind (Gets.bind' (gets_ue b (by omega)) (Gets.pure _) (List.append_nil _).symm)))

theorem gets_hevcSps (s : Spec.HevcSps) (hok : s.Ok) : Gets hevcSps s.bits (some (hevcSize s)) := by
  have hok' := hok
  obtain ⟨o1, o2, o3, o4, o5, o6, o7, o8, o9, o10⟩ := hok
  unfold hevcSps Spec.HevcSps.bits
  simp only [List.append_assoc]
  refine (gets_u 4 s.vps (by omega) (by omega)).bind ((gets_u 3 s.subs.length (by omega) (by omega)).bind ((gets_flag s.nesting).bind ((gets_hevcPtl s hok').bind ((gets_ue s.id (by omega)).bind ?_))))
  refine Gets.bind' gets_failed ?_ rfl
  rw [if_neg (by simp; omega)]
  refine (gets_ue s.format (by omega)).bind (Gets.bind' gets_failed ?_ rfl)
  rw [if_neg (by simp; omega)]
  have hsep : ∃ v, Gets (onlyIf (s.format == 3) (u 1) 0) (if s.format = 3 then [s.separate] else []) v := by
    unfold onlyIf
    by_cases h : s.format = 3
    · rw [if_pos (by simpa using h), if_pos h]
      exact ⟨_, gets_flag _⟩
    · rw [if_neg (by simpa using h), if_neg h]
      exact ⟨0, Gets.pure 0⟩
  obtain ⟨v, hv⟩ := hsep
  refine hv.bind ((gets_ue s.width (by omega)).bind (Gets.bind' gets_failed ?_ rfl))
  rw [if_neg (by decide)]
  refine (gets_ue s.height (by omega)).bind (Gets.bind' gets_failed ?_ rfl)
  rw [if_neg (by decide)]
  exact Gets.bind' (gets_hevcWindow s o10) (Gets.pure _) (List.append_nil _).symm

/-! ### Escaped bytes -/

theorem rbspLoop_put (n : Nat) (b : UInt8) (rest : Bytes) (z : Nat) (out : Bytes) (h1 : ¬ (z = 2 ∧ b.toNat ≤ 3)) (h2 : out.length < 4096) :
    rbspLoop (n + 1) (b :: rest) z out = rbspLoop n rest (if b = 0 then z + 1 else 0) (out ++ [b]) := by
  rw [rbspLoop.eq_def]
  dsimp only
  rw [if_neg (by omega), if_neg (by omega), if_neg (by omega)]

theorem rbspLoop_three (n : Nat) (x : UInt8) (rest out : Bytes) (h : x.toNat ≤ 3) : rbspLoop (n + 1) (3 :: x :: rest) 2 out = rbspLoop n (x :: rest) 0 out := by
  rw [rbspLoop.eq_def]
  dsimp only
  rw [if_neg (by decide), if_pos ⟨rfl, rfl⟩, if_neg (by omega)]

/-- What was escaped is had back, with the two bytes that follow. -/
theorem rbspLoop_escape : ∀ (rbsp : Bytes) (z : Nat) (t1 t2 : UInt8) (tail out : Bytes), z ≤ 2 → rbsp.getLast? ≠ some 0 → (rbsp = [] → z = 0) → out.length + rbsp.length + 2 ≤ 4096 →
    rbspLoop ((Spec.escape z rbsp).length + 2) (Spec.escape z rbsp ++ t1 :: t2 :: tail) z out = some (some (out ++ rbsp ++ [t1, t2])) := by
  intro rbsp
  induction rbsp with
  | nil =>
    intro z t1 t2 tail out _ _ hz hl
    rw [hz rfl]
    simp only [Spec.escape, List.length_nil, List.nil_append, List.append_nil, Nat.zero_add]
    simp only [List.length_nil] at hl
    rw [rbspLoop_put 1 _ _ _ _ (by omega) (by omega), rbspLoop_put 0 _ _ _ _ (by split <;> omega) (by simp; omega), rbspLoop]
    simp
  | cons b bs ih =>
    intro z t1 t2 tail out hz2 hlast _ hl
    have hlast' : bs.getLast? ≠ some 0 := by
      cases bs with
      | nil => simp
      | cons c cs => simpa using hlast
    have hb0 : bs = [] → b ≠ 0 := by
      intro h h0
      rw [h, h0] at hlast
      exact hlast rfl
    simp only [List.length_cons] at hl
    by_cases he : 2 ≤ z ∧ b.toNat ≤ 3
    · have hz : z = 2 := by omega
      have heq : Spec.escape z (b :: bs) = 3 :: b :: Spec.escape (if b = 0 then 1 else 0) bs := by rw [Spec.escape, if_pos he]
      rw [heq]
      simp only [List.length_cons, List.cons_append]
      rw [show (Spec.escape (if b = 0 then 1 else 0) bs).length + 1 + 1 + 2 = ((Spec.escape (if b = 0 then 1 else 0) bs).length + 2 + 1) + 1 by omega, hz, rbspLoop_three _ _ _ _ he.2,
        rbspLoop_put _ _ _ _ _ (by omega) (by omega), Nat.zero_add, ih _ t1 t2 tail (out ++ [b]) (by split <;> omega) hlast' (fun h => if_neg (hb0 h)) (by simp; omega)]
      simp
    · have heq : Spec.escape z (b :: bs) = b :: Spec.escape (if b = 0 then z + 1 else 0) bs := by rw [Spec.escape, if_neg he]
      rw [heq]
      simp only [List.length_cons, List.cons_append]
      rw [show (Spec.escape (if b = 0 then z + 1 else 0) bs).length + 1 + 2 = ((Spec.escape (if b = 0 then z + 1 else 0) bs).length + 2) + 1 by omega, rbspLoop_put _ _ _ _ _ (by omega) (by omega)]
      have hz' : (if b = 0 then z + 1 else 0) ≤ 2 := by
        split
        · rename_i h0
          have : ¬ 2 ≤ z := fun h => he ⟨h, by rw [h0]; decide⟩
          omega
        · omega
      rw [ih _ t1 t2 tail (out ++ [b]) hz' hlast' (fun h => if_neg (hb0 h)) (by simp; omega)]
      simp

end Verif.Codec
