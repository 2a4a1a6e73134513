import Verif.TsDash.InitHeard
/- Of a stream that is not H.264, nothing is told about H.264. -/
namespace Verif.TsDash
open Verif Verif.TsIn

theorem updateBandwidth_none {c : Conf} {r r' : Rep} {bufs : List Bytes} {dts : Nat} (h : updateBandwidth c r bufs dts = some r') : r'.aac = r.aac ∧ r'.type = r.type ∧ r'.avc = r.avc := by
  unfold updateBandwidth at h
  split at h
  · injection h with h; rw [h]; exact ⟨rfl, rfl, rfl⟩
  · dsimp only at h
    generalize (if r.bwBytes = 0 then dts else r.bwDts) = start at h
    split at h
    · split at h
      · exact absurd h (by simp)
      · injection h with h; rw [← h]; exact ⟨rfl, rfl, rfl⟩
    · injection h with h; rw [← h]; exact ⟨rfl, rfl, rfl⟩

theorem closeSegment_none {c : Conf} {fl : Bool} {r : Rep} {e : Es} {x : Rep × Bool} (h : closeSegment c fl r e = some x) : x.1.aac = r.aac ∧ x.1.type = r.type ∧ x.1.avc = r.avc := by
  unfold closeSegment at h
  split at h
  · injection h with h; rw [← h]; exact ⟨rfl, rfl, rfl⟩
  · dsimp only at h
    split at h
    · injection h with h; rw [← h]; exact ⟨rfl, rfl, rfl⟩
    · obtain ⟨f, -, h⟩ := Option.bind_eq_some_iff.1 h
      split at h
      · exact absurd h (by simp)
      · injection h with h; rw [← h]; exact ⟨rfl, rfl, rfl⟩

theorem openSegment_none (r : Rep) (e : Es) : (openSegment r e).1.aac = r.aac ∧ (openSegment r e).1.type = r.type ∧ (openSegment r e).1.avc = r.avc := by
  unfold openSegment
  split <;> exact ⟨rfl, rfl, rfl⟩

theorem appendMeta_avcKept {r r' : Rep} {e : Es} {size dts : Nat} (h : appendMeta r e size dts = some r') : r'.type = r.type ∧ r'.avc = r.avc := by
  unfold appendMeta at h
  cases hb : r.buf with
  | none => rw [hb] at h; simp at h
  | some chain =>
    rw [hb] at h
    dsimp only at h
    cases hl : chain.getLast? with
    | none => rw [hl] at h; simp at h
    | some last =>
      rw [hl] at h
      dsimp only at h
      obtain ⟨ch, -, h⟩ := Option.bind_eq_some_iff.1 h
      cases hl' : ch.getLast? with
      | none => rw [hl'] at h; simp at h
      | some b =>
        rw [hl'] at h
        dsimp only at h
        injection h with h
        rw [← h]
        exact ⟨rfl, rfl⟩

theorem aacFrame_avcKept {r r' : Rep} {e : Es} {i : Nat} {adts : Bytes} {cur cur' : List Bytes} {b : Bool} (h : aacFrame r e i adts cur = some (r', b, cur')) : r'.type = r.type ∧ r'.avc = r.avc := by
  unfold aacFrame at h
  obtain ⟨a, -, h⟩ := Option.bind_eq_some_iff.1 h
  cases a with
  | none => simp at h; rw [h.1]; exact ⟨rfl, rfl⟩
  | some a =>
    dsimp only at h
    obtain ⟨len, -, h⟩ := Option.bind_eq_some_iff.1 h
    split at h
    · simp at h; rw [← h.1]; exact ⟨rfl, rfl⟩
    · split at h
      · exact absurd h (by simp)
      · obtain ⟨r2, h2, h⟩ := Option.map_eq_some_iff.1 h
        have hk := appendMeta_avcKept h2
        have : appendData r2 (grabMost cur (len - adts.length)).1 = r' := congrArg Prod.fst h
        rw [← this]
        exact hk

theorem aacLoop_avcKept : ∀ (n : Nat) (cur : List Bytes) (i : Nat) (r : Rep) (e : Es) (r' : Rep) (b : Bool), aacLoop n cur i r e = some (r', b) → r'.type = r.type ∧ r'.avc = r.avc
  | 0, cur, i, r, e, r', b, h => by simp [aacLoop] at h
  | n + 1, cur, i, r, e, r', b, h => by
    unfold aacLoop at h
    cases hh : adtsHead 9 [] cur with
    | over => rw [hh] at h; simp at h; rw [h.1]; exact ⟨rfl, rfl⟩
    | failed => rw [hh] at h; simp at h; rw [h.1]; exact ⟨rfl, rfl⟩
    | head adts cur1 =>
      rw [hh] at h
      dsimp only at h
      obtain ⟨x, hx, h⟩ := Option.bind_eq_some_iff.1 h
      obtain ⟨r1, b1, cur2⟩ := x
      have h1 := aacFrame_avcKept hx
      dsimp only at h
      cases b1 with
      | false => simp at h; rw [← h.1]; exact h1
      | true =>
        rw [if_pos rfl] at h
        have h2 := aacLoop_avcKept n cur2 (i + 1) r1 e r' b h
        exact ⟨h2.1.trans h1.1, h2.2.trans h1.2⟩

theorem copy_none {r r' : Rep} {e : Es} {bufs : List Bytes} (ht : r.type ≠ avcType) (h : copy r e bufs = some (r', true)) :
    r'.aac = heardOf r.type r.aac bufs.flatten ∧ r'.type = r.type ∧ r'.avc = r.avc := by
  unfold copy at h
  rw [if_neg ht] at h
  unfold heardOf
  by_cases ha : r.type = aacType
  · rw [if_pos ha] at h
    rw [if_pos ha]
    refine ⟨copyAac_told h, ?_⟩
    unfold copyAac at h
    split at h
    · injection h with h
      have : r = r' := congrArg Prod.fst h
      rw [this]
      exact ⟨rfl, rfl⟩
    · exact aacLoop_avcKept _ _ _ _ _ _ _ h
  · rw [if_neg ha] at h
    rw [if_neg ha]
    unfold copyDefault at h
    obtain ⟨r2, h2, h⟩ := Option.map_eq_some_iff.1 h
    have : r2 = r' := congrArg Prod.fst h
    rw [← this]
    have h3 := appendMeta_aac h2
    have h4 := appendMeta_avcKept h2
    exact ⟨h3, h4⟩

theorem unit_none {c : Conf} {r r' : Rep} {e : Es} {bufs : List Bytes} {b : Bool} (ht : r.type ≠ avcType) (h : unit c r e bufs = some (r', b, true)) :
    r'.aac = heardOf r.type r.aac bufs.flatten ∧ r'.type = r.type ∧ r'.avc = r.avc := by
  unfold unit at h
  obtain ⟨r1, h1, h⟩ := Option.bind_eq_some_iff.1 h
  obtain ⟨x, h2, h⟩ := Option.bind_eq_some_iff.1 h
  dsimp only at h
  have k1 := updateBandwidth_none h1
  have k2 := closeSegment_none h2
  have k3 := openSegment_none x.1 e
  have kt : (openSegment x.1 e).1.type = r.type := by rw [k3.2.1, k2.2.1, k1.2.1]
  have kv : (openSegment x.1 e).1.avc = r.avc := by rw [k3.2.2, k2.2.2, k1.2.2]
  have ka : (openSegment x.1 e).1.aac = r.aac := by rw [k3.1, k2.1, k1.1]
  split at h
  · obtain ⟨y, h3, h⟩ := Option.map_eq_some_iff.1 h
    have e1 : y.1 = r' := congrArg Prod.fst h
    have e2 : y.2 = true := congrArg (fun z => z.2.2) h
    obtain ⟨y1, y2⟩ := y
    dsimp only at e1 e2
    subst e1 e2
    have := copy_none (by rw [kt]; exact ht) h3
    rw [kt, ka, kv] at this
    exact this
  · injection h with h
    exact absurd (congrArg (fun z => z.2.2) h) (by simp)

/-- Over all units -/
theorem run_none {c : Conf} : ∀ (us : List (Es × List Bytes)) (r r' : Rep), r.type ≠ avcType → run c r us = some (r', true) →
    r'.aac = us.foldl (fun o u => heardOf r.type o u.2.flatten) r.aac ∧ r'.type = r.type ∧ r'.avc = r.avc
  | [], r, r', _, h => by
    unfold run at h
    injection h with h
    have : r = r' := congrArg Prod.fst h
    rw [this]
    exact ⟨rfl, rfl, rfl⟩
  | u :: us, r, r', ht, h => by
    unfold run at h
    obtain ⟨x, h1, h⟩ := Option.bind_eq_some_iff.1 h
    obtain ⟨r1, b, ok⟩ := x
    dsimp only at h
    cases ok with
    | false => simp at h
    | true =>
      rw [if_pos rfl] at h
      have k1 := unit_none ht h1
      have k2 := run_none us r1 r' (by rw [k1.2.1]; exact ht) h
      rw [k1.1, k1.2.1, k1.2.2] at k2
      exact k2
end Verif.TsDash
