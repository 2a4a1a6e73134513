import Verif.TsDash.Model
import Verif.TsDash.InitSpec
/- What is known of the sound is what the first header of the stream says: for any bytes that the program takes. -/
namespace Verif.TsDash
open Verif Verif.TsIn

theorem pop_whole : ∀ (cur : List Bytes), (pop cur = none → cur.flatten = []) ∧ ∀ c cur', pop cur = some (c, cur') → cur.flatten = c :: cur'.flatten
  | [] => ⟨fun _ => rfl, fun c cur' h => by simp [pop] at h⟩
  | [] :: r => by simpa [pop] using pop_whole r
  | (a :: b) :: r => ⟨fun h => by simp [pop] at h, fun c cur' h => by
      simp only [pop, Option.some.injEq, Prod.mk.injEq] at h
      obtain ⟨rfl, rfl⟩ := h
      rfl⟩

/-- The header that is read is what the unit begins with. -/
theorem adtsHead_whole : ∀ (n : Nat) (adts : Bytes) (cur : List Bytes), 7 ≤ n + adts.length →
    (adtsHead n adts cur = .over → adts ++ cur.flatten = []) ∧
    ∀ h rest, adtsHead n adts cur = .head h rest → h ++ rest.flatten = adts ++ cur.flatten ∧ 7 ≤ h.length
  | 0, adts, cur, hn => by
    unfold adtsHead
    refine ⟨(nomatch ·), fun h rest e => ?_⟩
    injection e with e1 e2
    subst e1 e2
    exact ⟨rfl, by omega⟩
  | n + 1, adts, cur, hn => by
    unfold adtsHead
    by_cases hc : adts.length < (if (adts[1]?.map fun b => b.toNat % 2) = some 1 then 7 else 9)
    · rw [if_pos hc]
      cases hp : pop cur with
      | none =>
        have hf := (pop_whole cur).1 hp
        dsimp only
        by_cases ha : adts = []
        · rw [if_pos ha, ha, hf]
          exact ⟨fun _ => rfl, fun h rest e => (nomatch e)⟩
        · rw [if_neg ha]
          exact ⟨(nomatch ·), fun h rest e => (nomatch e)⟩
      | some x =>
        have hf := (pop_whole cur).2 x.1 x.2 hp
        have ih := adtsHead_whole n (adts ++ [x.1]) x.2 (by simp; omega)
        dsimp only
        rw [hf]
        simpa using ih
    · rw [if_neg hc]
      refine ⟨(nomatch ·), fun h rest e => ?_⟩
      injection e with e1 e2
      subst e1 e2
      refine ⟨rfl, ?_⟩
      split at hc <;> omega

theorem appendMeta_aac {r r' : Rep} {e : Es} {size dts : Nat} (h : appendMeta r e size dts = some r') : r'.aac = r.aac := by
  unfold appendMeta at h
  cases hb : r.buf with
  | none => rw [hb] at h; simp at h
  | some chain =>
    rw [hb] at h
    dsimp only at h
    cases hl : chain.getLast? with
    | none => rw [hl] at h; simp at h
    | some last =>
      rw [hl] at h
      dsimp only at h
      obtain ⟨ch, -, h⟩ := Option.bind_eq_some_iff.1 h
      cases hl' : ch.getLast? with
      | none => rw [hl'] at h; simp at h
      | some b =>
        rw [hl'] at h
        dsimp only at h
        injection h with h
        rw [← h]

/-- What the header of a frame tells -/
def told (r : Rep) (x : Bytes) : Option Codec.Aac := r.aac.or (Codec.tsAac (x.take 7)).join

theorem aacFrame_aac {r r' : Rep} {e : Es} {i : Nat} {adts : Bytes} {cur cur' : List Bytes} (h : aacFrame r e i adts cur = some (r', true, cur')) :
    r'.aac = told r adts ∧ r'.aac.isSome := by
  unfold aacFrame at h
  obtain ⟨a, ha, h⟩ := Option.bind_eq_some_iff.1 h
  have hn : a = told r adts := by
    unfold aacParams at ha
    unfold told
    cases hr : r.aac with
    | none => rw [hr] at ha; dsimp only at ha; rw [ha]; rfl
    | some b => rw [hr] at ha; dsimp only at ha; injection ha with ha; rw [← ha]; rfl
  cases a with
  | none => simp at h
  | some a =>
    dsimp only at h
    obtain ⟨len, -, h⟩ := Option.bind_eq_some_iff.1 h
    split at h
    · simp at h
    · split at h
      · exact absurd h (by simp)
      · obtain ⟨r2, h2, h⟩ := Option.map_eq_some_iff.1 h
        have := appendMeta_aac h2
        have e1 : r'.aac = some a := by
          have : appendData r2 (grabMost cur (len - adts.length)).1 = r' := congrArg Prod.fst h
          rw [← this]
          show r2.aac = some a
          assumption
        rw [e1]
        exact ⟨hn, rfl⟩

theorem aacLoop_keeps : ∀ (n : Nat) (cur : List Bytes) (i : Nat) (r : Rep) (e : Es) (r' : Rep), r.aac.isSome → aacLoop n cur i r e = some (r', true) → r'.aac = r.aac
  | 0, cur, i, r, e, r', _, h => by simp [aacLoop] at h
  | n + 1, cur, i, r, e, r', hs, h => by
    unfold aacLoop at h
    cases hh : adtsHead 9 [] cur with
    | over => rw [hh] at h; simp at h; rw [h]
    | failed => rw [hh] at h; simp at h
    | head adts cur1 =>
      rw [hh] at h
      dsimp only at h
      obtain ⟨x, hx, h⟩ := Option.bind_eq_some_iff.1 h
      obtain ⟨r1, b, cur2⟩ := x
      dsimp only at h
      cases b with
      | false => simp at h
      | true =>
        rw [if_pos rfl] at h
        obtain ⟨h1, h2⟩ := aacFrame_aac hx
        have := aacLoop_keeps n cur2 (i + 1) r1 e r' h2 h
        rw [this, h1]
        unfold told
        cases hr : r.aac with
        | none => rw [hr] at hs; simp at hs
        | some a => rfl

theorem copyAac_told {r r' : Rep} {e : Es} {bufs : List Bytes} (h : copyAac r e bufs = some (r', true)) : r'.aac = told r bufs.flatten := by
  have h0 : told r [] = r.aac := by
    unfold told
    show r.aac.or none = r.aac
    simp
  unfold copyAac at h
  by_cases hb : bufs = []
  · rw [if_pos hb] at h
    injection h with h
    have : r = r' := congrArg Prod.fst h
    rw [hb, ← this]
    exact h0.symm
  · rw [if_neg hb] at h
    unfold turns at h
    generalize bufs.flatten.length + bufs.length = n at h
    unfold aacLoop at h
    have hf := adtsHead_whole 9 [] bufs (by simp)
    cases hh : adtsHead 9 [] bufs with
    | over =>
      rw [hh] at h
      have hf := hf.1 hh
      rw [List.nil_append] at hf
      have h : r = r' := by simpa using h
      rw [hf, h0, h]
    | failed => rw [hh] at h; simp at h
    | head adts cur1 =>
      rw [hh] at h
      obtain ⟨hf, h7⟩ := hf.2 _ _ hh
      dsimp only at h
      obtain ⟨x, hx, h⟩ := Option.bind_eq_some_iff.1 h
      obtain ⟨r1, b, cur2⟩ := x
      dsimp only at h
      cases b with
      | false => simp at h
      | true =>
        rw [if_pos rfl] at h
        obtain ⟨h1, h2⟩ := aacFrame_aac hx
        rw [aacLoop_keeps n cur2 1 r1 e r' h2 h, h1]
        unfold told
        rw [List.nil_append] at hf
        rw [← hf, List.take_append_of_le_length h7]

theorem updateBandwidth_aac {c : Conf} {r r' : Rep} {bufs : List Bytes} {dts : Nat} (h : updateBandwidth c r bufs dts = some r') : r'.aac = r.aac ∧ r'.type = r.type ∧ r'.video = r.video := by
  unfold updateBandwidth at h
  split at h
  · injection h with h; rw [h]; exact ⟨rfl, rfl, rfl⟩
  · dsimp only at h
    generalize (if r.bwBytes = 0 then dts else r.bwDts) = start at h
    split at h
    · split at h
      · exact absurd h (by simp)
      · injection h with h; rw [← h]; exact ⟨rfl, rfl, rfl⟩
    · injection h with h; rw [← h]; exact ⟨rfl, rfl, rfl⟩

theorem closeSegment_aac {c : Conf} {fl : Bool} {r : Rep} {e : Es} {x : Rep × Bool} (h : closeSegment c fl r e = some x) : x.1.aac = r.aac ∧ x.1.type = r.type ∧ x.1.video = r.video := by
  unfold closeSegment at h
  split at h
  · injection h with h; rw [← h]; exact ⟨rfl, rfl, rfl⟩
  · dsimp only at h
    split at h
    · injection h with h; rw [← h]; exact ⟨rfl, rfl, rfl⟩
    · obtain ⟨f, -, h⟩ := Option.bind_eq_some_iff.1 h
      split at h
      · exact absurd h (by simp)
      · injection h with h; rw [← h]; exact ⟨rfl, rfl, rfl⟩

theorem openSegment_aac (r : Rep) (e : Es) : (openSegment r e).1.aac = r.aac ∧ (openSegment r e).1.type = r.type ∧ (openSegment r e).1.video = r.video := by
  unfold openSegment
  split <;> exact ⟨rfl, rfl, rfl⟩

theorem appendMeta_kind {r r' : Rep} {e : Es} {size dts : Nat} (h : appendMeta r e size dts = some r') : r'.type = r.type ∧ r'.video = r.video := by
  unfold appendMeta at h
  cases hb : r.buf with
  | none => rw [hb] at h; simp at h
  | some chain =>
    rw [hb] at h
    dsimp only at h
    cases hl : chain.getLast? with
    | none => rw [hl] at h; simp at h
    | some last =>
      rw [hl] at h
      dsimp only at h
      obtain ⟨ch, -, h⟩ := Option.bind_eq_some_iff.1 h
      cases hl' : ch.getLast? with
      | none => rw [hl'] at h; simp at h
      | some b =>
        rw [hl'] at h
        dsimp only at h
        injection h with h
        rw [← h]
        exact ⟨rfl, rfl⟩

theorem aacFrame_kind {r r' : Rep} {e : Es} {i : Nat} {adts : Bytes} {cur cur' : List Bytes} {b : Bool} (h : aacFrame r e i adts cur = some (r', b, cur')) : r'.type = r.type ∧ r'.video = r.video := by
  unfold aacFrame at h
  obtain ⟨a, -, h⟩ := Option.bind_eq_some_iff.1 h
  cases a with
  | none => simp at h; rw [h.1]; exact ⟨rfl, rfl⟩
  | some a =>
    dsimp only at h
    obtain ⟨len, -, h⟩ := Option.bind_eq_some_iff.1 h
    split at h
    · simp at h; rw [← h.1]; exact ⟨rfl, rfl⟩
    · split at h
      · exact absurd h (by simp)
      · obtain ⟨r2, h2, h⟩ := Option.map_eq_some_iff.1 h
        have hk := appendMeta_kind h2
        have : appendData r2 (grabMost cur (len - adts.length)).1 = r' := congrArg Prod.fst h
        rw [← this]
        exact hk

theorem aacLoop_kind : ∀ (n : Nat) (cur : List Bytes) (i : Nat) (r : Rep) (e : Es) (r' : Rep) (b : Bool), aacLoop n cur i r e = some (r', b) → r'.type = r.type ∧ r'.video = r.video
  | 0, cur, i, r, e, r', b, h => by simp [aacLoop] at h
  | n + 1, cur, i, r, e, r', b, h => by
    unfold aacLoop at h
    cases hh : adtsHead 9 [] cur with
    | over => rw [hh] at h; simp at h; rw [h.1]; exact ⟨rfl, rfl⟩
    | failed => rw [hh] at h; simp at h; rw [h.1]; exact ⟨rfl, rfl⟩
    | head adts cur1 =>
      rw [hh] at h
      dsimp only at h
      obtain ⟨x, hx, h⟩ := Option.bind_eq_some_iff.1 h
      obtain ⟨r1, b1, cur2⟩ := x
      have h1 := aacFrame_kind hx
      dsimp only at h
      cases b1 with
      | false => simp at h; rw [← h.1]; exact h1
      | true =>
        rw [if_pos rfl] at h
        have h2 := aacLoop_kind n cur2 (i + 1) r1 e r' b h
        exact ⟨h2.1.trans h1.1, h2.2.trans h1.2⟩

/-- What is known of the sound after a unit -/
def heardOf (type : Nat) (old : Option Codec.Aac) (x : Bytes) : Option Codec.Aac := if type = aacType then old.or (Codec.tsAac (x.take 7)).join else old

theorem copy_aac {r r' : Rep} {e : Es} {bufs : List Bytes} (ht : r.type ≠ avcType) (h : copy r e bufs = some (r', true)) :
    r'.aac = heardOf r.type r.aac bufs.flatten ∧ r'.type = r.type ∧ r'.video = r.video := by
  unfold copy at h
  rw [if_neg ht] at h
  unfold heardOf
  by_cases ha : r.type = aacType
  · rw [if_pos ha] at h
    rw [if_pos ha]
    refine ⟨copyAac_told h, ?_⟩
    unfold copyAac at h
    split at h
    · injection h with h
      have : r = r' := congrArg Prod.fst h
      rw [this]
      exact ⟨rfl, rfl⟩
    · exact aacLoop_kind _ _ _ _ _ _ _ h
  · rw [if_neg ha] at h
    rw [if_neg ha]
    unfold copyDefault at h
    obtain ⟨r2, h2, h⟩ := Option.map_eq_some_iff.1 h
    have : r2 = r' := congrArg Prod.fst h
    rw [← this]
    have h3 := appendMeta_aac h2
    have h4 := appendMeta_kind h2
    exact ⟨h3, h4⟩

theorem unit_aac {c : Conf} {r r' : Rep} {e : Es} {bufs : List Bytes} {b : Bool} (ht : r.type ≠ avcType) (h : unit c r e bufs = some (r', b, true)) :
    r'.aac = heardOf r.type r.aac bufs.flatten ∧ r'.type = r.type ∧ r'.video = r.video := by
  unfold unit at h
  obtain ⟨r1, h1, h⟩ := Option.bind_eq_some_iff.1 h
  obtain ⟨x, h2, h⟩ := Option.bind_eq_some_iff.1 h
  dsimp only at h
  have k1 := updateBandwidth_aac h1
  have k2 := closeSegment_aac h2
  have k3 := openSegment_aac x.1 e
  have kt : (openSegment x.1 e).1.type = r.type := by rw [k3.2.1, k2.2.1, k1.2.1]
  have kv : (openSegment x.1 e).1.video = r.video := by rw [k3.2.2, k2.2.2, k1.2.2]
  have ka : (openSegment x.1 e).1.aac = r.aac := by rw [k3.1, k2.1, k1.1]
  split at h
  · obtain ⟨y, h3, h⟩ := Option.map_eq_some_iff.1 h
    have e1 : y.1 = r' := congrArg Prod.fst h
    have e2 : y.2 = true := congrArg (fun z => z.2.2) h
    obtain ⟨y1, y2⟩ := y
    dsimp only at e1 e2
    subst e1 e2
    have := copy_aac (by rw [kt]; exact ht) h3
    rw [kt, ka, kv] at this
    exact this
  · injection h with h
    exact absurd (congrArg (fun z => z.2.2) h) (by simp)

/-- Over all units -/
theorem run_aac {c : Conf} : ∀ (us : List (Es × List Bytes)) (r r' : Rep), r.type ≠ avcType → run c r us = some (r', true) →
    r'.aac = us.foldl (fun o u => heardOf r.type o u.2.flatten) r.aac ∧ r'.type = r.type ∧ r'.video = r.video
  | [], r, r', _, h => by
    unfold run at h
    injection h with h
    have : r = r' := congrArg Prod.fst h
    rw [this]
    exact ⟨rfl, rfl, rfl⟩
  | u :: us, r, r', ht, h => by
    unfold run at h
    obtain ⟨x, h1, h⟩ := Option.bind_eq_some_iff.1 h
    obtain ⟨r1, b, ok⟩ := x
    dsimp only at h
    cases ok with
    | false => simp at h
    | true =>
      rw [if_pos rfl] at h
      have k1 := unit_aac ht h1
      have k2 := run_aac us r1 r' (by rw [k1.2.1]; exact ht) h
      rw [k1.1, k1.2.1, k1.2.2] at k2
      exact k2

theorem fold_aac (l : List (Es × List Bytes)) : ∀ o : Option Codec.Aac, l.foldl (fun o u => heardOf aacType o u.2.flatten) o = o.or (l.findSome? fun u => (Codec.tsAac (u.2.flatten.take 7)).join) := by
  induction l with
  | nil => intro o; simp
  | cons u l ih =>
    intro o
    rw [List.foldl_cons, ih, List.findSome?_cons]
    unfold heardOf
    rw [if_pos rfl]
    cases o with
    | some a => simp
    | none =>
      simp only [Option.none_or]
      cases (Codec.tsAac (u.2.flatten.take 7)).join <;> simp

theorem fold_other (type : Nat) (ht : type ≠ aacType) (l : List (Es × List Bytes)) : ∀ o : Option Codec.Aac, l.foldl (fun o u => heardOf type o u.2.flatten) o = o := by
  induction l with
  | nil => intro o; rfl
  | cons u l ih =>
    intro o
    rw [List.foldl_cons, ih]
    unfold heardOf
    rw [if_neg ht]

end Verif.TsDash
