import Verif.TsDash.Build
/- Units become samples. -/
namespace Verif.TsDash
open Verif Verif.TsIn
open Verif.Mp4 (tag overwrite boxText boxText_length)

/-! ### Byte streams -/

theorem scanBuf_append : ∀ (a b : Bytes) (s : Scan), scanBuf (a ++ b) s =
    (match scanBuf a s with
      | .more s' => scanBuf b s'
      | .start s' rest => .start s' (rest ++ b)
      | .failed => .failed)
  | [], b, s => by simp [scanBuf]
  | c :: a, b, s => by
    simp only [List.cons_append, scanBuf]
    by_cases h0 : c = 0
    · simp only [if_pos h0]
      exact scanBuf_append a b _
    · simp only [if_neg h0]
      by_cases h1 : c = 1 ∧ 2 ≤ s.z
      · simp only [if_pos h1]
      · simp only [if_neg h1]
        by_cases h2 : 3 ≤ s.z
        · simp only [if_pos h2]
        · simp only [if_neg h2]
          exact scanBuf_append a b _

theorem scan_more : ∀ (cur : List Bytes) (s s' : Scan), scanBuf cur.flatten s = .more s' → scan cur s = some ([], s'.len, s'.type)
  | [], s, s', h => by
    simp only [List.flatten_nil, scanBuf] at h
    injection h with h
    subst h; rfl
  | b :: r, s, s', h => by
    rw [List.flatten_cons, scanBuf_append] at h
    unfold scan
    cases hb : scanBuf b s with
    | more x => rw [hb] at h; exact scan_more r x s' h
    | start x y => rw [hb] at h; simp at h
    | failed => rw [hb] at h; simp at h

theorem scan_start : ∀ (cur : List Bytes) (s s' : Scan) (rest : Bytes), scanBuf cur.flatten s = .start s' rest →
    ∃ cur', scan cur s = some (cur', s'.len, s'.type) ∧ cur'.flatten = rest ∧ cur' ≠ []
  | [], s, s', rest, h => by simp [scanBuf] at h
  | b :: r, s, s', rest, h => by
    rw [List.flatten_cons, scanBuf_append] at h
    unfold scan
    cases hb : scanBuf b s with
    | more x => rw [hb] at h; exact scan_start r x s' rest h
    | start x y =>
      rw [hb] at h
      injection h with h1 h2
      subst h1
      exact ⟨y :: r, rfl, h2, by simp⟩
    | failed => rw [hb] at h; simp at h

theorem grab_flat : ∀ (cur : List Bytes) (n : Nat), n ≤ cur.flatten.length → grab cur n = some (cur.flatten.take n)
  | cur, 0, _ => by unfold grab; simp
  | [], n + 1, h => by simp at h
  | b :: r, n + 1, h => by
    rw [List.flatten_cons, List.length_append] at h
    unfold grab
    by_cases hb : n + 1 ≤ b.length
    · rw [if_pos hb, List.flatten_cons, List.take_append_of_le_length hb]
    · rw [if_neg hb, grab_flat r (n + 1 - b.length) (by omega), List.flatten_cons, List.take_append]
      rw [List.take_of_length_le (l := b) (by omega)]
      rfl

theorem noStart_tail {a : UInt8} {l : Bytes} (h : Annex.noStart (a :: l) = true) : Annex.noStart l = true := by
  rw [Annex.noStart] at h
  · exact h
  · intro q hx hq
    subst hx; rw [hq] at h; simp [Annex.noStart] at h
  · intro q hx hq
    subst hx; rw [hq] at h; simp [Annex.noStart] at h

theorem noStart_drop (l : Bytes) : ∀ (a : Bytes), Annex.noStart (a ++ l) = true → Annex.noStart l = true
  | [], h => h
  | _ :: a, h => noStart_drop l a (noStart_tail h)

/-- Type after what was read -/
def typeOf (z len ty : Nat) (m : Bytes) : Nat := if len = 0 then (if z = 0 then (m.headD 0).toNat % 32 else 0) else ty

theorem scan_nal (R : Bytes) : ∀ (m : Bytes) (z len ty : Nat), z ≤ 2 → Annex.noStart (List.replicate z 0 ++ m) = true → m.getLast? ≠ some 0 → m ≠ [] →
    scanBuf (m ++ R) ⟨z, len, ty⟩ = scanBuf R ⟨0, len + z + m.length, typeOf z len ty m⟩
  | [], _, _, _, _, _, _, h => absurd rfl h
  | c :: m, z, len, ty, hz, hs, hl, _ => by
    rw [List.cons_append, scanBuf]
    by_cases h0 : c = 0
    · rw [if_pos h0]
      subst h0
      have hz' : z + 1 ≤ 2 := by
        by_cases h2 : z = 2
        · subst h2
          simp [List.replicate, Annex.noStart] at hs
        · omega
      have hm : m ≠ [] := by
        intro e; subst e; simp at hl
      have e : List.replicate z (0 : UInt8) ++ 0 :: m = List.replicate (z + 1) 0 ++ m := by
        rw [List.replicate_succ']; simp
      rw [e] at hs
      have hl' : m.getLast? ≠ some 0 := by
        cases m with
        | nil => exact absurd rfl hm
        | cons d m => rwa [List.getLast?_cons_cons] at hl
      have ih := scan_nal R m (z + 1) len ty hz' hs hl' hm
      show scanBuf (m ++ R) ⟨z + 1, len, ty⟩ = _
      rw [ih]
      congr 2
      · rw [List.length_cons]; omega
      · unfold typeOf
        by_cases hlen : len = 0
        · simp [hlen]
        · simp [hlen]
    · rw [if_neg h0]
      have h1 : ¬ (c = 1 ∧ 2 ≤ (⟨z, len, ty⟩ : Scan).z) := by
        rintro ⟨rfl, h2⟩
        have : z = 2 := by dsimp only at h2; omega
        subst this
        simp [List.replicate, Annex.noStart] at hs
      rw [if_neg h1, if_neg (by dsimp only; omega)]
      dsimp only
      have hs' : Annex.noStart m = true := noStart_tail (noStart_drop (c :: m) _ hs)
      by_cases hm : m = []
      · subst hm
        simp [typeOf]
      · have hl' : m.getLast? ≠ some 0 := by
          cases m with
          | nil => exact absurd rfl hm
          | cons d m => rwa [List.getLast?_cons_cons] at hl
        rw [scan_nal R m 0 (len + z + 1) _ (by omega) (by simpa using hs') hl' hm]
        congr 2
        rw [List.length_cons]; omega

theorem scan_zeros (R : Bytes) (len ty : Nat) : ∀ (k z : Nat), scanBuf (List.replicate k 0 ++ R) ⟨z, len, ty⟩ = scanBuf R ⟨z + k, len, ty⟩
  | 0, z => rfl
  | k + 1, z => by
    rw [List.replicate_succ, List.cons_append, scanBuf, if_pos rfl]
    show scanBuf _ ⟨z + 1, len, ty⟩ = _
    rw [scan_zeros R len ty k (z + 1)]
    congr 2
    omega

theorem scan_one (R : Bytes) (z len ty : Nat) (hz : 2 ≤ z) : scanBuf (1 :: R) ⟨z, len, ty⟩ = .start ⟨z, len, ty⟩ R := by
  rw [scanBuf, if_neg (by decide), if_pos ⟨rfl, hz⟩]

/-- A unit and a start code behind it -/
theorem scan_unit {n : Bytes} (h : Annex.Nal n) (k : Nat) (R : Bytes) :
    ∃ z, scanBuf (n ++ (List.replicate (k + 2) 0 ++ 1 :: R)) {} = .start ⟨z, n.length, typeOf 0 0 0 n⟩ R := by
  refine ⟨k + 2, ?_⟩
  show scanBuf _ ⟨0, 0, 0⟩ = _
  rw [scan_nal _ n 0 0 0 (by omega) (by simpa using h.2.1) h.2.2 h.1, scan_zeros, scan_one _ _ _ _ (by omega)]
  congr 2 <;> omega

theorem scan_last {n : Bytes} (h : Annex.Nal n) (k : Nat) : ∃ z, scanBuf (n ++ List.replicate k 0) {} = .more ⟨z, n.length, typeOf 0 0 0 n⟩ := by
  refine ⟨k, ?_⟩
  show scanBuf _ ⟨0, 0, 0⟩ = _
  rw [scan_nal _ n 0 0 0 (by omega) (by simpa using h.2.1) h.2.2 h.1]
  have := scan_zeros [] (0 + 0 + n.length) (typeOf 0 0 0 n) k 0
  rw [List.append_nil] at this
  rw [this]
  simp [scanBuf]

theorem type_nal {n : Bytes} (h : Annex.Nal n) : Annex.nalType n = some (typeOf 0 0 0 n) := by
  cases n with
  | nil => exact absurd rfl h.1
  | cons a l => rfl

/-! ### Parameter sets -/

/-- Whether a parameter set is understood -/
def Decodes (n : Bytes) : Prop := ∃ a st, Codec.parse Codec.tsAvc n = some (some a, st)

/-- What is known once there are both -/
def avcOf : Option Bytes → Option Bytes → Option Codec.Avc
  | some s, some _ => (Codec.parse Codec.tsAvc s).bind (·.1)
  | _, _ => none

/-- What is assumed of a unit of the stream -/
def Fine (n : Bytes) : Prop := (Spec.isSps n = true → n.length ≤ 0xffff ∧ Decodes n) ∧ (Spec.isPps n = true → n.length ≤ 0xffff)

/-- What the loop over units did -/
structure After (r r' : Rep) (ns : List Bytes) : Prop where
  data : r'.data = r.data ++ Annex.lenPrefixed 4 (ns.filter Spec.inSample)
  sps : r'.sps = r.sps.or (ns.find? Spec.isSps)
  pps : r'.pps = r.pps.or (ns.find? Spec.isPps)
  dec : ∀ s, r'.sps = some s → Decodes s
  avc : r'.avc = avcOf r'.sps r'.pps
  same : r' = { r with data := r'.data, sps := r'.sps, pps := r'.pps, avc := r'.avc }

theorem After.refl {r : Rep} (hd : ∀ s, r.sps = some s → Decodes s) (ha : r.avc = avcOf r.sps r.pps) : After r r [] :=
  ⟨by simp [Annex.lenPrefixed], by simp, by simp, hd, ha, rfl⟩

theorem After.trans {r r1 r2 : Rep} {a b : List Bytes} (h1 : After r r1 a) (h2 : After r1 r2 b) : After r r2 (a ++ b) where
  data := by rw [h2.data, h1.data, List.filter_append]; simp [Annex.lenPrefixed]
  sps := by rw [h2.sps, h1.sps, List.find?_append, Option.or_assoc]
  pps := by rw [h2.pps, h1.pps, List.find?_append, Option.or_assoc]
  dec := h2.dec
  avc := h2.avc
  same := by
    have e := h2.same
    rw [e, h1.same]

theorem decodeParams_eq {r : Rep} (hd : ∀ s, r.sps = some s → Decodes s) (ha : r.avc = none) : decodeParams r = some ({ r with avc := avcOf r.sps r.pps }, true) := by
  unfold decodeParams avcOf
  cases hs : r.sps with
  | none => simp only; rw [← ha, ← hs]
  | some s =>
    cases hp : r.pps with
    | none => simp only; rw [← ha, ← hs, ← hp]
    | some p =>
      obtain ⟨a, st, h⟩ := hd s hs
      simp only
      rw [h, ← hs, ← hp]
      rfl

/-- One parameter set -/
theorem keepParams_eq {r : Rep} {n : Bytes} {cur : List Bytes} {R : Bytes} (hn : Annex.Nal n) (hf : Fine n) (hc : cur.flatten = n ++ R)
    (hd : ∀ s, r.sps = some s → Decodes s) (ha : r.avc = avcOf r.sps r.pps) (ht : typeOf 0 0 0 n = 7 ∨ typeOf 0 0 0 n = 8) :
    ∃ r', keepParams r cur n.length (typeOf 0 0 0 n) = some (r', true) ∧ After r r' [n] := by
  have hty := type_nal hn
  have hg : grab cur n.length = some n := by
    rw [grab_flat _ _ (by rw [hc, List.length_append]; omega), hc, List.take_left' rfl]
  have hin : Spec.inSample n = false := by
    unfold Spec.inSample Spec.isSps Spec.isPps
    rw [hty]
    rcases ht with h | h <;> rw [h] <;> decide
  have hdata : Annex.lenPrefixed 4 ([n].filter Spec.inSample) = [] := by simp [hin, Annex.lenPrefixed]
  unfold keepParams
  by_cases hk : (typeOf 0 0 0 n = 7 ∧ r.sps.isSome) ∨ (typeOf 0 0 0 n = 8 ∧ r.pps.isSome)
  · rw [if_pos hk]
    refine ⟨r, rfl, by rw [hdata, List.append_nil], ?_, ?_, hd, ha, rfl⟩
    · cases hs : r.sps with
      | some s => rfl
      | none =>
        have h8 : typeOf 0 0 0 n = 8 := by
          rcases hk with h | h
          · rw [hs] at h; simp at h
          · exact h.1
        have : Spec.isSps n = false := by unfold Spec.isSps; rw [hty, h8]; rfl
        simp [this]
    · cases hs : r.pps with
      | some s => rfl
      | none =>
        have h7 : typeOf 0 0 0 n = 7 := by
          rcases hk with h | h
          · exact h.1
          · rw [hs] at h; simp at h
        have : Spec.isPps n = false := by unfold Spec.isPps; rw [hty, h7]; rfl
        simp [this]
  · rw [if_neg hk]
    rcases ht with h7 | h8
    · have hs : Spec.isSps n = true := by unfold Spec.isSps; rw [hty, h7]; rfl
      have hp : Spec.isPps n = false := by unfold Spec.isPps; rw [hty, h7]; rfl
      obtain ⟨hl, hdec⟩ := hf.1 hs
      have hnone : r.sps = none := by
        cases h : r.sps with
        | none => rfl
        | some s => exact absurd (Or.inl ⟨h7, by rw [h]; rfl⟩) hk
      rw [if_neg (by omega), hg]
      simp only [Option.bind_some, if_pos h7]
      rw [decodeParams_eq]
      · refine ⟨_, rfl, by simp only [hdata, List.append_nil], by simp [hnone, hs], by simp [hp], ?_, rfl, rfl⟩
        intro s h
        have h : some n = some s := h
        injection h with h
        subst h
        exact hdec
      · intro s h
        have h : some n = some s := h
        injection h with h
        subst h
        exact hdec
      · show r.avc = none
        rw [ha, hnone]; rfl
    · have hs : Spec.isSps n = false := by unfold Spec.isSps; rw [hty, h8]; rfl
      have hp : Spec.isPps n = true := by unfold Spec.isPps; rw [hty, h8]; rfl
      have hl := hf.2 hp
      have hnone : r.pps = none := by
        cases h : r.pps with
        | none => rfl
        | some s => exact absurd (Or.inr ⟨h8, by rw [h]; rfl⟩) hk
      rw [if_neg (by omega), hg]
      simp only [Option.bind_some, if_neg (show ¬ typeOf 0 0 0 n = 7 by omega)]
      rw [decodeParams_eq]
      · exact ⟨_, rfl, by simp only [hdata, List.append_nil], by simp [hs], by simp [hnone, hp], hd, rfl, rfl⟩
      · exact hd
      · show r.avc = none
        rw [ha, hnone]
        cases r.sps <;> rfl

/-- One unit in the loop: the turn of the loop, with what comes after the unit -/
theorem avcLoop_step {r : Rep} {n : Bytes} {cur cur' : List Bytes} {R : Bytes} {fuel size : Nat} (hn : Annex.Nal n) (hf : Fine n) (hc : cur.flatten = n ++ R)
    (hd : ∀ s, r.sps = some s → Decodes s) (ha : r.avc = avcOf r.sps r.pps) (hs : scan cur {} = some (cur', n.length, typeOf 0 0 0 n)) :
    ∃ r', After r r' [n] ∧ avcLoop (fuel + 1) cur size r = avcLoop fuel cur' (size + (Annex.lenPrefixed 4 ([n].filter Spec.inSample)).length) r' := by
  have hne : cur ≠ [] := by
    intro e; subst e
    have := congrArg List.length hc
    rw [List.length_append] at this
    have h0 : n.length ≠ 0 := fun h => hn.1 (List.length_eq_zero_iff.1 h)
    rw [List.flatten_nil, List.length_nil] at this
    omega
  have hlen : n.length ≠ 0 := fun h => hn.1 (List.length_eq_zero_iff.1 h)
  have hty := type_nal hn
  rw [avcLoop]
  rw [if_neg hne, hs]
  simp only [if_neg hlen]
  by_cases ht : typeOf 0 0 0 n = 7 ∨ typeOf 0 0 0 n = 8
  · obtain ⟨r', hk, hA⟩ := keepParams_eq (r := r) hn hf hc hd ha ht
    have hin : Spec.inSample n = false := by
      unfold Spec.inSample Spec.isSps Spec.isPps
      rw [hty]
      rcases ht with h | h <;> rw [h] <;> decide
    refine ⟨r', hA, ?_⟩
    rw [if_pos ht, hk]
    simp [hin, Annex.lenPrefixed]
  · have hs7 : Spec.isSps n = false := by
      unfold Spec.isSps; rw [hty]
      simp; omega
    have hp8 : Spec.isPps n = false := by
      unfold Spec.isPps; rw [hty]
      simp; omega
    have hin : Spec.inSample n = true := by simp [Spec.inSample, hs7, hp8]
    have hg : grab cur n.length = some n := by
      rw [grab_flat _ _ (by rw [hc, List.length_append]; omega), hc, List.take_left' rfl]
    rw [if_neg ht, hg]
    simp only [Option.bind_some]
    refine ⟨appendData r (beEnc 4 n.length ++ n), ⟨?_, by simp [appendData, hs7], by simp [appendData, hp8], hd, ha, rfl⟩, ?_⟩
    · simp [appendData, hin, Annex.lenPrefixed]
    · simp [hin, Annex.lenPrefixed, beEnc_length, Nat.add_assoc]

theorem byteStream_cons (k : Nat) (n : Bytes) (us : List (Nat × Bytes)) (t : Nat) :
    Spec.byteStream ((k, n) :: us) t = List.replicate (k + 2) 0 ++ 1 :: (n ++ Spec.byteStream us t) := by
  simp [Spec.byteStream]

theorem avcLoop_units (t : Nat) : ∀ (us : List (Nat × Bytes)) (n : Bytes) (r : Rep) (cur : List Bytes) (fuel size : Nat), us.length + 2 ≤ fuel → Annex.Nal n → Fine n →
    (∀ x ∈ us, Annex.Nal x.2) → (∀ x ∈ us, Fine x.2) → cur.flatten = n ++ Spec.byteStream us t → (∀ s, r.sps = some s → Decodes s) → r.avc = avcOf r.sps r.pps →
    ∃ r', avcLoop fuel cur size r = some (r', some (size + (Annex.lenPrefixed 4 ((n :: us.map (·.2)).filter Spec.inSample)).length)) ∧ After r r' (n :: us.map (·.2))
  | [], n, r, cur, fuel, size, hfu, hn, hf, _, _, hc, hd, ha => by
    have hb : Spec.byteStream [] t = List.replicate t 0 := by simp [Spec.byteStream]
    rw [hb] at hc
    obtain ⟨z, hz⟩ := scan_last hn t
    rw [← hc] at hz
    have hs := scan_more _ _ _ hz
    obtain ⟨fuel, rfl⟩ : ∃ f, fuel = f + 2 := ⟨fuel - 2, by simp at hfu; omega⟩
    obtain ⟨r', hA, he⟩ := avcLoop_step (fuel := fuel + 1) (size := size) hn hf hc hd ha hs
    refine ⟨r', ?_, hA⟩
    rw [he]
    unfold avcLoop
    rw [if_pos rfl]
    rfl
  | (k, m) :: us, n, r, cur, fuel, size, hfu, hn, hf, hN, hF, hc, hd, ha => by
    rw [byteStream_cons] at hc
    obtain ⟨z, hz⟩ := scan_unit hn k (m ++ Spec.byteStream us t)
    rw [← hc] at hz
    obtain ⟨cur', hs, hc', hne⟩ := scan_start _ _ _ _ hz
    obtain ⟨fuel, rfl⟩ : ∃ f, fuel = f + 1 := ⟨fuel - 1, by omega⟩
    obtain ⟨r1, hA, he⟩ := avcLoop_step (fuel := fuel) (size := size) hn hf hc hd ha hs
    obtain ⟨r2, he2, hA2⟩ := avcLoop_units t us m r1 cur' fuel _ (by rw [List.length_cons] at hfu; omega) (hN _ List.mem_cons_self) (hF _ List.mem_cons_self)
      (fun x hx => hN x (List.mem_cons_of_mem _ hx)) (fun x hx => hF x (List.mem_cons_of_mem _ hx)) hc' hA.dec hA.avc
    refine ⟨r2, ?_, hA.trans hA2⟩
    rw [he, he2]
    congr 3
    rw [Nat.add_assoc]
    congr 1
    rw [← List.length_append]
    congr 1
    rw [List.map_cons]
    have : (n :: m :: us.map (·.2)).filter Spec.inSample = [n].filter Spec.inSample ++ (m :: us.map (·.2)).filter Spec.inSample := by
      rw [← List.filter_append]; rfl
    rw [this]
    simp [Annex.lenPrefixed]

theorem stream_length (t : Nat) : ∀ us : List (Nat × Bytes), us.length * 3 ≤ (Spec.byteStream us t).length
  | [] => by simp
  | (k, n) :: us => by
    have := stream_length t us
    rw [byteStream_cons]
    simp only [List.length_append, List.length_cons, List.length_replicate]
    omega

/-! ### What a unit does -/

/-- What is not touched by samples -/
structure Same (r r' : Rep) : Prop where
  type : r'.type = r.type
  video : r'.video = r.video
  segs : r'.segs = r.segs
  seg : r'.seg = r.seg
  segPts : r'.segPts = r.segPts
  segDts : r'.segDts = r.segDts
  bandwidth : r'.bandwidth = r.bandwidth
  bwBytes : r'.bwBytes = r.bwBytes
  bwDts : r'.bwDts = r.bwDts
  files : r'.files = r.files

/-- A segment with its samples -/
structure Open (r : Rep) (l : List Spec.Sample) : Prop where
  table : Meta r l
  data : r.data = boxText (tag "mdat") [] ++ (l.map (·.bytes)).flatten

theorem Meta.congr {r r' : Rep} {l : List Spec.Sample} (h : Meta r l) (h1 : r'.video = r.video) (h2 : r'.nsamples = r.nsamples) (h3 : r'.nmeta = r.nmeta) (h4 : r'.ndata = r.ndata)
    (h5 : r'.subs = r.subs) (h6 : r'.buf = r.buf) (h7 : r'.dts = r.dts) : Meta r' l where
  nsamples := by rw [h2, h.nsamples]
  nmeta := by rw [h3, h1, h.nmeta]
  ndata := by rw [h4, h.ndata]
  subs := by rw [h5]; exact h.subs
  none_ := by rw [h6, h5, h1]; exact h.none_
  some_ := by rw [h6, h5, h1, h7]; exact h.some_

/-- The unit of a PES packet -/
def toU (e : Es) (bufs : List Bytes) : Spec.U := ⟨e.pts, e.dts, e.rand, bufs.flatten⟩

/-- What is known of parameters before and after -/
structure Known (r : Rep) : Prop where
  dec : ∀ s, r.sps = some s → Decodes s
  avc : r.avc = avcOf r.sps r.pps

theorem copyAvc_eq {r : Rep} {l : List Spec.Sample} {e : Es} {bufs : List Bytes} {nals : List Bytes} {new : List Spec.Sample} (ho : Open r l) (hk : Known r)
    (hc : Spec.Carries .avc (toU e bufs) nals new) (hf : ∀ n ∈ nals, Fine n) :
    ∃ r', copyAvc r e bufs = some (r', true) ∧ Open r' (l ++ new) ∧ Known r' ∧ Same r r' ∧ r'.aac = r.aac ∧ r'.sps = r.sps.or (nals.find? Spec.isSps) ∧
      r'.pps = r.pps.or (nals.find? Spec.isPps) := by
  obtain ⟨us, tail, hne, hN, hb, hnals, hl⟩ := hc
  have hb : bufs.flatten = Spec.byteStream us tail := hb
  obtain ⟨⟨k, n⟩, us, rfl⟩ : ∃ x y, us = x :: y := by
    cases us with
    | nil => exact absurd rfl hne
    | cons x y => exact ⟨x, y, rfl⟩
  have hlen := stream_length tail ((k, n) :: us)
  rw [← hb] at hlen
  have hbuf : bufs ≠ [] := by
    intro e; subst e
    simp at hlen
  rw [byteStream_cons] at hb
  have hz : scanBuf bufs.flatten {} = .start ⟨k + 2, 0, 0⟩ (n ++ Spec.byteStream us tail) := by
    rw [hb]
    show scanBuf _ ⟨0, 0, 0⟩ = _
    rw [scan_zeros, scan_one _ _ _ _ (by omega)]
    congr 2; omega
  obtain ⟨cur', hs, hc', hne'⟩ := scan_start _ _ _ _ hz
  obtain ⟨f, hfu⟩ : ∃ f, turns bufs = f + 1 := ⟨bufs.flatten.length + bufs.length, rfl⟩
  have hff : us.length + 2 ≤ f := by
    have h0 : 0 < bufs.length := List.length_pos_iff.2 hbuf
    unfold turns at hfu
    rw [List.length_cons] at hlen
    omega
  have hmap : nals = n :: us.map (·.2) := by rw [hnals]; rfl
  obtain ⟨r1, he, hA⟩ := avcLoop_units tail us n r cur' f 0 hff (hN _ List.mem_cons_self) (hf n (by rw [hmap]; exact List.mem_cons_self))
    (fun x hx => hN x (List.mem_cons_of_mem _ hx)) (fun x hx => hf x.2 (by rw [hmap]; exact List.mem_cons_of_mem _ (List.mem_map_of_mem hx))) hc' hk.dec hk.avc
  rw [← hmap] at he hA
  have hloop : avcLoop (turns bufs) bufs 0 r = some (r1, some (Annex.lenPrefixed 4 (nals.filter Spec.inSample)).length) := by
    rw [hfu]
    unfold avcLoop
    rw [if_neg hbuf, hs]
    simp only [if_true]
    rw [he, Nat.zero_add]
  have hsame := hA.same
  have hm1 : Meta r1 l := by
    refine ho.table.congr ?_ ?_ ?_ ?_ ?_ ?_ ?_ <;> rw [hsame]
  obtain ⟨r2, he2, hm2, hsame2⟩ := appendMeta_eq hm1 e ⟨Annex.lenPrefixed 4 (nals.filter Spec.inSample), e.dts, Spec.wrap e.pts e.dts, e.rand⟩ rfl rfl
  refine ⟨r2, ?_, ⟨?_, ?_⟩, ⟨?_, ?_⟩, ?_, ?_, ?_, ?_⟩
  · unfold copyAvc
    rw [if_neg hbuf, hloop]
    simp only [Option.bind_some]
    dsimp only at he2
    rw [he2]
    rfl
  · rw [hl]; exact hm2
  · rw [hsame2]
    show r1.data = _
    rw [hA.data, ho.data, hl]
    simp
  · rw [hsame2]; exact hA.dec
  · rw [hsame2]; exact hA.avc
  · rw [hsame2, hsame]; exact ⟨rfl, rfl, rfl, rfl, rfl, rfl, rfl, rfl, rfl, rfl⟩
  · rw [hsame2, hsame]
  · rw [hsame2]; exact hA.sps
  · rw [hsame2]; exact hA.pps

theorem copyDefault_eq {r : Rep} {l : List Spec.Sample} {e : Es} {bufs : List Bytes} {nals : List Bytes} {new : List Spec.Sample} (ho : Open r l)
    (hc : Spec.Carries .other (toU e bufs) nals new) :
    ∃ r', copyDefault r e bufs = some (r', true) ∧ Open r' (l ++ new) ∧ Same r r' ∧ r'.aac = r.aac ∧ r'.sps = r.sps ∧ r'.pps = r.pps ∧ r'.avc = r.avc := by
  obtain ⟨hn, hl⟩ := hc
  have hm1 : Meta (appendData r bufs.flatten) l := by
    refine ho.table.congr ?_ ?_ ?_ ?_ ?_ ?_ ?_ <;> rfl
  obtain ⟨r2, he2, hm2, hsame2⟩ := appendMeta_eq hm1 e ⟨bufs.flatten, e.dts, Spec.wrap e.pts e.dts, e.rand⟩ rfl rfl
  refine ⟨r2, ?_, ⟨?_, ?_⟩, ?_, ?_, ?_, ?_, ?_⟩
  · unfold copyDefault
    dsimp only at he2
    rw [he2]
    rfl
  · rw [hl]; exact hm2
  · rw [hsame2]
    show r.data ++ _ = _
    rw [ho.data, hl]
    simp [toU]
  · rw [hsame2]; exact ⟨rfl, rfl, rfl, rfl, rfl, rfl, rfl, rfl, rfl, rfl⟩
  · rw [hsame2]; rfl
  · rw [hsame2]; rfl
  · rw [hsame2]; rfl
  · rw [hsame2]; rfl

/-! ### ADTS -/

theorem pop_flat : ∀ (cur : List Bytes) (c : UInt8) (f : Bytes), cur.flatten = c :: f → ∃ cur', pop cur = some (c, cur') ∧ cur'.flatten = f
  | [], c, f, h => by simp at h
  | [] :: r, c, f, h => by
    rw [List.flatten_cons, List.nil_append] at h
    exact pop_flat r c f h
  | (d :: b) :: r, c, f, h => by
    rw [List.flatten_cons, List.cons_append] at h
    injection h with h1 h2
    subst h1
    exact ⟨b :: r, rfl, h2⟩

theorem pop_nil : ∀ (cur : List Bytes), cur.flatten = [] → pop cur = none
  | [], _ => rfl
  | [] :: r, h => by
    rw [List.flatten_cons, List.nil_append] at h
    exact pop_nil r h
  | (d :: b) :: r, h => by simp at h

/-- How long a header is -/
def headLen (h : Bytes) : Nat := if (h[1]?.map fun b => b.toNat % 2) = some 1 then 7 else 9

theorem adtsHead_eq (R : Bytes) : ∀ (n : Nat) (todo : Bytes) (done : Bytes) (cur : List Bytes), todo.length ≤ n → (done ++ todo).length = headLen (done ++ todo) → cur.flatten = todo ++ R →
    ∃ cur', adtsHead n done cur = .head (done ++ todo) cur' ∧ cur'.flatten = R
  | 0, [], done, cur, _, _, hc => ⟨cur, by simp [adtsHead], by simpa using hc⟩
  | 0, _ :: _, _, _, h, _, _ => by simp at h
  | n + 1, [], done, cur, _, hl, hc => by
    refine ⟨cur, ?_, by simpa using hc⟩
    rw [List.append_nil] at hl ⊢
    unfold adtsHead
    rw [if_neg]
    unfold headLen at hl
    omega
  | n + 1, c :: todo, done, cur, hn, hl, hc => by
    obtain ⟨cur', hp, hf⟩ := pop_flat cur c (todo ++ R) hc
    have e : done ++ c :: todo = done ++ [c] ++ todo := by simp
    have ih := adtsHead_eq R n todo (done ++ [c]) cur' (by simpa using hn) (by rw [← e]; exact hl) hf
    obtain ⟨cur2, h2, h3⟩ := ih
    refine ⟨cur2, ?_, h3⟩
    unfold adtsHead
    rw [if_pos, hp]
    · simp only
      rw [h2, e]
    · -- not yet whole
      have hlt : done.length < headLen (done ++ c :: todo) := by rw [← hl]; simp
      unfold headLen at hlt
      by_cases h1 : 1 < done.length
      · rw [List.getElem?_append_left h1] at hlt
        exact hlt
      · split <;> omega

theorem adtsHead_over (cur : List Bytes) (h : cur.flatten = []) : adtsHead 9 [] cur = .over := by
  unfold adtsHead
  rw [if_pos (by decide), pop_nil cur h]
  rfl

theorem grabMost_flat : ∀ (cur : List Bytes) (n : Nat), n ≤ cur.flatten.length → ∃ cur', grabMost cur n = (cur.flatten.take n, 0, cur') ∧ cur'.flatten = cur.flatten.drop n
  | cur, 0, _ => ⟨cur, by cases cur <;> simp [grabMost], by simp⟩
  | [], n + 1, h => by simp at h
  | b :: r, n + 1, h => by
    rw [List.flatten_cons, List.length_append] at h
    by_cases hb : n + 1 ≤ b.length
    · refine ⟨b.drop (n + 1) :: r, ?_, ?_⟩
      · unfold grabMost
        rw [if_pos hb, List.flatten_cons, List.take_append_of_le_length hb]
      · rw [List.flatten_cons, List.flatten_cons, List.drop_append_of_le_length hb]
    · obtain ⟨cur', h1, h2⟩ := grabMost_flat r (n + 1 - b.length) (by omega)
      refine ⟨cur', ?_, ?_⟩
      · unfold grabMost
        rw [if_neg hb, h1, List.flatten_cons, List.take_append, List.take_of_length_le (l := b) (by omega)]
      · rw [h2, List.flatten_cons, List.drop_append, List.drop_eq_nil_of_le (as := b) (by omega), List.nil_append]

theorem rates_get {i f : Nat} (h : Spec.frequencies[i]? = some f) : Codec.rates[i]? = some f ∧ f ≠ 0 := by
  have hi : i < 13 := by
    obtain ⟨hi, _⟩ := List.getElem?_eq_some_iff.1 h
    exact hi
  have : ∀ i < 13, ∀ f, Spec.frequencies[i]? = some f → Codec.rates[i]? = some f ∧ f ≠ 0 := by
    intro i hi f h
    have key : ∀ i < 13, Codec.rates[i]? = Spec.frequencies[i]? ∧ Spec.frequencies[i]? ≠ some 0 := by decide +kernel
    obtain ⟨k1, k2⟩ := key i hi
    refine ⟨by rw [k1, h], ?_⟩
    rintro rfl
    exact k2 h
  exact this i hi f h

theorem frame_facts {f : Spec.Frame} {index : Nat} (h : f.Ok index) : f.head.length = headLen f.head ∧ adtsLen f.head = some (f.head.length + f.raw.length) ∧ 7 ≤ f.head.length ∧ f.head.length ≤ 9 ∧
    ∀ freq, Spec.frequencies[index]? = some freq → ∃ a, Codec.tsAac (f.head.take 7) = some (some a) ∧ a.freq = freq ∧ a.freqIndex = index := by
  obtain ⟨b0, b1, b2, b3, b4, b5, rest, hh, hl, hlen, hi⟩ := h
  have h79 : 7 ≤ f.head.length ∧ f.head.length ≤ 9 := by rw [hl]; split <;> omega
  refine ⟨?_, ?_, h79.1, h79.2, ?_⟩
  · rw [hl]
    unfold headLen
    rw [hh]
    simp
  · rw [← hlen]
    conv => lhs; rw [hh]
    rfl
  · intro freq hf
    obtain ⟨hr, hr0⟩ := rates_get hf
    obtain ⟨b6, rest, rfl⟩ : ∃ b6 r, rest = b6 :: r := by
      cases rest with
      | nil => rw [hh] at h79; simp at h79
      | cons x y => exact ⟨x, y, rfl⟩
    have hx : b2.toNat >>> 2 &&& 0x0f = index := by
      rw [← hi, Nat.shiftRight_eq_div_pow, show (0x0f : Nat) = 2 ^ 4 - 1 from rfl, Nat.and_two_pow_sub_one_eq_mod]
    rw [hh]
    simp only [List.take_succ_cons, List.take_zero, Codec.tsAac]
    rw [hx, hr]
    cases freq with
    | zero => exact absurd rfl hr0
    | succ k => exact ⟨_, rfl, rfl, rfl⟩

/-- A representation knows nothing of the sound yet, or its frequency -/
def Heard (r : Rep) (index freq : Nat) : Prop := r.aac = none ∨ ∃ a, r.aac = some a ∧ a.freq = freq ∧ a.freqIndex = index

theorem aacLoop_eq (e : Es) (bufs : List Bytes) (index freq : Nat) (hfr : Spec.frequencies[index]? = some freq) : ∀ (fs : List Spec.Frame) (fuel i : Nat) (cur : List Bytes) (r : Rep) (l : List Spec.Sample),
    fs.length < fuel → Open r l → Heard r index freq → (∀ f ∈ fs, f.Ok index) → cur.flatten = fs.flatMap (fun f => f.head ++ f.raw) →
    ∃ r', aacLoop fuel cur i r e = some (r', true) ∧ Open r' (l ++ Spec.sounds (toU e bufs) freq i fs) ∧ Heard r' index freq ∧ Same r r' ∧ r'.sps = r.sps ∧ r'.pps = r.pps ∧ r'.avc = r.avc
  | [], fuel, i, cur, r, l, hfu, ho, hh, _, hc => by
    obtain ⟨fuel, rfl⟩ : ∃ f, fuel = f + 1 := ⟨fuel - 1, by simp at hfu; omega⟩
    refine ⟨r, ?_, by simpa [Spec.sounds] using ho, hh, ⟨rfl, rfl, rfl, rfl, rfl, rfl, rfl, rfl, rfl, rfl⟩, rfl, rfl, rfl⟩
    unfold aacLoop
    rw [adtsHead_over cur (by simpa using hc)]
  | f :: fs, fuel, i, cur, r, l, hfu, ho, hh, hok, hc => by
    obtain ⟨fuel, rfl⟩ : ∃ f, fuel = f + 1 := ⟨fuel - 1, by omega⟩
    obtain ⟨f1, f2, f3, f4, f5⟩ := frame_facts (hok f List.mem_cons_self)
    obtain ⟨-, hr0⟩ := rates_get hfr
    have hc : cur.flatten = f.head ++ (f.raw ++ fs.flatMap (fun f => f.head ++ f.raw)) := by rw [hc]; simp
    obtain ⟨cur1, h1, hc1⟩ := adtsHead_eq (f.raw ++ fs.flatMap (fun f => f.head ++ f.raw)) 9 f.head [] cur f4 (by simpa using f1) hc
    rw [List.nil_append] at h1
    obtain ⟨cur2, h2, hc2⟩ := grabMost_flat cur1 f.raw.length (by rw [hc1, List.length_append]; omega)
    rw [hc1, List.take_left' rfl] at h2
    rw [hc1, List.drop_left' rfl] at hc2
    -- the parameters
    have hp : ∃ a, aacParams r f.head = some (some a) ∧ a.freq = freq ∧ a.freqIndex = index := by
      rcases hh with h | ⟨a, h, hf, hi⟩
      · obtain ⟨a, ha, hf⟩ := f5 freq hfr
        exact ⟨a, by unfold aacParams; rw [h]; exact ha, hf⟩
      · exact ⟨a, by unfold aacParams; rw [h], hf, hi⟩
    obtain ⟨a, hpa, haf⟩ := hp
    have hm1 : Meta { r with aac := some a } l := by
      refine ho.table.congr ?_ ?_ ?_ ?_ ?_ ?_ ?_ <;> rfl
    obtain ⟨r2, he2, hm2, hsame2⟩ := appendMeta_eq hm1 e ⟨f.raw, e.dts + 90000 * 1024 * i / freq, Spec.wrap e.pts e.dts, e.rand⟩ rfl rfl
    have hframe : aacFrame r e i f.head cur1 = some (appendData r2 f.raw, true, cur2) := by
      unfold aacFrame
      rw [hpa]
      simp only [Option.bind_some]
      rw [f2]
      simp only [Option.bind_some]
      rw [if_neg (by omega), if_neg (by rw [haf.1]; exact hr0), haf.1, Nat.add_sub_cancel_left]
      dsimp only at he2
      rw [he2]
      simp only [Option.map_some]
      rw [h2]
      rfl
    have ho2 : Open (appendData r2 f.raw) (l ++ [⟨f.raw, e.dts + 90000 * 1024 * i / freq, Spec.wrap e.pts e.dts, e.rand⟩]) := by
      refine ⟨?_, ?_⟩
      · refine hm2.congr ?_ ?_ ?_ ?_ ?_ ?_ ?_ <;> rfl
      · show r2.data ++ f.raw = _
        rw [hsame2]
        show r.data ++ f.raw = _
        rw [ho.data]
        simp
    have hh2 : Heard (appendData r2 f.raw) index freq := by
      refine .inr ⟨a, ?_, haf⟩
      show r2.aac = _
      rw [hsame2]
    obtain ⟨r3, he3, ho3, hh3, hs3, hs4, hs5, hs6⟩ := aacLoop_eq e bufs index freq hfr fs fuel (i + 1) cur2 (appendData r2 f.raw) _ (by simpa using hfu) ho2 hh2
      (fun f h => hok f (List.mem_cons_of_mem _ h)) hc2
    refine ⟨r3, ?_, ?_, hh3, ?_, ?_, ?_, ?_⟩
    · unfold aacLoop
      rw [h1]
      simp only
      rw [hframe]
      simp only [Option.bind_some, if_true]
      exact he3
    · rw [Spec.sounds, List.append_cons]
      exact ho3
    · have hv : Same r (appendData r2 f.raw) := by
        unfold appendData
        rw [hsame2]
        exact ⟨rfl, rfl, rfl, rfl, rfl, rfl, rfl, rfl, rfl, rfl⟩
      exact ⟨hs3.type.trans hv.type, hs3.video.trans hv.video, hs3.segs.trans hv.segs, hs3.seg.trans hv.seg, hs3.segPts.trans hv.segPts, hs3.segDts.trans hv.segDts,
        hs3.bandwidth.trans hv.bandwidth, hs3.bwBytes.trans hv.bwBytes, hs3.bwDts.trans hv.bwDts, hs3.files.trans hv.files⟩
    · rw [hs4]; show r2.sps = _; rw [hsame2]
    · rw [hs5]; show r2.pps = _; rw [hsame2]
    · rw [hs6]; show r2.avc = _; rw [hsame2]

theorem frames_length {index : Nat} : ∀ (fs : List Spec.Frame), (∀ f ∈ fs, f.Ok index) → fs.length * 7 ≤ (fs.flatMap (fun f => f.head ++ f.raw)).length
  | [], _ => by simp
  | f :: fs, h => by
    have h1 := frames_length fs (fun f hf => h f (List.mem_cons_of_mem _ hf))
    have h2 := (frame_facts (h f List.mem_cons_self)).2.2.1
    rw [List.flatMap_cons, List.length_append, List.length_append, List.length_cons]
    omega

theorem copyAac_eq {r : Rep} {l : List Spec.Sample} {e : Es} {bufs : List Bytes} {nals : List Bytes} {new : List Spec.Sample} {index : Nat} (ho : Open r l)
    (hh : ∀ freq, Spec.frequencies[index]? = some freq → Heard r index freq) (hc : Spec.Carries (.aac index) (toU e bufs) nals new) :
    ∃ r', copyAac r e bufs = some (r', true) ∧ Open r' (l ++ new) ∧ (∀ freq, Spec.frequencies[index]? = some freq → Heard r' index freq) ∧ Same r r' ∧ r'.sps = r.sps ∧ r'.pps = r.pps ∧ r'.avc = r.avc := by
  obtain ⟨fs, freq, hfr, hok, hb, -, hl⟩ := hc
  have hb : bufs.flatten = fs.flatMap (fun f => f.head ++ f.raw) := hb
  have hlen := frames_length fs hok
  unfold copyAac
  by_cases hbuf : bufs = []
  · subst hbuf
    rw [← hb] at hlen
    have hfs : fs = [] := by
      cases fs with
      | nil => rfl
      | cons f fs => simp at hlen
    subst hfs
    rw [if_pos rfl]
    refine ⟨r, rfl, by rw [hl]; simpa [Spec.sounds] using ho, hh, ⟨rfl, rfl, rfl, rfl, rfl, rfl, rfl, rfl, rfl, rfl⟩, rfl, rfl, rfl⟩
  · rw [if_neg hbuf]
    obtain ⟨r', h1, h2, h3, h4⟩ := aacLoop_eq e bufs index freq hfr fs (turns bufs) 0 bufs r l (by unfold turns; rw [hb]; omega) ho (hh freq hfr) hok hb
    refine ⟨r', h1, by rw [hl]; exact h2, ?_, h4⟩
    intro f hf
    rw [hfr] at hf
    injection hf with hf
    subst hf
    exact h3

end Verif.TsDash
