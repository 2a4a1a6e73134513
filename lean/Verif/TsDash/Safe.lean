import Verif.TsDash.Props
import Verif.Codec.TsProps
/- C77: whatever units have in them, nothing is read or written outside of buffers, and loops come to an end. -/
namespace Verif.TsDash
open Verif Verif.TsIn
open Verif.Mp4 (tag overwrite boxText boxText_length)

theorem putAt_safe {p : Nat} {x b : Bytes} (h : p + x.length ≤ b.length) : ∃ b', putAt p x b = some b' ∧ b'.length = b.length := by
  refine ⟨overwrite b p x, by unfold putAt; rw [if_pos h], ?_⟩
  unfold overwrite
  simp only [List.length_append, List.length_take, List.length_drop]
  omega

theorem grow_safe {p n : Nat} {b : Bytes} (h : p + 4 ≤ b.length) : ∃ b' v, grow p n b = some (b', v) ∧ b'.length = b.length := by
  unfold grow get32
  rw [if_pos h]
  simp only [Option.bind_some]
  obtain ⟨b', h1, h2⟩ := putAt_safe (p := p) (x := beEnc 4 (beDec ((b.drop p).take 4) + n)) (b := b) (by rw [beEnc_length]; exact h)
  rw [h1]
  exact ⟨b', _, rfl, h2⟩

theorem patches_safe {r : Rep} {sd : Option (Nat × Nat)} (hs : r.subs = { subs0 with sampleDuration := sd }) (e : Es) (md : Nat) {b : Bytes} (hb : 168 ≤ b.length) : ∃ b', patches r e md b = some b' := by
  have h4 : ∀ n, (beEnc 4 n).length = 4 := fun n => beEnc_length ..
  have h8 : ∀ n, (beEnc 8 n).length = 8 := fun n => beEnc_length ..
  unfold patches
  rw [hs]
  simp only [subs0]
  generalize diffU 32 e.dts r.segDts = D
  obtain ⟨b1, e1, l1⟩ := putAt_safe (p := 48) (x := beEnc 8 r.segPts) (b := b) (by rw [h8]; omega)
  rw [e1]; simp only [Option.bind_some]
  obtain ⟨b2, e2, l2⟩ := putAt_safe (p := 140) (x := beEnc 8 r.segDts) (b := b1) (by rw [h8]; omega)
  rw [e2]; simp only [Option.bind_some]
  obtain ⟨b3, e3, l3⟩ := putAt_safe (p := 100) (x := beEnc 4 r.seg) (b := b2) (by rw [h4]; omega)
  rw [e3]; simp only [Option.bind_some]
  obtain ⟨b4, e4, l4⟩ := putAt_safe (p := 160) (x := beEnc 4 r.nsamples) (b := b3) (by rw [h4]; omega)
  rw [e4]; simp only [Option.bind_some]
  obtain ⟨b5, e5, l5⟩ := putAt_safe (p := 72) (x := beEnc 4 D) (b := b4) (by rw [h4]; omega)
  rw [e5]; simp only [Option.bind_some]
  obtain ⟨b6, v6, e6, l6⟩ := grow_safe (p := 104) (n := r.nmeta) (b := b5) (by omega)
  rw [e6]; simp only [Option.bind_some]
  obtain ⟨b7, v7, e7, l7⟩ := grow_safe (p := 148) (n := r.nmeta) (b := b6) (by omega)
  rw [e7]; simp only [Option.bind_some]
  obtain ⟨b8, v8, e8, l8⟩ := grow_safe (p := 80) (n := r.nmeta) (b := b7) (by omega)
  rw [e8]; simp only [Option.bind_some]
  obtain ⟨b9, e9, l9⟩ := putAt_safe (p := 68) (x := beEnc 4 (v8 + md)) (b := b8) (by rw [h4]; omega)
  rw [e9]; simp only [Option.bind_some]
  obtain ⟨b10, e10, -⟩ := putAt_safe (p := 164) (x := beEnc 4 (v8 + 8)) (b := b9) (by rw [h4]; omega)
  exact ⟨b10, e10⟩

/-- An open segment, of whatever -/
structure Some' (r : Rep) : Prop where
  table : ∃ l, Meta r l
  data : 8 ≤ r.data.length

theorem endSegment_safe {r : Rep} (h : Some' r) (e : Es) : ∃ f, endSegment r e = some f := by
  obtain ⟨l, hm⟩ := h.table
  obtain ⟨sd, hsub⟩ := hm.subs
  have e0 : r.subs.mdat = 0 := by rw [hsub]; rfl
  obtain ⟨d', v, hg, -⟩ := grow_safe (p := r.subs.mdat) (n := r.ndata) (b := r.data) (by rw [e0]; have := h.data; omega)
  have key : ∀ chain b rest, putIf chain (if positive32 (diffU 32 e.dts r.dts) then r.subs.sampleDuration else none) (beEnc 4 (diffU 32 e.dts r.dts)) = some (b :: rest) →
      r.buf = some chain → 168 ≤ b.length → ∃ f, endSegment r e = some f := by
    intro chain b rest h1 h2 hb
    unfold endSegment
    rw [h2]
    simp only [Option.bind_some]
    rw [h1]
    simp only [Option.bind_some]
    rw [hg]
    simp only [Option.bind_some]
    obtain ⟨b', hp⟩ := patches_safe hsub e v hb
    rw [hp]
    exact ⟨_, rfl⟩
  have hh := head0_length r.video
  rcases List.eq_nil_or_concat l with hl | ⟨a, t, hl⟩
  · obtain ⟨hb, hs⟩ := hm.none_ hl
    refine key _ (head0 r.video) [] ?_ hb (by omega)
    rw [hs]
    simp [putIf]
  · rw [List.concat_eq_append] at hl
    obtain ⟨pre, x, hb, hs, hf, ⟨y, hy⟩, hdt⟩ := hm.some_ a t hl
    have hput : putIf (pre ++ [x ++ Mp4.row (mask r.video) (msOf t 0)]) (if positive32 (diffU 32 e.dts r.dts) then r.subs.sampleDuration else none) (beEnc 4 (diffU 32 e.dts r.dts)) =
        some (pre ++ [x ++ Mp4.row (mask r.video) (msOf t (if positive32 (diffU 32 e.dts r.dts) then diffU 32 e.dts r.dts else 0))]) := by
      have hp := put_last r.video pre [] x t (diffU 32 e.dts r.dts)
      rw [List.append_nil, List.append_nil] at hp
      by_cases c : positive32 (diffU 32 e.dts r.dts) = true
      · rw [if_pos c, if_pos c, hs]
        exact hp
      · rw [if_neg c, if_neg c]
        rfl
    cases pre with
    | nil =>
      simp only [List.nil_append, List.head?_cons, Option.some.injEq] at hy
      exact key _ _ [] hput hb (by rw [hy]; simp only [List.length_append]; omega)
    | cons p q =>
      simp only [List.cons_append, List.head?_cons, Option.some.injEq] at hy
      exact key _ p _ hput hb (by rw [hy]; simp only [List.length_append]; omega)

/-- A sample of any size is added. -/
theorem appendMeta_safe {r : Rep} (h : Some' r) (e : Es) (size dts : Nat) : ∃ r', appendMeta r e size dts = some r' ∧ Some' r' ∧ r'.segs = r.segs ∧ r'.aac = r.aac ∧ r'.sps = r.sps ∧ r'.type = r.type := by
  obtain ⟨l, hm⟩ := h.table
  obtain ⟨r', h1, h2, h3⟩ := appendMeta_eq hm e ⟨List.replicate size 0, dts, Spec.wrap e.pts e.dts, e.rand⟩ rfl rfl
  simp only [List.length_replicate] at h1
  refine ⟨r', h1, ⟨⟨_, h2⟩, ?_⟩, ?_, ?_, ?_, ?_⟩ <;> rw [h3]
  exact h.data

/-! ### Units of a byte stream -/

theorem scanBuf_length : ∀ (b : Bytes) (s : Scan),
    (∀ s', scanBuf b s = .more s' → s'.len + s'.z = s.len + s.z + b.length) ∧ (∀ s' rest, scanBuf b s = .start s' rest → s'.len + s'.z + 1 + rest.length = s.len + s.z + b.length)
  | [], s => by
    unfold scanBuf
    refine ⟨fun s' h => ?_, fun s' rest h => nomatch h⟩
    injection h with h
    subst h; rfl
  | c :: b, s => by
    unfold scanBuf
    split
    · obtain ⟨h1, h2⟩ := scanBuf_length b { s with z := s.z + 1 }
      refine ⟨fun s' h => ?_, fun s' rest h => ?_⟩
      · have := h1 s' h
        simp only [List.length_cons] at this ⊢
        omega
      · have := h2 s' rest h
        simp only [List.length_cons] at this ⊢
        omega
    · split
      · refine ⟨fun s' h => (nomatch h), fun s' rest h => ?_⟩
        injection h with h1 h2
        subst h1; subst h2
        simp only [List.length_cons]
        omega
      · split
        · exact ⟨fun s' h => (nomatch h), fun s' rest h => (nomatch h)⟩
        · obtain ⟨h1, h2⟩ := scanBuf_length b { z := 0, len := s.len + s.z + 1, type := if s.len = 0 then (if s.z = 0 then c.toNat % 32 else 0) else s.type }
          refine ⟨fun s' h => ?_, fun s' rest h => ?_⟩
          · have := h1 s' h
            simp only [List.length_cons] at this ⊢
            omega
          · have := h2 s' rest h
            simp only [List.length_cons] at this ⊢
            omega

/-- The type is that of the first byte, or 0 -/
def TypeIs (T : Nat) (s : Scan) : Prop := (0 < s.len ∧ s.type = T) ∨ (s.len = 0 ∧ 0 < s.z ∧ s.type = 0 ∧ T = 0)

theorem scanBuf_type (T : Nat) : ∀ (b : Bytes) (s : Scan), TypeIs T s →
    (∀ s', scanBuf b s = .more s' → TypeIs T s') ∧ (∀ s' rest, scanBuf b s = .start s' rest → TypeIs T s')
  | [], s, hs => by
    unfold scanBuf
    refine ⟨fun s' h => ?_, fun s' rest h => nomatch h⟩
    injection h with h
    subst h; exact hs
  | c :: b, s, hs => by
    unfold scanBuf
    split
    · apply scanBuf_type T b
      rcases hs with ⟨h1, h2⟩ | ⟨h1, h2, h3, h4⟩
      · exact .inl ⟨h1, h2⟩
      · exact .inr ⟨h1, Nat.succ_pos _, h3, h4⟩
    · split
      · refine ⟨fun s' h => (nomatch h), fun s' rest h => ?_⟩
        injection h with h1 h2
        subst h1; exact hs
      · split
        · exact ⟨fun s' h => (nomatch h), fun s' rest h => (nomatch h)⟩
        · apply scanBuf_type T b
          left
          refine ⟨Nat.succ_pos _, ?_⟩
          dsimp only
          rcases hs with ⟨h1, h2⟩ | ⟨h1, h2, h3, h4⟩
          · rw [if_neg (by omega), h2]
          · rw [if_pos h1, if_neg (by omega), h4]

theorem scanBuf_first (b : Bytes) (ty : Nat) (hty : ty ≠ 0) : (∀ s', scanBuf b {} = .more s' → s'.type = ty → Annex.nalType b = some ty) ∧
    (∀ s' rest, scanBuf b {} = .start s' rest → s'.type = ty → Annex.nalType b = some ty) := by
  have aux : ∀ (c : UInt8) (b : Bytes) (T : Nat) (s' : Scan), (T = 0 ∨ Annex.nalType (c :: b) = some T) → TypeIs T s' → s'.type = ty → Annex.nalType (c :: b) = some ty := by
    intro c b T s' hT h1 h2
    have e : T = ty := by
      rcases h1 with ⟨-, h⟩ | ⟨-, -, h, h'⟩
      · omega
      · omega
    rcases hT with hT | hT
    · omega
    · rw [hT, e]
  cases b with
  | nil =>
    refine ⟨fun s' h h2 => ?_, fun s' rest h => nomatch h⟩
    unfold scanBuf at h
    injection h with h
    subst h
    exact absurd h2.symm hty
  | cons c b =>
    rw [scanBuf]
    split
    · have := scanBuf_type 0 b { z := 0 + 1, len := 0, type := 0 } (.inr ⟨rfl, Nat.succ_pos _, rfl, rfl⟩)
      exact ⟨fun s' h h2 => aux c b 0 s' (.inl rfl) (this.1 s' h) h2, fun s' rest h h2 => aux c b 0 s' (.inl rfl) (this.2 s' rest h) h2⟩
    · split
      · rename_i h
        exact absurd h.2 (by decide)
      · split
        · exact ⟨fun s' h => (nomatch h), fun s' rest h => (nomatch h)⟩
        · have := scanBuf_type (c.toNat % 32) b { z := 0, len := 0 + 0 + 1, type := if (0 : Nat) = 0 then (if (0 : Nat) = 0 then c.toNat % 32 else 0) else 0 } (.inl ⟨Nat.succ_pos _, by simp⟩)
          have e : c.toNat % 32 = 0 ∨ Annex.nalType (c :: b) = some (c.toNat % 32) := .inr rfl
          exact ⟨fun s' h h2 => aux c b _ s' e (this.1 s' h) h2, fun s' rest h h2 => aux c b _ s' e (this.2 s' rest h) h2⟩

theorem scan_failed : ∀ (cur : List Bytes) (s : Scan), scanBuf cur.flatten s = .failed → scan cur s = none
  | [], s, h => by simp [scanBuf] at h
  | b :: r, s, h => by
    rw [List.flatten_cons, scanBuf_append] at h
    unfold scan
    cases hb : scanBuf b s with
    | more s1 =>
      rw [hb] at h
      exact scan_failed r s1 h
    | start s1 rest => rw [hb] at h; exact nomatch h
    | failed => rfl

/-- One turn of the search: the length fits, the type is that of the first byte, and less is left. -/
theorem scan_safe (cur : List Bytes) (hc : cur ≠ []) : scan cur {} = none ∨ ∃ cur' len type, scan cur {} = some (cur', len, type) ∧ len ≤ cur.flatten.length ∧
    (type ≠ 0 → Annex.nalType cur.flatten = some type) ∧ (cur' = [] ∨ cur'.flatten.length < cur.flatten.length) ∧ ∃ a, cur.flatten = a ++ cur'.flatten := by
  have hl := scanBuf_length cur.flatten {}
  cases hb : scanBuf cur.flatten {} with
  | failed => exact .inl (scan_failed cur {} hb)
  | more s =>
    right
    have := hl.1 s hb
    refine ⟨[], s.len, s.type, scan_more cur {} s hb, ?_, fun h => (scanBuf_first cur.flatten s.type h).1 s hb rfl, .inl rfl, ⟨cur.flatten, by simp⟩⟩
    have e : (({} : Scan).len + ({} : Scan).z) = 0 := rfl
    omega
  | start s rest =>
    right
    have := hl.2 s rest hb
    have e : (({} : Scan).len + ({} : Scan).z) = 0 := rfl
    obtain ⟨cur', h1, h2, h3⟩ := scan_start cur {} s rest hb
    refine ⟨cur', s.len, s.type, h1, by omega, fun h => (scanBuf_first cur.flatten s.type h).2 s rest hb rfl, .inr (by rw [h2]; omega), ?_⟩
    rw [h2]
    obtain ⟨a, ha⟩ : ∃ a, cur.flatten = a ++ rest := by
      have : ∀ (b : Bytes) (s s' : Scan) (rest : Bytes), scanBuf b s = .start s' rest → ∃ a, b = a ++ rest := by
        intro b
        induction b with
        | nil => intro s s' rest h; exact nomatch h
        | cons c b ih =>
          intro s s' rest h
          unfold scanBuf at h
          split at h
          · obtain ⟨a, ha⟩ := ih _ _ _ h
            exact ⟨c :: a, by rw [ha]; rfl⟩
          · split at h
            · injection h with h1 h2
              exact ⟨[c], by rw [h2]; rfl⟩
            · split at h
              · exact nomatch h
              · obtain ⟨a, ha⟩ := ih _ _ _ h
                exact ⟨c :: a, by rw [ha]; rfl⟩
      exact this _ _ _ _ hb
    exact ⟨a, ha⟩

/-- Sequence parameter sets in some bytes can be decoded, or are refused. -/
def Sets (b : Bytes) : Prop := ∀ a x y, b = a ++ x ++ y → Spec.isSps x = true → Codec.parse Codec.tsAvc x ≠ none

theorem Sets.tail {a b : Bytes} (h : Sets (a ++ b)) : Sets b := by
  intro c x y hb hx
  exact h (a ++ c) x y (by rw [hb]; simp) hx

/-- What is kept while units are copied -/
structure Kept (r r' : Rep) : Prop where
  some_ : Some' r'
  segs : r'.segs = r.segs
  aac : r'.aac = r.aac
  sps : ∀ s, r'.sps = some s → Codec.parse Codec.tsAvc s ≠ none
  type : r'.type = r.type

theorem Some'.congr {r r' : Rep} (h : Some' r) (h1 : r'.video = r.video) (h2 : r'.nsamples = r.nsamples) (h3 : r'.nmeta = r.nmeta) (h4 : r'.ndata = r.ndata)
    (h5 : r'.subs = r.subs) (h6 : r'.buf = r.buf) (h7 : r'.dts = r.dts) (h8 : 8 ≤ r'.data.length) : Some' r' :=
  ⟨h.table.imp fun _ hm => hm.congr h1 h2 h3 h4 h5 h6 h7, h8⟩

theorem decodeParams_safe {r : Rep} (h : Some' r) (hs : ∀ s, r.sps = some s → Codec.parse Codec.tsAvc s ≠ none) : ∃ r' ok, decodeParams r = some (r', ok) ∧ Kept r r' := by
  unfold decodeParams
  split
  · rename_i s p hsps hpps
    have := hs s hsps
    cases hp : Codec.parse Codec.tsAvc s with
    | none => exact absurd hp this
    | some a => exact ⟨{ r with avc := a.1 }, a.1.isSome, rfl, h.congr rfl rfl rfl rfl rfl rfl rfl h.data, rfl, rfl, hs, rfl⟩
  · exact ⟨r, true, rfl, h, rfl, rfl, hs, rfl⟩

theorem keepParams_safe {r : Rep} (h : Some' r) (hs : ∀ s, r.sps = some s → Codec.parse Codec.tsAvc s ≠ none) {cur : List Bytes} {len type : Nat} (hl : len ≤ cur.flatten.length) (h0 : len ≠ 0)
    (ht : Annex.nalType cur.flatten = some type) (hd : Sets cur.flatten) : ∃ r' ok, keepParams r cur len type = some (r', ok) ∧ Kept r r' := by
  unfold keepParams
  split
  · exact ⟨r, true, rfl, h, rfl, rfl, hs, rfl⟩
  · split
    · exact ⟨r, false, rfl, h, rfl, rfl, hs, rfl⟩
    · rw [grab_flat cur len hl]
      simp only [Option.bind_some]
      by_cases h7 : type = 7
      · rw [if_pos h7]
        obtain ⟨r', ok, h1, h2⟩ := decodeParams_safe (r := { r with sps := some (cur.flatten.take len) }) (h.congr rfl rfl rfl rfl rfl rfl rfl h.data) (by
          intro s hse
          injection hse with hse
          rw [← hse]
          refine hd [] _ (cur.flatten.drop len) (by simp) ?_
          subst h7
          cases hc : cur.flatten with
          | nil => rw [hc] at hl; simp at hl; omega
          | cons c b =>
            rw [hc] at ht
            obtain ⟨m, rfl⟩ : ∃ m, len = m + 1 := ⟨len - 1, by omega⟩
            rw [List.take_succ_cons]
            unfold Spec.isSps
            have : Annex.nalType (c :: b.take m) = some 7 := ht
            rw [this]; rfl)
        exact ⟨r', ok, h1, h2.some_, h2.segs, h2.aac, h2.sps, h2.type⟩
      · rw [if_neg h7]
        obtain ⟨r', ok, h1, h2⟩ := decodeParams_safe (r := { r with pps := some (cur.flatten.take len) }) (h.congr rfl rfl rfl rfl rfl rfl rfl h.data) hs
        exact ⟨r', ok, h1, h2.some_, h2.segs, h2.aac, h2.sps, h2.type⟩

theorem Kept.trans {a b c : Rep} (h : Kept a b) (h' : Kept b c) : Kept a c := ⟨h'.some_, h'.segs.trans h.segs, h'.aac.trans h.aac, h'.sps, h'.type.trans h.type⟩

theorem avcLoop_safe : ∀ (n : Nat) (cur : List Bytes) (size : Nat) (r : Rep), Some' r → (∀ s, r.sps = some s → Codec.parse Codec.tsAvc s ≠ none) → Sets cur.flatten →
    (if cur = [] then 1 else cur.flatten.length + 2) ≤ n → ∃ r' o, avcLoop n cur size r = some (r', o) ∧ Kept r r'
  | 0, cur, size, r, h, hs, hd, hn => by split at hn <;> omega
  | n + 1, cur, size, r, h, hs, hd, hn => by
    rw [avcLoop]
    by_cases hc : cur = []
    · rw [if_pos hc]
      exact ⟨r, some size, rfl, h, rfl, rfl, hs, rfl⟩
    · rw [if_neg hc] at hn ⊢
      rcases scan_safe cur hc with hf | ⟨cur', len, type, h1, h2, h3, h4, a, h5⟩
      · rw [hf]
        exact ⟨r, none, rfl, h, rfl, rfl, hs, rfl⟩
      · rw [h1]
        dsimp only
        have hn' : (if cur' = [] then 1 else cur'.flatten.length + 2) ≤ n := by
          split
          · omega
          · rename_i hne
            rcases h4 with h4 | h4
            · exact absurd h4 hne
            · omega
        have hd' : Sets cur'.flatten := by rw [h5] at hd; exact hd.tail
        by_cases h0 : len = 0
        · rw [if_pos h0]
          exact avcLoop_safe n cur' size r h hs hd' hn'
        · rw [if_neg h0]
          by_cases ht : type = 7 ∨ type = 8
          · rw [if_pos ht]
            obtain ⟨r1, ok, g1, g2⟩ := keepParams_safe h hs h2 h0 (h3 (by omega)) hd
            rw [g1]
            simp only [Option.bind_some]
            cases ok with
            | false => exact ⟨r1, none, rfl, g2⟩
            | true =>
              obtain ⟨r2, o, g3, g4⟩ := avcLoop_safe n cur' size r1 g2.some_ g2.sps hd' hn'
              exact ⟨r2, o, g3, g2.trans g4⟩
          · rw [if_neg ht, grab_flat cur len h2]
            simp only [Option.bind_some]
            obtain ⟨r2, o, g3, g4⟩ := avcLoop_safe n cur' (size + 4 + len) (appendData r (beEnc 4 len ++ cur.flatten.take len))
              (h.congr rfl rfl rfl rfl rfl rfl rfl (by show 8 ≤ (r.data ++ _).length; rw [List.length_append]; have := h.data; omega)) hs hd' hn'
            exact ⟨r2, o, g3, g4.some_, g4.segs, g4.aac, g4.sps, g4.type⟩

/-! ### Frames of ADTS -/

theorem pop_length : ∀ (cur : List Bytes) (c : UInt8) (cur' : List Bytes), pop cur = some (c, cur') → cur'.flatten.length + 1 = cur.flatten.length
  | [], _, _, h => nomatch h
  | [] :: r, c, cur', h => by
    rw [pop] at h
    simpa using pop_length r c cur' h
  | (x :: b) :: r, c, cur', h => by
    rw [pop] at h
    injection h with h
    injection h with h1 h2
    subst h2
    simp only [List.flatten_cons, List.length_append, List.length_cons]
    omega

theorem adtsHead_safe : ∀ (n : Nat) (adts : Bytes) (cur : List Bytes) (adts' : Bytes) (cur' : List Bytes), adtsHead n adts cur = .head adts' cur' → 9 ≤ n + adts.length →
    adts'.length + cur'.flatten.length = adts.length + cur.flatten.length ∧ 7 ≤ adts'.length
  | 0, adts, cur, adts', cur', h, hn => by
    unfold adtsHead at h
    injection h with h1 h2
    subst h1; subst h2
    exact ⟨rfl, by omega⟩
  | n + 1, adts, cur, adts', cur', h, hn => by
    rw [adtsHead] at h
    by_cases hlt : adts.length < (if (adts[1]?.map fun b => b.toNat % 2) = some 1 then 7 else 9)
    · rw [if_pos hlt] at h
      cases hp : pop cur with
      | none =>
        rw [hp] at h
        dsimp only at h
        split at h <;> exact nomatch h
      | some x =>
        obtain ⟨c, cur1⟩ := x
        rw [hp] at h
        have := pop_length cur c cur1 hp
        obtain ⟨h1, h2⟩ := adtsHead_safe n (adts ++ [c]) cur1 adts' cur' h (by simp only [List.length_append, List.length_cons, List.length_nil]; omega)
        simp only [List.length_append, List.length_cons, List.length_nil] at h1
        exact ⟨by omega, h2⟩
    · rw [if_neg hlt] at h
      injection h with h1 h2
      subst h1; subst h2
      refine ⟨rfl, ?_⟩
      split at hlt <;> omega

theorem grabMost_less : ∀ (cur : List Bytes) (n : Nat), (grabMost cur n).2.2.flatten.length ≤ cur.flatten.length
  | [], 0 => Nat.le_refl _
  | _ :: _, 0 => by simp [grabMost]
  | [], n + 1 => Nat.le_refl _
  | b :: r, n + 1 => by
    rw [grabMost]
    split
    · simp only [List.flatten_cons, List.length_append, List.length_drop]
      omega
    · have := grabMost_less r (n + 1 - b.length)
      simp only [List.flatten_cons, List.length_append]
      omega

/-- The rate is known to be one. -/
def Rate (r : Rep) : Prop := ∀ a, r.aac = some a → a.freq ≠ 0

theorem aacParams_safe {r : Rep} (h : Rate r) (adts : Bytes) : ∃ a, aacParams r adts = some a ∧ ∀ x, a = some x → x.freq ≠ 0 := by
  unfold aacParams
  split
  · rename_i a ha
    exact ⟨some a, rfl, fun x hx => by injection hx with hx; rw [← hx]; exact h a ha⟩
  · have := (Codec.C72_sound_safe 0 (fun _ _ => none) [] [] none (adts.take 7)).2
    obtain ⟨a, ha⟩ := Option.isSome_iff_exists.mp this
    refine ⟨a, ha, ?_⟩
    intro x hx
    subst hx
    unfold Codec.tsAac at ha
    split at ha
    · dsimp only at ha
      split at ha
      · exact nomatch ha
      · exact nomatch (Option.some.inj ha)
      · rename_i f hf0 hf
        injection ha with ha
        injection ha with ha
        rw [← ha]
        intro h0
        exact hf0 h0
    · exact nomatch (Option.some.inj ha)

/-- What is kept while frames are copied -/
structure Kept' (r r' : Rep) : Prop where
  some_ : Some' r'
  segs : r'.segs = r.segs
  rate : Rate r'
  sps : r'.sps = r.sps
  type : r'.type = r.type

theorem aacFrame_safe {r : Rep} (h : Some' r) (hr : Rate r) (e : Es) (i : Nat) {adts : Bytes} (hl : 7 ≤ adts.length) (cur : List Bytes) :
    ∃ r' ok cur', aacFrame r e i adts cur = some (r', ok, cur') ∧ Kept' r r' ∧ cur'.flatten.length ≤ cur.flatten.length := by
  unfold aacFrame
  obtain ⟨a, ha, hx⟩ := aacParams_safe hr adts
  rw [ha]
  simp only [Option.bind_some]
  cases a with
  | none => exact ⟨r, false, cur, rfl, ⟨h, rfl, hr, rfl, rfl⟩, Nat.le_refl _⟩
  | some a =>
    dsimp only
    have hf := hx a rfl
    have hr1 : Rate { r with aac := some a } := fun x hx => by injection hx with hx; rw [← hx]; exact hf
    have hs1 : Some' { r with aac := some a } := h.congr rfl rfl rfl rfl rfl rfl rfl h.data
    obtain ⟨len, hlen⟩ : ∃ len, adtsLen adts = some len := by
      match adts, hl with
      | _ :: _ :: _ :: b3 :: b4 :: b5 :: _, _ => exact ⟨_, rfl⟩
    rw [hlen]
    simp only [Option.bind_some]
    by_cases hsh : len < adts.length
    · rw [if_pos hsh]
      exact ⟨_, false, cur, rfl, ⟨hs1, rfl, hr1, rfl, rfl⟩, Nat.le_refl _⟩
    · rw [if_neg hsh, if_neg hf]
      obtain ⟨r', h1, h2, h3, h4, h5, h6⟩ := appendMeta_safe hs1 e (len - adts.length) (e.dts + 90000 * 1024 * i / a.freq)
      rw [h1]
      refine ⟨appendData r' _, _, _, rfl, ⟨h2.congr rfl rfl rfl rfl rfl rfl rfl ?_, h3, ?_, h5, h6⟩, grabMost_less _ _⟩
      · show 8 ≤ (r'.data ++ _).length
        rw [List.length_append]
        have := h2.data
        omega
      · intro x hx
        exact hr1 x (by rw [← h4]; exact hx)

theorem Kept'.trans {a b c : Rep} (h : Kept' a b) (h' : Kept' b c) : Kept' a c := ⟨h'.some_, h'.segs.trans h.segs, h'.rate, h'.sps.trans h.sps, h'.type.trans h.type⟩

theorem aacLoop_safe : ∀ (n : Nat) (cur : List Bytes) (i : Nat) (r : Rep) (e : Es), Some' r → Rate r → cur.flatten.length < n → ∃ r' ok, aacLoop n cur i r e = some (r', ok) ∧ Kept' r r'
  | 0, cur, i, r, e, _, _, hn => by omega
  | n + 1, cur, i, r, e, h, hr, hn => by
    rw [aacLoop]
    split
    · exact ⟨r, true, rfl, h, rfl, hr, rfl, rfl⟩
    · exact ⟨r, false, rfl, h, rfl, hr, rfl, rfl⟩
    · rename_i adts cur1 hh
      obtain ⟨h1, h2⟩ := adtsHead_safe 9 [] cur adts cur1 hh (by simp)
      obtain ⟨r1, ok, cur2, g1, g2, g3⟩ := aacFrame_safe h hr e i h2 cur1
      rw [g1]
      simp only [Option.bind_some]
      cases ok with
      | false => exact ⟨r1, false, rfl, g2⟩
      | true =>
        obtain ⟨r2, ok, g4, g5⟩ := aacLoop_safe n cur2 (i + 1) r1 e g2.some_ g2.rate (by simp only [List.length_nil] at h1; omega)
        exact ⟨r2, ok, g4, g2.trans g5⟩

/-! ### All of it -/

/-- What holds whatever comes -/
structure Sound (c : Conf) (r : Rep) : Prop where
  segs : r.segs.length = c.nsegs
  open_ : r.buf = none ∨ Some' r
  rate : Rate r
  sps : ∀ s, r.sps = some s → Codec.parse Codec.tsAvc s ≠ none

theorem turns_le (bufs : List Bytes) (h : bufs ≠ []) : bufs.flatten.length + 2 ≤ turns bufs := by
  unfold turns
  have : 0 < bufs.length := List.length_pos_iff.mpr h
  omega

theorem copy_safe {c : Conf} {r : Rep} (hs : Sound c r) (ho : Some' r) (e : Es) (bufs : List Bytes) (hd : r.type = avcType → Sets bufs.flatten) :
    ∃ r' ok, copy r e bufs = some (r', ok) ∧ Sound c r' ∧ Some' r' ∧ r'.type = r.type := by
  unfold copy
  split
  · rename_i ht
    unfold copyAvc
    by_cases hb : bufs = []
    · rw [if_pos hb]
      exact ⟨r, true, rfl, hs, ho, rfl⟩
    · rw [if_neg hb]
      obtain ⟨r1, o, h1, h2⟩ := avcLoop_safe (turns bufs) bufs 0 r ho hs.sps (hd ht) (by rw [if_neg hb]; exact turns_le bufs hb)
      rw [h1]
      simp only [Option.bind_some]
      have hs1 : Sound c r1 := ⟨by rw [h2.segs]; exact hs.segs, .inr h2.some_, fun a ha => hs.rate a (by rw [← h2.aac]; exact ha), h2.sps⟩
      cases o with
      | none => exact ⟨r1, false, rfl, hs1, h2.some_, h2.type⟩
      | some size =>
        obtain ⟨r2, g1, g2, g3, g4, g5, g6⟩ := appendMeta_safe h2.some_ e size e.dts
        dsimp only
        rw [g1]
        refine ⟨r2, true, rfl, ⟨by rw [g3]; exact hs1.segs, .inr g2, fun a ha => hs1.rate a (by rw [← g4]; exact ha), ?_⟩, g2, g6.trans h2.type⟩
        rw [g5]; exact hs1.sps
  · split
    · unfold copyAac
      by_cases hb : bufs = []
      · rw [if_pos hb]
        exact ⟨r, true, rfl, hs, ho, rfl⟩
      · rw [if_neg hb]
        obtain ⟨r1, ok, h1, h2⟩ := aacLoop_safe (turns bufs) bufs 0 r e ho hs.rate (by have := turns_le bufs hb; omega)
        refine ⟨r1, ok, h1, ⟨by rw [h2.segs]; exact hs.segs, .inr h2.some_, h2.rate, ?_⟩, h2.some_, h2.type⟩
        rw [h2.sps]; exact hs.sps
    · unfold copyDefault
      have h0 : Some' (appendData r bufs.flatten) := ho.congr rfl rfl rfl rfl rfl rfl rfl (by show 8 ≤ (r.data ++ _).length; rw [List.length_append]; have := ho.data; omega)
      obtain ⟨r2, g1, g2, g3, g4, g5, g6⟩ := appendMeta_safe h0 e bufs.flatten.length e.dts
      rw [g1]
      refine ⟨r2, true, rfl, ⟨by rw [g3]; exact hs.segs, .inr g2, fun a ha => hs.rate a (by rw [g4] at ha; exact ha), ?_⟩, g2, g6⟩
      rw [g5]; exact hs.sps

theorem closeSegment_safe {c : Conf} {r : Rep} (hs : Sound c r) (hS : 0 < c.nsegs) (flush : Bool) (e : Es) : ∃ r' closed, closeSegment c flush r e = some (r', closed) ∧ Sound c r' ∧ r'.type = r.type := by
  unfold closeSegment
  by_cases hb : r.buf = none
  · rw [if_pos hb]
    exact ⟨r, false, rfl, hs, rfl⟩
  · rw [if_neg hb]
    rcases hs.open_ with h | h
    · exact absurd h hb
    · dsimp only
      split
      · exact ⟨r, false, rfl, hs, rfl⟩
      · obtain ⟨f, hf⟩ := endSegment_safe h e
        rw [hf]
        simp only [Option.bind_some]
        rw [if_neg (by have := hs.segs; omega)]
        exact ⟨_, true, rfl, ⟨by show (r.segs.set _ _).length = _; rw [List.length_set]; exact hs.segs, .inl rfl, hs.rate, hs.sps⟩, rfl⟩

theorem unit_safe {c : Conf} {r : Rep} (hs : Sound c r) (hA : 0 < c.analyze) (hS : 0 < c.nsegs) (e : Es) (bufs : List Bytes) (hd : r.type = avcType → Sets bufs.flatten) :
    ∃ r' closed ok, unit c r e bufs = some (r', closed, ok) ∧ Sound c r' ∧ r'.type = r.type := by
  obtain ⟨r1, hbw, hs1⟩ := updateBandwidth_eq c r bufs e.dts hA
  unfold unit
  rw [hbw]
  simp only [Option.bind_some]
  have g1 : Sound c r1 := by
    rw [hs1]
    refine ⟨hs.segs, ?_, hs.rate, hs.sps⟩
    rcases hs.open_ with h | h
    · exact .inl h
    · exact .inr (h.congr rfl rfl rfl rfl rfl rfl rfl h.data)
  have ht1 : r1.type = r.type := by rw [hs1]
  obtain ⟨r2, closed, h2, g2, ht2⟩ := closeSegment_safe g1 hS false e
  rw [h2]
  simp only [Option.bind_some]
  obtain ⟨r3, h3, g3, g3', ht3⟩ : ∃ r3, openSegment r2 e = (r3, true) ∧ Sound c r3 ∧ Some' r3 ∧ r3.type = r2.type := by
    unfold openSegment
    by_cases hb : r2.buf = none
    · rw [if_pos hb]
      obtain ⟨r3, h3, hm, hd, he⟩ := startSegment_eq { r2 with segPts := e.pts, segDts := e.dts }
      have ho : Some' r3 := ⟨⟨_, hm⟩, by rw [hd]; decide +kernel⟩
      refine ⟨r3, h3, ⟨?_, .inr ho, ?_, ?_⟩, ho, ?_⟩
      · rw [he]; exact g2.segs
      · rw [he]; exact g2.rate
      · rw [he]; exact g2.sps
      · rw [he]
    · rw [if_neg hb]
      refine ⟨r2, rfl, g2, ?_, rfl⟩
      rcases g2.open_ with h | h
      · exact absurd h hb
      · exact h
  rw [h3]
  dsimp only
  rw [if_pos rfl]
  obtain ⟨r4, ok, h4, g4, -, ht4⟩ := copy_safe g3 g3' e bufs (by rw [ht3, ht2, ht1]; exact hd)
  rw [h4]
  exact ⟨r4, closed, ok, rfl, g4, by rw [ht4, ht3, ht2, ht1]⟩

theorem run_safe {c : Conf} (hA : 0 < c.analyze) (hS : 0 < c.nsegs) : ∀ (us : List (Es × List Bytes)) (r : Rep), Sound c r → (r.type = avcType → ∀ u ∈ us, Sets u.2.flatten) →
    ∃ r' ok, run c r us = some (r', ok) ∧ Sound c r'
  | [], r, hs, _ => ⟨r, true, rfl, hs⟩
  | u :: us, r, hs, hd => by
    obtain ⟨r1, closed, ok, h1, h2, h3⟩ := unit_safe hs hA hS u.1 u.2 (fun ht => hd ht u List.mem_cons_self)
    rw [run, h1]
    simp only [Option.bind_some]
    cases ok with
    | false => exact ⟨r1, false, rfl, h2⟩
    | true => exact run_safe hA hS us r1 h2 (fun ht v hv => hd (by rw [← h3]; exact ht) v (List.mem_cons_of_mem _ hv))

/-- **C77.** Whatever the units of a stream have in them, in whatever buffers, with whatever times: no pointer leaves its buffer, no loop is endless, nothing is divided by 0, and the same when the stream
ends after them. With H.264 this needs that sequence parameter sets in it do not make the decoder shift too far (C72_shift_violation). -/
theorem C77_safe_partial (c : Conf) (type : Nat) (video : Bool) (us : List (Es × List Bytes)) (hA : 0 < c.analyze) (hS : 0 < c.nsegs) (hd : type = avcType → ∀ u ∈ us, Sets u.2.flatten) :
    ∃ r ok, run c (newRep c type video) us = some (r, ok) ∧ ∀ e, ∃ r', finish c r e = some r' := by
  obtain ⟨r, ok, h1, h2⟩ := run_safe hA hS us (newRep c type video) ⟨by simp [newRep], .inl rfl, fun a ha => (nomatch ha), fun s h => (nomatch h)⟩ hd
  refine ⟨r, ok, h1, fun e => ?_⟩
  obtain ⟨r', closed, h3, -, -⟩ := closeSegment_safe h2 hS true e
  exact ⟨r', by unfold finish; rw [h3]; rfl⟩

end Verif.TsDash
