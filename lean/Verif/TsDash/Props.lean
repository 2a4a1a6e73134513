import Verif.TsDash.Run
/- C77: DASH segments made of a transport stream. -/
namespace Verif.TsDash
open Verif Verif.TsIn
open Verif.Mp4 (tag overwrite boxText boxText_length)

/-- Sizes fit into 32 bits: segments are limited and units are not huge, or there is not much at all. -/
def Fits (c : Conf) (video : Bool) (items : List Spec.Item) : Prop :=
  (c.maxSize ≠ 0 ∧ c.maxSize ≤ 2 ^ 30 ∧ ∀ i ∈ items, Spec.weight video [i] + 96 < 2 ^ 30) ∨ Spec.weight video items + 96 < 2 ^ 31

def Small (video : Bool) (parts : List (List Spec.Item)) : Prop := ∀ ps p, parts = ps ++ [p] → Spec.weight video p + 96 < 2 ^ 31

theorem next_flatten {R : Spec.Rules} {parts parts' : List (List Spec.Item)} {x : Spec.Item} (h : Next R parts x parts') : parts'.flatten = parts.flatten ++ [x] := by
  cases h with
  | more ps p h he => rw [h]; simp
  | new => simp

theorem next_small {c : Conf} {video : Bool} {parts parts' : List (List Spec.Item)} {x : Spec.Item} {rest : List Spec.Item} (h : Next (rules c video) parts x parts')
    (hf : Fits c video (parts'.flatten ++ rest)) (hp : ∀ p ∈ parts, p ≠ []) : Small video parts' := by
  intro ps p hps
  rcases hf with ⟨h0, h1, h2⟩ | h2
  · have hx : Spec.weight video [x] + 96 < 2 ^ 30 := by
      apply h2
      rw [next_flatten h]
      simp
    cases h with
    | more qs q hq he =>
      obtain ⟨-, e⟩ := List.append_inj' hps rfl
      have e : q ++ [x] = p := by simpa using e
      rw [← e, weight_append]
      have hw : Spec.weight video q < c.maxSize := by
        have hqne : q ≠ [] := hp q (by rw [hq]; simp)
        by_cases hlt : Spec.weight video q < c.maxSize
        · exact hlt
        · refine absurd ?_ he
          obtain ⟨i, q', rfl⟩ : ∃ i q', q = i :: q' := by
            cases q with
            | nil => exact absurd rfl hqne
            | cons i q' => exact ⟨i, q', rfl⟩
          exact ⟨_, rfl, .inr ⟨h0, Nat.le_of_not_lt hlt⟩⟩
      omega
    | new =>
      obtain ⟨-, e⟩ := List.append_inj' hps rfl
      have e : [x] = p := by simpa using e
      rw [← e]
      omega
  · rw [hps] at h2
    simp only [List.flatten_append, List.flatten_cons, List.flatten_nil, List.append_nil, weight_append] at h2
    omega

theorem Good.nonempty {c : Conf} {k : Spec.Kind} {type : Nat} {video : Bool} {r : Rep} {parts : List (List Spec.Item)} {nals : List Bytes} (h : Good c k type video r parts nals) : ∀ p ∈ parts, p ≠ [] := by
  rcases h.inv with ⟨hp, -⟩ | ⟨ps, i, p, hp, hm⟩
  · subst hp
    intro p h
    simp at h
  · rw [hp]; exact hm.cuts.hSome

theorem run_eq {c : Conf} {k : Spec.Kind} {type : Nat} {video : Bool} (hA : 0 < c.analyze) (hS : 0 < c.nsegs) (hty : Spec.OfType type k) : ∀ (ins : List In) (r : Rep) (parts : List (List Spec.Item))
    (nals : List Bytes), Good c k type video r parts nals → Small video parts → (∀ x ∈ ins, x.Ok k) → Fits c video (parts.flatten ++ ins.map In.item) →
    ∃ r' parts', run c r (ins.map fun x => (x.e, x.bufs)) = some (r', true) ∧ Good c k type video r' parts' (nals ++ ins.flatMap (·.nals)) ∧ parts'.flatten = parts.flatten ++ ins.map In.item ∧
      Small video parts'
  | [], r, parts, nals, hg, hs, _, _ => ⟨r, parts, rfl, by simpa using hg, by simp, hs⟩
  | x :: ins, r, parts, nals, hg, hs, hok, hf => by
    obtain ⟨r1, closed, parts1, h1, h2, h3⟩ := unit_eq hg (hok x List.mem_cons_self) hA hS hty hs
    have hfl := next_flatten h3
    have e : parts.flatten ++ (x :: ins).map In.item = parts1.flatten ++ ins.map In.item := by rw [hfl]; simp
    rw [e] at hf
    obtain ⟨r2, parts2, h4, h5, h6, h7⟩ := run_eq hA hS hty ins r1 parts1 (nals ++ x.nals) h2 (next_small h3 hf hg.nonempty) (fun y hy => hok y (List.mem_cons_of_mem _ hy)) hf
    refine ⟨r2, parts2, ?_, ?_, by rw [h6, e], h7⟩
    · rw [List.map_cons]
      unfold run
      rw [h1]
      simp only [Option.bind_some, if_true]
      exact h4
    · rw [List.flatMap_cons, ← List.append_assoc]; exact h5

theorem good_new (c : Conf) (k : Spec.Kind) (type : Nat) (video : Bool) : Good c k type video (newRep c type video) [] [] where
  inv := .inl ⟨rfl, rfl, rfl, rfl, by simp [newRep]⟩
  aux := by
    cases k with
    | avc => exact Known.mk (fun s h => by simp [newRep] at h) rfl
    | aac index => exact fun _ _ => .inl rfl
    | other => trivial
  type := rfl
  video := rfl
  sps := rfl
  pps := rfl

theorem Good.finish {c : Conf} {k : Spec.Kind} {type : Nat} {video : Bool} {r : Rep} {parts : List (List Spec.Item)} {nals : List Bytes} (h : Good c k type video r parts nals)
    (hS : 0 < c.nsegs) (hs : Small video parts) (e : Es) : ∃ r', finish c r e = some r' ∧ Spec.Files video 0 parts (some e.dts) r'.files := by
  rcases h.inv with ⟨hp, hb, hf, -⟩ | ⟨ps, i, p, hp, hm⟩
  · refine ⟨r, ?_, ?_⟩
    · unfold TsDash.finish closeSegment
      rw [if_pos hb]
      rfl
    · rw [hp, hf]; rfl
  · have hv := h.video
    obtain ⟨f, hend, hholds⟩ := holds_end (e := e) hm.open_ hm.segPts hm.segDts hm.times.1 hm.times.2 (by rw [hv]; exact hs ps (i :: p) hp) hm.offs
    have hsl : r.segs.length = c.nsegs := by
      have := hm.ring.1
      simpa using this
    rw [hv, hm.seg] at hholds
    have hfi := hm.files
    rw [hv] at hfi
    refine ⟨{ r with buf := none, data := [], files := r.files ++ [(r.segDts, f)], segs := r.segs.set (r.seg % r.segs.length) { start := r.segDts, duration := diffU 64 e.dts r.segDts }, seg := r.seg + 1 }, ?_, ?_⟩
    · unfold TsDash.finish closeSegment
      rw [if_neg hm.open_.buf]
      dsimp only
      rw [hend]
      simp only [Bool.not_true, Bool.false_and, Bool.false_eq_true, if_false, Option.bind_some]
      rw [if_neg (by omega)]
      rfl
    · rw [hp]
      exact files_done ps 0 _ hfi (by rw [Nat.zero_add]; exact hholds)

/-! ### C77 -/

/-- **C77.** Whatever units come, cut into buffers anyhow: they are all taken, in segments that are cut by the rules; each segment but the last has its file, named after its time, in which a player
finds exactly the samples of its units, with their times, and an index; the ring knows the last segments. At the end the last segment gets its file too.
`In.Ok`: what is in a unit, parameter sets that the decoder (C72) takes, times of 64 bits. `Fits`: sizes of segments fit into 32 bits. -/
theorem C77_segments (c : Conf) (k : Spec.Kind) (type : Nat) (video : Bool) (ins : List In) (hA : 0 < c.analyze) (hS : 0 < c.nsegs) (hty : Spec.OfType type k) (hok : ∀ x ∈ ins, x.Ok k)
    (hf : Fits c video (ins.map In.item)) :
    ∃ r parts, run c (newRep c type video) (ins.map fun x => (x.e, x.bufs)) = some (r, true) ∧ parts.flatten = ins.map In.item ∧ Spec.Cuts (rules c video) parts ∧
      Spec.Files video 0 parts none r.files ∧ Spec.TimeLine c.nsegs parts (r.segs.map fun s => (s.start, s.duration)) ∧
      ∀ e, ∃ r', finish c r e = some r' ∧ Spec.Files video 0 parts (some e.dts) r'.files := by
  obtain ⟨r, parts, h1, h2, h3, h4⟩ := run_eq hA hS hty ins _ [] [] (good_new c k type video) (by intro ps p h; simp at h) hok (by simpa using hf)
  have hv := h2.video
  refine ⟨r, parts, h1, by simpa using h3, ?_, ?_, ?_, fun e => h2.finish hS h4 e⟩
  · rcases h2.inv with ⟨hp, -⟩ | ⟨ps, i, p, hp, hm⟩
    · rw [hp]
      exact ⟨by intro p h; simp at h, by intro p h; simp at h, by intro a p q b h; simp at h⟩
    · rw [hp, ← hv]; exact hm.cuts
  · rcases h2.inv with ⟨hp, -, hf, -⟩ | ⟨ps, i, p, hp, hm⟩
    · rw [hp, hf]; rfl
    · rw [hp, ← hv]; exact hm.files
  · rcases h2.inv with ⟨hp, -, -, -, hl⟩ | ⟨ps, i, p, hp, hm⟩
    · rw [hp]
      exact ⟨by simpa using hl, by intro a p q b i j h; simp at h⟩
    · rw [hp]; exact hm.ring

/-- **C77.** The parameter sets that are kept, for the initialization segment, are the first of the stream; what is known of the picture is what they say. -/
theorem C77_params (c : Conf) (ins : List In) (video : Bool) (hA : 0 < c.analyze) (hS : 0 < c.nsegs) (hok : ∀ x ∈ ins, x.Ok .avc) (hf : Fits c video (ins.map In.item)) :
    ∃ r, run c (newRep c avcType video) (ins.map fun x => (x.e, x.bufs)) = some (r, true) ∧ r.sps = (ins.flatMap (·.nals)).find? Spec.isSps ∧ r.pps = (ins.flatMap (·.nals)).find? Spec.isPps ∧
      ∀ s p, r.sps = some s → r.pps = some p → ∃ a st, Codec.parse Codec.tsAvc s = some (some a, st) ∧ r.avc = some a := by
  obtain ⟨r, parts, h1, h2, -, -⟩ := run_eq (c := c) (k := .avc) (type := avcType) (video := video) hA hS rfl ins _ [] [] (good_new c .avc avcType video) (by intro ps p h; simp at h) hok (by simpa using hf)
  refine ⟨r, h1, by simpa using h2.sps, by simpa using h2.pps, ?_⟩
  intro s p hs hp
  have hk : Known r := h2.aux
  obtain ⟨a, st, ha⟩ := hk.dec s hs
  refine ⟨a, st, ha, ?_⟩
  rw [hk.avc, hs, hp]
  show (Codec.parse Codec.tsAvc s).bind (·.1) = some a
  rw [ha]
  rfl

/-- **C77.** What is in a sample of H.264 is read as the units it was made of. -/
theorem C77_units (ns : List Bytes) (h : ∀ n ∈ ns, n.length < 2 ^ 32) : ∀ fuel, ns.length ≤ fuel → Spec.readUnits fuel (Annex.lenPrefixed 4 ns) = some ns := by
  induction ns with
  | nil => intro fuel _; cases fuel <;> rfl
  | cons n ns ih =>
    intro fuel hf
    obtain ⟨fuel, rfl⟩ : ∃ f, fuel = f + 1 := ⟨fuel - 1, by simp at hf; omega⟩
    have e : Annex.lenPrefixed 4 (n :: ns) = beEnc 4 n.length ++ (n ++ Annex.lenPrefixed 4 ns) := by simp [Annex.lenPrefixed]
    have hne : Annex.lenPrefixed 4 (n :: ns) ≠ [] := by
      intro h0
      have := congrArg List.length h0
      rw [e, List.length_append, beEnc_length] at this
      simp at this
    have hn := Mp4.num_cons (k := 4) (v := n.length) (n ++ Annex.lenPrefixed 4 ns)
    rw [← e] at hn
    generalize Annex.lenPrefixed 4 (n :: ns) = L at *
    cases L with
    | nil => exact absurd rfl hne
    | cons a L =>
      unfold Spec.readUnits
      rw [hn]
      simp only [Option.bind_some]
      have hl : n.length % 256 ^ 4 = n.length := Nat.mod_eq_of_lt (by have := h n List.mem_cons_self; omega)
      rw [hl, if_neg (by rw [List.length_append]; omega), List.drop_left' rfl, List.take_left' rfl, ih (fun m hm => h m (List.mem_cons_of_mem _ hm)) fuel (by simpa using hf)]
      rfl

theorem durations_sum (next : Nat) : ∀ (l : List Spec.Sample) (s : Spec.Sample), Spec.Ordered next (s :: l) → (Spec.durations next (s :: l)).sum + s.dts = next
  | [], s, h => by
    obtain ⟨h1, h2⟩ := h
    have e : Spec.wrap next s.dts = next - s.dts := by unfold Spec.wrap; omega
    simp only [Spec.durations]
    rw [e, if_pos (by omega)]
    simp only [List.sum_cons, List.sum_nil]
    omega
  | t :: l, s, h => by
    obtain ⟨h1, h2, h3⟩ := h
    have ih := durations_sum next l t h3
    have e : Spec.wrap t.dts s.dts = t.dts - s.dts := by unfold Spec.wrap; omega
    simp only [Spec.durations, List.sum_cons]
    rw [e]
    omega

/-- **C77.** As long as times do not go back, segments have no gaps: the samples of a file last up to the beginning of the next one. -/
theorem C77_gapless (video : Bool) (number : Nat) (p : List Spec.Item) (next : Nat) (f : Nat × Bytes) (s : Spec.Sample) (l : List Spec.Sample) (h : Spec.Holds video number p next f)
    (hl : p.flatMap (·.samples) = s :: l) (hs : p.head?.map (·.u.dts) = some s.dts) (ho : Spec.Ordered next (s :: l)) :
    ∃ g, Spec.readMedia f.2 = some g ∧ g.time = s.dts ∧ g.time + (g.samples.filterMap (·.duration)).sum = next := by
  obtain ⟨h1, h2, h3, h4⟩ := h
  obtain ⟨i, hi⟩ : ∃ i, p.head? = some i := by
    cases hp : p.head? with
    | none => rw [hp] at hs; simp at hs
    | some i => exact ⟨i, rfl⟩
  rw [hi] at hs
  have hs : i.u.dts = s.dts := by simpa using hs
  refine ⟨⟨number % 2 ^ 32, i.u.dts, (((s :: l).zip (Spec.durations next (s :: l))).map fun x => Spec.got video x.1 x.2)⟩, ?_, hs, ?_⟩
  · rw [h3]
    unfold Spec.segmentOf
    rw [hi, hl]
    rfl
  · have hsum := durations_sum next l s ho
    have hlen := durations_length next (s :: l)
    have key : ∀ (L : List Spec.Sample) (ds : List Nat), ds.length = L.length → ((L.zip ds).map fun x => Spec.got video x.1 x.2).filterMap (·.duration) = ds := by
      intro L
      induction L with
      | nil => intro ds h; simp at h; subst h; rfl
      | cons a L ih =>
        intro ds h
        cases ds with
        | nil => simp at h
        | cons d ds =>
          rw [List.zip_cons_cons, List.map_cons, List.filterMap_cons_some (f := fun x : Mp4.Got => x.duration) (b := d) rfl, ih ds (by simpa using h)]
    dsimp only
    rw [key _ _ hlen]
    omega

end Verif.TsDash
