import Verif.TsDash.Copy
/- Units one after the other: segments, files, the ring. -/
namespace Verif.TsDash
open Verif Verif.TsIn
open Verif.Mp4 (tag overwrite boxText boxText_length)

/-- A unit as it comes in, and what is in it -/
structure In where
  e : Es
  bufs : List Bytes
  nals : List Bytes
  samples : List Spec.Sample

def In.item (i : In) : Spec.Item := ⟨toU i.e i.bufs, i.samples⟩

def rules (c : Conf) (video : Bool) : Spec.Rules := ⟨c.minSeg * 90, c.maxSeg * 90, c.maxSize, video⟩

/-! ### Helpers -/

theorem weight_append (v : Bool) (a b : List Spec.Item) : Spec.weight v (a ++ b) = Spec.weight v a + Spec.weight v b := by simp [Spec.weight]

theorem weight_samples (v : Bool) (l : List Spec.Sample) : (l.map fun s => (if v then 16 else 8) + s.bytes.length).sum = l.length * rowSize v + (l.map (·.bytes.length)).sum := by
  induction l with
  | nil => simp
  | cons s l ih =>
    simp only [List.map_cons, List.sum_cons, List.length_cons, ih, Nat.succ_mul]
    have : (if v then 16 else 8) = rowSize v := rfl
    rw [this]
    omega

/-- The representation in the middle of segments: the last one is open. -/
structure Mid (c : Conf) (r : Rep) (ps : List (List Spec.Item)) (i : Spec.Item) (p : List Spec.Item) : Prop where
  open_ : Open r ((i :: p).flatMap (·.samples))
  segPts : r.segPts = i.u.pts
  segDts : r.segDts = i.u.dts
  seg : r.seg = ps.length
  offs : ∀ s ∈ (i :: p).flatMap (·.samples), s.offset < 2 ^ 32
  times : i.u.pts < 2 ^ 64 ∧ i.u.dts < 2 ^ 64
  files : Spec.Files r.video 0 (ps ++ [i :: p]) none r.files
  cuts : Spec.Cuts (rules c r.video) (ps ++ [i :: p])
  ring : Spec.TimeLine c.nsegs (ps ++ [i :: p]) (r.segs.map fun s => (s.start, s.duration))

/-- A representation after the units of some segments -/
def Inv (c : Conf) (r : Rep) (parts : List (List Spec.Item)) : Prop :=
  (parts = [] ∧ r.buf = none ∧ r.files = [] ∧ r.seg = 0 ∧ r.segs.length = c.nsegs) ∨ ∃ ps i p, parts = ps ++ [i :: p] ∧ Mid c r ps i p

theorem Open.buf {r : Rep} {l : List Spec.Sample} (h : Open r l) : r.buf ≠ none := by
  rcases List.eq_nil_or_concat l with hl | ⟨a, t, hl⟩
  · rw [(h.table.none_ hl).1]; simp
  · rw [List.concat_eq_append] at hl
    obtain ⟨pre, x, hb, -⟩ := h.table.some_ a t hl
    rw [hb]; simp

theorem Open.weight {r : Rep} {p : List Spec.Item} (h : Open r (p.flatMap (·.samples))) : r.nmeta + r.ndata = Spec.weight r.video p := by
  unfold Spec.weight
  rw [weight_samples, h.table.nmeta, h.table.ndata]

theorem goesOn_ends {c : Conf} {r : Rep} {e : Es} {bufs : List Bytes} {i : Spec.Item} {p : List Spec.Item} (ho : Open r ((i :: p).flatMap (·.samples))) (hd : r.segDts = i.u.dts) :
    goesOn c r e ((e.dts : Int) - r.segDts) = true ↔ ¬ Spec.Ends (rules c r.video) (i :: p) (toU e bufs) := by
  have hw := ho.weight
  have hsince : Spec.since (i :: p) (toU e bufs) = some ((e.dts : Int) - i.u.dts) := rfl
  unfold Spec.Ends
  rw [hsince, hd]
  generalize (e.dts : Int) - i.u.dts = d
  simp only [Option.some.injEq, rules, toU]
  rw [← hw]
  unfold goesOn
  cases hv : r.video <;> cases hr : e.rand <;> simp <;> omega

theorem got_rows (v : Bool) : ∀ (L : List Spec.Sample) (ds : List Nat), ds.length = L.length → (∀ d ∈ ds, d < 2 ^ 32) → (∀ s ∈ L, s.offset < 2 ^ 32) →
    (((List.zipWith msOf L ds).map (Mp4.entryOf (mask v))).zip (L.map (·.bytes))).map (fun p => (⟨p.2, p.1.duration, p.1.flags, p.1.offset⟩ : Mp4.Got)) =
      (L.zip ds).map fun x => Spec.got v x.1 x.2
  | [], _, _, _, _ => by simp
  | s :: L, [], h, _, _ => by simp at h
  | s :: L, d :: ds, h, hd, ho => by
    have ih := got_rows v L ds (by simpa using h) (fun d hm => hd d (List.mem_cons_of_mem _ hm)) (fun s hm => ho s (List.mem_cons_of_mem _ hm))
    simp only [List.zipWith_cons_cons, List.map_cons, List.zip_cons_cons]
    rw [ih]
    congr 1
    have a : Mp4.hasDuration (mask v) = true ∧ Mp4.hasSize (mask v) = true ∧ Mp4.hasKey (mask v) = v ∧ Mp4.hasDelay (mask v) = v := by cases v <;> decide +kernel
    obtain ⟨a1, a2, a3, a4⟩ := a
    unfold Mp4.entryOf Spec.got
    rw [a1, a3, a4]
    simp only [msOf, if_true]
    rw [Nat.mod_eq_of_lt (hd d List.mem_cons_self), Nat.mod_eq_of_lt (ho s List.mem_cons_self)]
    by_cases hk : s.key = true <;> simp [hk]

/-- The file of a segment that has ended -/
theorem holds_end {r : Rep} {i : Spec.Item} {p : List Spec.Item} {e : Es} (ho : Open r ((i :: p).flatMap (·.samples))) (hp : r.segPts = i.u.pts) (hd : r.segDts = i.u.dts)
    (hp64 : i.u.pts < 2 ^ 64) (hd64 : i.u.dts < 2 ^ 64) (hw : Spec.weight r.video (i :: p) + 96 < 2 ^ 31)
    (hoff : ∀ s ∈ (i :: p).flatMap (·.samples), s.offset < 2 ^ 32) :
    ∃ f, endSegment r e = some f ∧ Spec.Holds r.video r.seg (i :: p) e.dts (r.segDts, f) := by
  generalize hL : (i :: p).flatMap (·.samples) = L at ho hoff
  have hw' : L.length * rowSize r.video + (L.map (·.bytes)).flatten.length + 96 < 2 ^ 31 := by
    have : Spec.weight r.video (i :: p) = L.length * rowSize r.video + (L.map (·.bytes.length)).sum := by
      unfold Spec.weight; rw [hL, weight_samples]
    rw [this] at hw
    rw [List.length_flatten, List.map_map]
    exact hw
  have hnd : r.ndata = ((L.map (·.bytes)).flatten).length := by
    rw [ho.table.ndata, List.length_flatten, List.map_map]; rfl
  have hend := endSegment_eq ho.table e _ ho.data hnd hw'
  refine ⟨_, hend, ?_, ?_, ?_, ?_⟩
  · show some i.u.dts = some r.segDts
    rw [hd]
  · simp [Spec.segmentOf]
  · have hm := readMedia_seg r.video r.segPts r.segDts r.seg (Spec.wrap e.dts r.segDts) (ended L e.dts) (L.map (·.bytes)) (by rw [hd]; exact hd64) (ended_size L e.dts)
      (by rw [rows_len, ended_length]; exact hw')
    dsimp only
    rw [hm]
    unfold Spec.segmentOf
    rw [hL]
    simp only [List.head?_cons, Option.map_some, Option.some.injEq]
    rw [hd]
    congr 1
    -- the samples
    have hdl := durations_length e.dts L
    have hdb : ∀ d ∈ Spec.durations e.dts L, d < 2 ^ 32 := by
      have hwr : ∀ a b, Spec.wrap a b < 2 ^ 32 := by intro a b; unfold Spec.wrap; omega
      have : ∀ L : List Spec.Sample, ∀ d ∈ Spec.durations e.dts L, d < 2 ^ 32 := by
        intro L
        induction L with
        | nil => intro d h; simp [Spec.durations] at h
        | cons s L ih =>
          intro d h
          cases L with
          | nil =>
            simp only [Spec.durations, List.mem_singleton] at h
            rw [h]
            split
            · exact hwr _ _
            · omega
          | cons t L =>
            simp only [Spec.durations, List.mem_cons] at h
            rcases h with h | h
            · rw [h]; exact hwr _ _
            · exact ih d (by simpa using h)
      exact this L
    exact got_rows r.video L _ hdl hdb hoff
  · obtain ⟨h1, h2, top, m, h3, h4, h5⟩ := readIndex_seg r.video r.segPts r.segDts r.seg (Spec.wrap e.dts r.segDts) (ended L e.dts) ((L.map (·.bytes)).flatten) (by rw [hp]; exact hp64)
      (by unfold Spec.wrap; omega) (by rw [rows_len, ended_length]; exact hw')
    exact ⟨_, i, top, m, h1, rfl, rfl, hp, by rw [hd], by rw [h2], h3, h4, h5⟩

/-! ### Lists of segments -/

theorem files_new {v : Bool} {p q : List Spec.Item} {t : Nat} {f : Nat × Bytes} (hq : q.head?.map (·.u.dts) = some t) : ∀ (ps : List (List Spec.Item)) (n : Nat) (fs : List (Nat × Bytes)),
    Spec.Files v n (ps ++ [p]) none fs → Spec.Holds v (n + ps.length) p t f → Spec.Files v n (ps ++ [p] ++ [q]) none (fs ++ [f])
  | [], n, fs, h, hh => by
    simp only [List.nil_append, Spec.Files] at h
    subst h
    exact ⟨f, [], t, rfl, hq, hh, rfl⟩
  | [a], n, fs, h, hh => by
    obtain ⟨g, fs', t', h1, h2, h3, h4⟩ := h
    have hl : n + [a].length = n + 1 + ([] : List (List Spec.Item)).length := by simp
    rw [hl] at hh
    have ih := files_new hq [] (n + 1) fs' h4 hh
    exact ⟨g, fs' ++ [f], t', by rw [h1]; rfl, h2, h3, ih⟩
  | a :: b :: ps, n, fs, h, hh => by
    obtain ⟨g, fs', t', h1, h2, h3, h4⟩ := h
    have hl : n + (a :: b :: ps).length = n + 1 + (b :: ps).length := by simp only [List.length_cons]; omega
    rw [hl] at hh
    have ih := files_new hq (b :: ps) (n + 1) fs' h4 hh
    exact ⟨g, fs' ++ [f], t', by rw [h1]; rfl, h2, h3, ih⟩

theorem files_done {v : Bool} {p : List Spec.Item} {t : Nat} {f : Nat × Bytes} : ∀ (ps : List (List Spec.Item)) (n : Nat) (fs : List (Nat × Bytes)),
    Spec.Files v n (ps ++ [p]) none fs → Spec.Holds v (n + ps.length) p t f → Spec.Files v n (ps ++ [p]) (some t) (fs ++ [f])
  | [], n, fs, h, hh => by
    simp only [List.nil_append, Spec.Files] at h
    subst h
    exact ⟨f, rfl, hh⟩
  | [a], n, fs, h, hh => by
    obtain ⟨g, fs', t', h1, h2, h3, h4⟩ := h
    have hl : n + [a].length = n + 1 + ([] : List (List Spec.Item)).length := by simp
    rw [hl] at hh
    have ih := files_done [] (n + 1) fs' h4 hh
    exact ⟨g, fs' ++ [f], t', by rw [h1]; rfl, h2, h3, ih⟩
  | a :: b :: ps, n, fs, h, hh => by
    obtain ⟨g, fs', t', h1, h2, h3, h4⟩ := h
    have hl : n + (a :: b :: ps).length = n + 1 + (b :: ps).length := by simp only [List.length_cons]; omega
    rw [hl] at hh
    have ih := files_done (b :: ps) (n + 1) fs' h4 hh
    exact ⟨g, fs' ++ [f], t', by rw [h1]; rfl, h2, h3, ih⟩

theorem files_last {v : Bool} {p p' : List Spec.Item} (hp : p'.head? = p.head?) : ∀ (ps : List (List Spec.Item)) (n : Nat) (fs : List (Nat × Bytes)),
    Spec.Files v n (ps ++ [p]) none fs → Spec.Files v n (ps ++ [p']) none fs
  | [], n, fs, h => h
  | [a], n, fs, h => by
    obtain ⟨g, fs', t', h1, h2, h3, h4⟩ := h
    exact ⟨g, fs', t', h1, by rw [hp]; exact h2, h3, files_last hp [] (n + 1) fs' h4⟩
  | a :: b :: ps, n, fs, h => by
    obtain ⟨g, fs', t', h1, h2, h3, h4⟩ := h
    exact ⟨g, fs', t', h1, h2, h3, files_last hp (b :: ps) (n + 1) fs' h4⟩

/-- Two neighbours in a list with something at its end -/
theorem snoc_split {α : Type} {ps : List α} {z : α} {a : List α} {x y : α} {b : List α} (h : ps ++ [z] = a ++ x :: y :: b) :
    (b = [] ∧ y = z ∧ ps = a ++ [x]) ∨ ∃ b', b = b' ++ [z] ∧ ps = a ++ x :: y :: b' := by
  rcases List.eq_nil_or_concat b with hb | ⟨b', w, hb⟩
  · subst hb
    have e : a ++ x :: y :: [] = (a ++ [x]) ++ [y] := by simp
    rw [e] at h
    obtain ⟨h1, h2⟩ := List.append_inj' h rfl
    exact .inl ⟨rfl, by simpa using h2.symm, h1⟩
  · rw [List.concat_eq_append] at hb
    subst hb
    have e : a ++ x :: y :: (b' ++ [w]) = (a ++ x :: y :: b') ++ [w] := by simp
    rw [e] at h
    obtain ⟨h1, h2⟩ := List.append_inj' h rfl
    have hw : z = w := by simpa using h2
    subst hw
    exact .inr ⟨b', rfl, h1⟩

theorem head_snoc {α : Type} {p : List α} {x : α} (hp : p ≠ []) : (p ++ [x]).head? = p.head? := by
  cases p with
  | nil => exact absurd rfl hp
  | cons a l => rfl

theorem cuts_more {R : Spec.Rules} {ps : List (List Spec.Item)} {p : List Spec.Item} {x : Spec.Item} (h : Spec.Cuts R (ps ++ [p])) (hp : p ≠ []) (he : ¬ Spec.Ends R p x.u) :
    Spec.Cuts R (ps ++ [p ++ [x]]) where
  hSome := by
    intro q hq
    rcases List.mem_append.1 hq with hq | hq
    · exact h.hSome q (List.mem_append_left _ hq)
    · rw [List.mem_singleton.1 hq]; simp
  hWhole := by
    intro q hq a i b hqe ha
    rcases List.mem_append.1 hq with hq | hq
    · exact h.hWhole q (List.mem_append_left _ hq) a i b hqe ha
    · rw [List.mem_singleton.1 hq] at hqe
      rcases List.eq_nil_or_concat b with hb | ⟨b', w, hb⟩
      · subst hb
        obtain ⟨h1, h2⟩ := List.append_inj' hqe rfl
        have hx : x = i := by simpa using h2
        subst hx; subst h1
        exact he
      · rw [List.concat_eq_append] at hb
        subst hb
        have e : a ++ i :: (b' ++ [w]) = (a ++ i :: b') ++ [w] := by simp
        rw [e] at hqe
        obtain ⟨h1, -⟩ := List.append_inj' hqe rfl
        exact h.hWhole p (List.mem_append_right _ (List.mem_singleton.2 rfl)) a i b' h1 ha
  hEnds := by
    intro a q q' b hqe
    rcases snoc_split hqe with ⟨rfl, rfl, rfl⟩ | ⟨b', rfl, hps⟩
    · obtain ⟨i, hi, hE⟩ := h.hEnds a q p [] (by simp)
      exact ⟨i, by rw [head_snoc hp]; exact hi, hE⟩
    · exact h.hEnds a q q' (b' ++ [p]) (by rw [hps]; simp)

theorem cuts_new {R : Spec.Rules} {ps : List (List Spec.Item)} {p : List Spec.Item} {x : Spec.Item} (h : Spec.Cuts R (ps ++ [p])) (he : Spec.Ends R p x.u) :
    Spec.Cuts R (ps ++ [p] ++ [[x]]) where
  hSome := by
    intro q hq
    rcases List.mem_append.1 hq with hq | hq
    · exact h.hSome q hq
    · rw [List.mem_singleton.1 hq]; simp
  hWhole := by
    intro q hq a i b hqe ha
    rcases List.mem_append.1 hq with hq | hq
    · exact h.hWhole q hq a i b hqe ha
    · rw [List.mem_singleton.1 hq] at hqe
      cases a with
      | nil => exact absurd rfl ha
      | cons c a => simp at hqe
  hEnds := by
    intro a q q' b hqe
    rcases snoc_split hqe with ⟨rfl, rfl, hps⟩ | ⟨b', rfl, hps⟩
    · obtain ⟨h1, h2⟩ := List.append_inj' hps rfl
      have hq : p = q := by simpa using h2
      subst hq
      exact ⟨x, rfl, he⟩
    · exact h.hEnds a q q' b' hps

theorem line_more {n : Nat} {ps : List (List Spec.Item)} {p : List Spec.Item} {x : Spec.Item} {ring : List (Nat × Nat)} (h : Spec.TimeLine n (ps ++ [p]) ring) (hp : p ≠ []) :
    Spec.TimeLine n (ps ++ [p ++ [x]]) ring := by
  refine ⟨h.1, ?_⟩
  intro a q q' b i j hqe hb hi hj hle
  rcases snoc_split hqe with ⟨rfl, rfl, rfl⟩ | ⟨b', rfl, hps⟩
  · rw [head_snoc hp] at hj
    exact h.2 a q p [] i j (by simp) hb hi hj hle
  · refine h.2 a q q' (b' ++ [p]) i j (by rw [hps]; simp) ?_ hi hj hle
    simpa using hb

theorem line_new {n : Nat} {ps : List (List Spec.Item)} {p q : List Spec.Item} {i j : Spec.Item} {segs : List Seg} (h : Spec.TimeLine n (ps ++ [p]) (segs.map fun s => (s.start, s.duration)))
    (hn : 0 < n) (hi : p.head? = some i) (hj : q.head? = some j) (hj64 : j.u.dts < 2 ^ 64) :
    Spec.TimeLine n (ps ++ [p] ++ [q]) ((segs.set (ps.length % segs.length) ⟨i.u.dts, diffU 64 j.u.dts i.u.dts⟩).map fun s => (s.start, s.duration)) := by
  have hl : segs.length = n := by have := h.1; simpa using this
  refine ⟨by simp [hl], ?_⟩
  intro a p' q' b i' j' hqe hb hi' hj' hle
  have hlt : ∀ k, k % n < n := fun k => Nat.mod_lt _ hn
  rcases snoc_split hqe with ⟨rfl, rfl, hps⟩ | ⟨b', rfl, hps⟩
  · obtain ⟨h1, h2⟩ := List.append_inj' hps rfl
    have hq : p = p' := by simpa using h2
    subst hq; subst h1
    rw [hi] at hi'; rw [hj] at hj'
    injection hi' with hi'; injection hj' with hj'
    subst hi'; subst hj'
    rw [hl, List.getElem?_map, List.getElem?_set_self (by rw [hl]; exact hlt _)]
    have : diffU 64 j.u.dts i.u.dts = j.u.dts - i.u.dts := by unfold diffU; omega
    rw [Option.map_some, this]
  · have hlen := congrArg List.length hps
    simp only [List.length_append, List.length_cons, List.length_nil] at hlen
    have hb' : b'.length + 1 < n := by simpa using hb
    have hold := h.2 a p' q' b' i' j' hps (by omega) hi' hj' hle
    rw [hl, List.getElem?_map, List.getElem?_set_ne, ← List.getElem?_map]
    · exact hold
    · intro e
      have h1 := Nat.div_add_mod ps.length n
      have h2 := Nat.div_add_mod a.length n
      rw [e] at h1
      have h3 : ps.length = a.length + (b'.length + 1) := by omega
      have h4 : n * (ps.length / n) = n * (a.length / n) + (b'.length + 1) := by omega
      have h5 : (b'.length + 1) % n = 0 := by
        have : b'.length + 1 = n * (ps.length / n) - n * (a.length / n) := by omega
        rw [this, ← Nat.mul_sub, Nat.mul_mod_right]
      rw [Nat.mod_eq_of_lt hb'] at h5
      omega

/-! ### One unit -/

/-- What is known for a kind of stream -/
def Aux (k : Spec.Kind) (r : Rep) : Prop :=
  match k with
  | .avc => Known r
  | .aac index => ∀ freq, Spec.frequencies[index]? = some freq → Heard r index freq
  | .other => True

theorem Aux.congr {k : Spec.Kind} {r r' : Rep} (h : Aux k r) (h1 : r'.sps = r.sps) (h2 : r'.pps = r.pps) (h3 : r'.avc = r.avc) (h4 : r'.aac = r.aac) : Aux k r' := by
  cases k with
  | avc => exact ⟨by rw [h1]; exact Known.dec h, by rw [h1, h2, h3]; exact Known.avc h⟩
  | aac index =>
    intro freq hf
    have := h freq hf
    unfold Heard at *
    rw [h4]; exact this
  | other => trivial

theorem copy_eq {k : Spec.Kind} {r : Rep} {l : List Spec.Sample} {e : Es} {bufs : List Bytes} {nals : List Bytes} {new : List Spec.Sample} (ht : Spec.OfType r.type k) (ho : Open r l) (ha : Aux k r)
    (hc : Spec.Carries k (toU e bufs) nals new) (hf : ∀ n ∈ nals, Fine n) :
    ∃ r', copy r e bufs = some (r', true) ∧ Open r' (l ++ new) ∧ Aux k r' ∧ Same r r' ∧ r'.sps = r.sps.or (nals.find? Spec.isSps) ∧ r'.pps = r.pps.or (nals.find? Spec.isPps) := by
  unfold copy
  cases k with
  | avc =>
    have ht : r.type = avcType := ht
    rw [if_pos ht]
    obtain ⟨r', h1, h2, h3, h4, -, h5, h6⟩ := copyAvc_eq ho ha hc hf
    exact ⟨r', h1, h2, h3, h4, h5, h6⟩
  | aac index =>
    have ht : r.type = aacType := ht
    rw [if_neg (by rw [ht]; decide), if_pos ht]
    obtain ⟨r', h1, h2, h3, h4, h5, h6, -⟩ := copyAac_eq ho ha hc
    obtain ⟨_, _, _, _, _, hn, _⟩ := hc
    exact ⟨r', h1, h2, h3, h4, by rw [h5, hn]; simp, by rw [h6, hn]; simp⟩
  | other =>
    rw [if_neg (show ¬ r.type = avcType from ht.1), if_neg (show ¬ r.type = aacType from ht.2)]
    obtain ⟨r', h1, h2, h3, -, h5, h6, -⟩ := copyDefault_eq ho hc
    have hn := hc.1
    exact ⟨r', h1, h2, trivial, h3, by rw [h5, hn]; simp, by rw [h6, hn]; simp⟩

theorem carries_offset {k : Spec.Kind} {u : Spec.U} {nals : List Bytes} {new : List Spec.Sample} (hc : Spec.Carries k u nals new) : ∀ s ∈ new, s.offset < 2 ^ 32 := by
  have hw : ∀ a b, Spec.wrap a b < 2 ^ 32 := by intro a b; unfold Spec.wrap; omega
  intro s hs
  cases k with
  | avc =>
    obtain ⟨_, _, _, _, _, _, hl⟩ := hc
    rw [hl] at hs
    rw [List.mem_singleton.1 hs]
    exact hw _ _
  | aac index =>
    obtain ⟨fs, freq, _, _, _, _, hl⟩ := hc
    rw [hl] at hs
    have : ∀ (fs : List Spec.Frame) (i : Nat), ∀ s ∈ Spec.sounds u freq i fs, s.offset < 2 ^ 32 := by
      intro fs
      induction fs with
      | nil => intro i s h; simp [Spec.sounds] at h
      | cons f fs ih =>
        intro i s h
        rw [Spec.sounds] at h
        rcases List.mem_cons.1 h with h | h
        · rw [h]; exact hw _ _
        · exact ih _ s h
    exact this fs 0 s hs
  | other =>
    rw [hc.2] at hs
    rw [List.mem_singleton.1 hs]
    exact hw _ _

theorem updateBandwidth_eq (c : Conf) (r : Rep) (bufs : List Bytes) (dts : Nat) (hA : 0 < c.analyze) :
    ∃ r', updateBandwidth c r bufs dts = some r' ∧ r' = { r with bandwidth := r'.bandwidth, bwBytes := r'.bwBytes, bwDts := r'.bwDts } := by
  unfold updateBandwidth
  by_cases hb : r.bandwidth ≠ 0
  · rw [if_pos hb]; exact ⟨r, rfl, rfl⟩
  · rw [if_neg hb]
    dsimp only
    generalize (dts : Int) - (if r.bwBytes = 0 then dts else r.bwDts : Nat) = d
    by_cases hd : ((c.analyze * 90 : Nat) : Int) ≤ d
    · rw [if_pos hd, if_neg (by omega)]
      exact ⟨_, rfl, rfl⟩
    · rw [if_neg hd]
      exact ⟨_, rfl, rfl⟩

theorem Open.congr {r r' : Rep} {l : List Spec.Sample} (h : Open r l) (h1 : r'.video = r.video) (h2 : r'.nsamples = r.nsamples) (h3 : r'.nmeta = r.nmeta) (h4 : r'.ndata = r.ndata)
    (h5 : r'.subs = r.subs) (h6 : r'.buf = r.buf) (h7 : r'.dts = r.dts) (h8 : r'.data = r.data) : Open r' l := ⟨h.table.congr h1 h2 h3 h4 h5 h6 h7, by rw [h8]; exact h.data⟩

/-- Everything there is to know of a representation -/
structure Good (c : Conf) (k : Spec.Kind) (type : Nat) (video : Bool) (r : Rep) (parts : List (List Spec.Item)) (nals : List Bytes) : Prop where
  inv : Inv c r parts
  aux : Aux k r
  type : r.type = type
  video : r.video = video
  sps : r.sps = nals.find? Spec.isSps
  pps : r.pps = nals.find? Spec.isPps

/-- What is assumed of a unit -/
structure In.Ok (k : Spec.Kind) (x : In) : Prop where
  carries : Spec.Carries k (toU x.e x.bufs) x.nals x.samples
  fine : ∀ n ∈ x.nals, Fine n
  pts : x.e.pts < 2 ^ 64
  dts : x.e.dts < 2 ^ 64

/-- The parts with one more item: in the last one, or a new one -/
inductive Next (R : Spec.Rules) (parts : List (List Spec.Item)) (x : Spec.Item) : List (List Spec.Item) → Prop where
  | more (ps : List (List Spec.Item)) (p : List Spec.Item) (h : parts = ps ++ [p]) (he : ¬ Spec.Ends R p x.u) : Next R parts x (ps ++ [p ++ [x]])
  | new : Next R parts x (parts ++ [[x]])

theorem unit_eq {c : Conf} {k : Spec.Kind} {type : Nat} {video : Bool} {r : Rep} {parts : List (List Spec.Item)} {nals : List Bytes} {x : In} (hg : Good c k type video r parts nals) (hx : x.Ok k)
    (hA : 0 < c.analyze) (hS : 0 < c.nsegs) (hty : Spec.OfType type k) (hw : ∀ ps p, parts = ps ++ [p] → Spec.weight video p + 96 < 2 ^ 31) :
    ∃ r' closed parts', unit c r x.e x.bufs = some (r', closed, true) ∧ Good c k type video r' parts' (nals ++ x.nals) ∧ Next (rules c video) parts x.item parts' := by
  obtain ⟨r1, hbw, hs1⟩ := updateBandwidth_eq c r x.bufs x.e.dts hA
  unfold unit
  rw [hbw]
  simp only [Option.bind_some]
  have hoff := carries_offset hx.carries
  have haux1 : Aux k r1 := by
    refine hg.aux.congr ?_ ?_ ?_ ?_ <;> rw [hs1]
  have hty1 : r1.type = type := by rw [hs1]; exact hg.type
  have hvi1 : r1.video = video := by rw [hs1]; exact hg.video
  have hsps1 : r1.sps = nals.find? Spec.isSps := by rw [hs1]; exact hg.sps
  have hpps1 : r1.pps = nals.find? Spec.isPps := by rw [hs1]; exact hg.pps
  -- opening a segment after `r2`, which has none
  have opening : ∀ r2 : Rep, r2.buf = none → r2.type = type → r2.video = video → Aux k r2 → r2.sps = nals.find? Spec.isSps → r2.pps = nals.find? Spec.isPps →
      ∀ qs : List (List Spec.Item), r2.seg = qs.length → Spec.Files video 0 (qs ++ [[x.item]]) none r2.files → Spec.Cuts (rules c video) (qs ++ [[x.item]]) →
      Spec.TimeLine c.nsegs (qs ++ [[x.item]]) (r2.segs.map fun s => (s.start, s.duration)) →
      ∃ r', (openSegment r2 x.e).2 = true ∧ copy (openSegment r2 x.e).1 x.e x.bufs = some (r', true) ∧ Good c k type video r' (qs ++ [[x.item]]) (nals ++ x.nals) := by
    intro r2 hb ht hv ha hsp hpp qs hseg hfi hcu hri
    obtain ⟨r3, h1, h2, h3, h4⟩ := startSegment_eq { r2 with segPts := x.e.pts, segDts := x.e.dts }
    have ho3 : Open r3 [] := ⟨h2, by rw [h3]; simp⟩
    have ha3 : Aux k r3 := by
      refine ha.congr ?_ ?_ ?_ ?_ <;> rw [h4]
    have ht3 : r3.type = type := by rw [h4]; exact ht
    obtain ⟨r', c1, c2, c3, c4, c5, c6⟩ := copy_eq (by rw [ht3]; exact hty) ho3 ha3 hx.carries hx.fine
    refine ⟨r', ?_, ?_, ?_, c3, by rw [c4.type, ht3], by rw [c4.video, h4]; exact hv, ?_, ?_⟩
    · unfold openSegment
      rw [if_pos hb, h1]
    · unfold openSegment
      rw [if_pos hb, h1]
      exact c1
    · have hv' : r'.video = video := by rw [c4.video, h4]; exact hv
      refine .inr ⟨qs, x.item, [], rfl, ?_, ?_, ?_, ?_, ?_, ⟨hx.pts, hx.dts⟩, ?_, ?_, ?_⟩
      · rw [List.nil_append] at c2
        simpa [In.item] using c2
      · rw [c4.segPts, h4]; rfl
      · rw [c4.segDts, h4]; rfl
      · rw [c4.seg, h4]; exact hseg
      · simpa [In.item] using hoff
      · rw [hv', c4.files, h4]; exact hfi
      · rw [hv']; exact hcu
      · rw [c4.segs, h4]; exact hri
    · rw [c5, h4, List.find?_append]
      show r2.sps.or _ = _
      rw [hsp]
    · rw [c6, h4, List.find?_append]
      show r2.pps.or _ = _
      rw [hpp]
  rcases hg.inv with ⟨hp, hb, hf, hse, hl⟩ | ⟨ps, i, p, hp, hm⟩
  · -- the first unit
    have hb1 : r1.buf = none := by rw [hs1]; exact hb
    have hclose : closeSegment c false r1 x.e = some (r1, false) := by
      unfold closeSegment
      rw [if_pos hb1]
    rw [hclose]
    simp only [Option.bind_some]
    obtain ⟨r', o1, o2, o3⟩ := opening r1 hb1 hty1 hvi1 haux1 hsps1 hpps1 [] (by rw [hs1]; exact hse) (by rw [hs1]; exact hf)
      ⟨by intro q hq; rw [List.mem_singleton.1 hq]; simp, by
        intro q hq a j b hqe ha
        rw [List.mem_singleton.1 hq] at hqe
        cases a with
        | nil => exact absurd rfl ha
        | cons y a => simp at hqe, by
        intro a q q' b hqe
        have := congrArg List.length hqe
        simp only [List.length_append, List.length_cons, List.length_nil] at this
        omega⟩
      ⟨by rw [hs1]; simpa using hl, by
        intro a q q' b j j' hqe
        have := congrArg List.length hqe
        simp only [List.length_append, List.length_cons, List.length_nil] at this
        omega⟩
    rw [if_pos o1, o2]
    exact ⟨r', false, [[x.item]], rfl, o3, by rw [hp]; exact .new⟩
  · -- a segment is open
    have ho1 : Open r1 ((i :: p).flatMap (·.samples)) := by
      refine hm.open_.congr ?_ ?_ ?_ ?_ ?_ ?_ ?_ ?_ <;> rw [hs1]
    have hd1 : r1.segDts = i.u.dts := by rw [hs1]; exact hm.segDts
    have hp1 : r1.segPts = i.u.pts := by rw [hs1]; exact hm.segPts
    have hb1 := ho1.buf
    have hgo := goesOn_ends (c := c) (r := r1) (e := x.e) (bufs := x.bufs) ho1 hd1
    have hv := hg.video
    cases hgo' : goesOn c r1 x.e ((x.e.dts : Int) - r1.segDts) with
    | true =>
      have hne : ¬ Spec.Ends (rules c r1.video) (i :: p) x.item.u := hgo.1 hgo'
      have hclose : closeSegment c false r1 x.e = some (r1, false) := by
        unfold closeSegment
        rw [if_neg hb1]
        dsimp only
        rw [hgo']
        rfl
      rw [hclose]
      simp only [Option.bind_some]
      have hopen : openSegment r1 x.e = (r1, true) := by
        unfold openSegment
        rw [if_neg hb1]
      rw [hopen]
      simp only [if_true]
      obtain ⟨r', c1, c2, c3, c4, c5, c6⟩ := copy_eq (by rw [hty1]; exact hty) ho1 haux1 hx.carries hx.fine
      rw [c1]
      have hv' : r'.video = video := by rw [c4.video]; exact hvi1
      rw [hvi1] at hne
      refine ⟨r', false, ps ++ [i :: p ++ [x.item]], rfl, ⟨?_, c3, by rw [c4.type]; exact hty1, hv', ?_, ?_⟩, .more ps (i :: p) hp hne⟩
      · refine .inr ⟨ps, i, p ++ [x.item], rfl, ?_, ?_, ?_, ?_, ?_, hm.times, ?_, ?_, ?_⟩
        · have e : (i :: (p ++ [x.item])).flatMap (·.samples) = (i :: p).flatMap (·.samples) ++ x.samples := by simp [In.item]
          rw [e]; exact c2
        · rw [c4.segPts]; exact hp1
        · rw [c4.segDts]; exact hd1
        · rw [c4.seg, hs1]; exact hm.seg
        · have e : (i :: (p ++ [x.item])).flatMap (·.samples) = (i :: p).flatMap (·.samples) ++ x.samples := by simp [In.item]
          rw [e]
          intro s hs
          rcases List.mem_append.1 hs with hs | hs
          · exact hm.offs s hs
          · exact hoff s hs
        · rw [hv', c4.files, hs1]
          have := hm.files
          rw [hv] at this
          exact files_last (p := i :: p) (p' := i :: (p ++ [x.item])) rfl ps 0 _ this
        · rw [hv']
          have := hm.cuts
          rw [hv] at this
          exact cuts_more this (by simp) hne
        · rw [c4.segs, hs1]
          exact line_more hm.ring (by simp)
      · rw [c5, hsps1, List.find?_append]
      · rw [c6, hpps1, List.find?_append]
    | false =>
      have hne : Spec.Ends (rules c r1.video) (i :: p) x.item.u := by
        rw [hgo'] at hgo
        exact Classical.not_not.1 (fun h => Bool.noConfusion (hgo.2 h))
      rw [hvi1] at hne
      obtain ⟨f, hend, hholds⟩ := holds_end (e := x.e) ho1 hp1 hd1 hm.times.1 hm.times.2 (by rw [hvi1]; exact hw ps (i :: p) hp) hm.offs
      have hsl : r1.segs.length = c.nsegs := by
        have := hm.ring.1
        rw [hs1]; simpa using this
      have hseg1 : r1.seg = ps.length := by rw [hs1]; exact hm.seg
      have hclose : closeSegment c false r1 x.e = some ({ r1 with buf := none, data := [], files := r1.files ++ [(r1.segDts, f)], segs := r1.segs.set (r1.seg % r1.segs.length) { start := r1.segDts, duration := diffU 64 x.e.dts r1.segDts }, seg := r1.seg + 1 }, true) := by
        unfold closeSegment
        rw [if_neg hb1]
        dsimp only
        rw [hgo', hend]
        simp only [Bool.not_false, Bool.and_false, Bool.false_eq_true, if_false, Option.bind_some]
        rw [if_neg (by omega)]
      rw [hclose]
      simp only [Option.bind_some]
      rw [hvi1, hseg1] at hholds
      obtain ⟨r', o1, o2, o3⟩ := opening { r1 with buf := none, data := [], files := r1.files ++ [(r1.segDts, f)], segs := r1.segs.set (r1.seg % r1.segs.length) { start := r1.segDts, duration := diffU 64 x.e.dts r1.segDts }, seg := r1.seg + 1 }
        rfl hty1 hvi1 (haux1.congr rfl rfl rfl rfl) hsps1 hpps1 (ps ++ [i :: p]) (by show r1.seg + 1 = _; rw [hseg1, List.length_append]; rfl)
        (by
          have := hm.files
          rw [hv] at this
          have hf1 : r1.files = r.files := by rw [hs1]
          show Spec.Files video 0 _ none (r1.files ++ _)
          rw [hf1]
          exact files_new rfl ps 0 _ this (by rw [Nat.zero_add]; exact hholds))
        (by
          have := hm.cuts
          rw [hv] at this
          exact cuts_new this hne)
        (by
          have h1 : Spec.TimeLine c.nsegs (ps ++ [i :: p]) (r1.segs.map fun s => (s.start, s.duration)) := by rw [hs1]; exact hm.ring
          have := line_new (q := [x.item]) (i := i) (j := x.item) h1 hS rfl rfl hx.dts
          show Spec.TimeLine _ _ ((r1.segs.set (r1.seg % r1.segs.length) ⟨r1.segDts, _⟩).map _)
          rw [hseg1, hd1]
          exact this)
      rw [if_pos o1, o2]
      exact ⟨r', true, ps ++ [i :: p] ++ [[x.item]], rfl, o3, by rw [hp]; exact .new⟩

end Verif.TsDash
