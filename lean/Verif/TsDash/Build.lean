import Verif.TsDash.Text
/- Samples are added to a segment, and the segment is ended. -/
namespace Verif.TsDash
open Verif Verif.TsIn
open Verif.Mp4 (tag overwrite boxText boxText_length)

theorem diffU_wrap (a b : Nat) : diffU 32 a b = Spec.wrap a b := rfl

/-- A sample as a row of the table -/
def msOf (s : Spec.Sample) (d : Nat) : Mp4.Sample := { size := s.bytes.length, duration := d, delay := s.offset, timestamp := 0, key := s.key }

/-- Samples, each lasting up to the next, the last one up to `next` -/
def before : List Spec.Sample → Nat → List Mp4.Sample
  | [], _ => []
  | [s], next => [msOf s (Spec.wrap next s.dts)]
  | s :: t :: r, next => msOf s (Spec.wrap t.dts s.dts) :: before (t :: r) next

theorem before_snoc (s : Spec.Sample) (next : Nat) : ∀ a : List Spec.Sample, before (a ++ [s]) next = before a s.dts ++ [msOf s (Spec.wrap next s.dts)]
  | [] => rfl
  | [t] => rfl
  | t :: u :: r => by
    have ih := before_snoc s next (u :: r)
    simp only [List.cons_append, before] at ih ⊢
    rw [ih]

theorem before_length : ∀ (a : List Spec.Sample) (next : Nat), (before a next).length = a.length
  | [], _ => rfl
  | [_], _ => rfl
  | _ :: t :: r, next => by simp only [before, List.length_cons, before_length (t :: r) next]

theorem before_size : ∀ (a : List Spec.Sample) (next : Nat), (before a next).map (·.size) = a.map (·.bytes.length)
  | [], _ => rfl
  | [_], _ => rfl
  | _ :: t :: r, next => by simp only [before, List.map_cons, before_size (t :: r) next]; rfl

theorem rows_append (m : Nat) (a b : List Mp4.Sample) : Mp4.rows m (a ++ b) = Mp4.rows m a ++ Mp4.rows m b := by simp [Mp4.rows]

theorem rows_one (m : Nat) (s : Mp4.Sample) : Mp4.rows m [s] = Mp4.row m s := by simp [Mp4.rows]

/-- Bytes of a row -/
def rowSize (v : Bool) : Nat := if v then 16 else 8

theorem row_len (v : Bool) (s : Mp4.Sample) : (Mp4.row (mask v) s).length = rowSize v := by
  rw [Mp4.row_length]; cases v <;> rfl

theorem rows_len (v : Bool) (l : List Mp4.Sample) : (Mp4.rows (mask v) l).length = l.length * rowSize v := by
  rw [Mp4.rows_length]
  cases v
  · show l.length * 2 * 4 = l.length * 8
    omega
  · show l.length * 4 * 4 = l.length * 16
    omega

/-- A row: the duration and the rest -/
def rowRest (v : Bool) (s : Spec.Sample) : Bytes := beEnc 4 s.bytes.length ++ (if v then beEnc 4 (if s.key then 0 else 0x10000) ++ beEnc 4 s.offset else [])

theorem row_eq (v : Bool) (s : Spec.Sample) (d : Nat) : Mp4.row (mask v) (msOf s d) = beEnc 4 d ++ rowRest v s := by
  have a : Mp4.hasDuration (mask v) = true ∧ Mp4.hasSize (mask v) = true ∧ Mp4.hasKey (mask v) = v ∧ Mp4.hasDelay (mask v) = v := by cases v <;> decide +kernel
  obtain ⟨a1, a2, a3, a4⟩ := a
  unfold Mp4.row
  rw [a1, a2, a3, a4]
  cases v <;> cases h : s.key <;> simp [msOf, rowRest, h]

theorem overwrite_row (v : Bool) (x : Bytes) (s : Spec.Sample) (d d' : Nat) :
    overwrite (x ++ Mp4.row (mask v) (msOf s d)) x.length (beEnc 4 d') = x ++ Mp4.row (mask v) (msOf s d') := by
  have h4 : ∀ n, (beEnc 4 n).length = 4 := fun n => beEnc_length ..
  rw [row_eq, row_eq]
  unfold overwrite
  rw [List.take_left' rfl, h4, ← List.append_assoc x, List.drop_left' (by rw [List.length_append, h4])]
  simp

/-- The table is that of the samples; the last one has no duration yet. -/
structure Meta (r : Rep) (l : List Spec.Sample) : Prop where
  nsamples : r.nsamples = l.length
  nmeta : r.nmeta = l.length * rowSize r.video
  ndata : r.ndata = (l.map (·.bytes.length)).sum
  subs : ∃ sd, r.subs = { subs0 with sampleDuration := sd }
  none_ : l = [] → r.buf = some [head0 r.video] ∧ r.subs.sampleDuration = none
  some_ : ∀ a s, l = a ++ [s] → ∃ pre x, r.buf = some (pre ++ [x ++ Mp4.row (mask r.video) (msOf s 0)]) ∧ r.subs.sampleDuration = some (pre.length, x.length) ∧
    (pre ++ [x]).flatten = head0 r.video ++ Mp4.rows (mask r.video) (before a s.dts) ∧ (∃ y, (pre ++ [x]).head? = some (head0 r.video ++ y)) ∧ r.dts = s.dts

theorem put_last (v : Bool) (pre post : List Bytes) (x : Bytes) (s : Spec.Sample) (d : Nat) :
    put (pre ++ [x ++ Mp4.row (mask v) (msOf s 0)] ++ post) (pre.length, x.length) (beEnc 4 d) = some (pre ++ [x ++ Mp4.row (mask v) (msOf s d)] ++ post) := by
  have h4 : ∀ n, (beEnc 4 n).length = 4 := fun n => beEnc_length ..
  unfold put
  have e : (pre ++ [x ++ Mp4.row (mask v) (msOf s 0)] ++ post)[pre.length]? = some (x ++ Mp4.row (mask v) (msOf s 0)) := by simp
  simp only [e]
  have : 4 ≤ rowSize v := by cases v <;> decide
  rw [if_pos (by rw [List.length_append, row_len, h4]; omega), overwrite_row]
  simp

theorem sampleFields_eq (v : Bool) (e : Es) (s : Spec.Sample) (ho : s.offset = Spec.wrap e.pts e.dts) (hk : s.key = e.rand) :
    sampleFields v e s.bytes.length = Mp4.row (mask v) (msOf s 0) := by
  rw [row_eq]
  unfold sampleFields rowRest
  rw [ho, hk, diffU_wrap, List.append_assoc]

/-- A sample is added to the table. -/
theorem appendMeta_eq {r : Rep} {l : List Spec.Sample} (h : Meta r l) (e : Es) (s : Spec.Sample) (ho : s.offset = Spec.wrap e.pts e.dts) (hk : s.key = e.rand) :
    ∃ r', appendMeta r e s.bytes.length s.dts = some r' ∧ Meta r' (l ++ [s]) ∧
      r' = { r with ndata := r'.ndata, nsamples := r'.nsamples, nmeta := r'.nmeta, dts := r'.dts, subs := r'.subs, buf := r'.buf } := by
  obtain ⟨sd, hsub⟩ := h.subs
  have hB : bufSize = 1024 := rfl
  have hn : (if r.video then 16 else 8) = rowSize r.video := rfl
  have hR : ∀ t d, (Mp4.row (mask r.video) (msOf t d)).length = rowSize r.video := fun t d => row_len _ _
  have hrs : rowSize r.video ≤ 16 := by cases r.video <;> decide
  rcases List.eq_nil_or_concat l with hl | ⟨a, t, hl⟩
  · obtain ⟨hb, hd⟩ := h.none_ hl
    have hh := head0_length r.video
    have e1 : decide (bufSize - (head0 r.video).length < if r.video then 16 else 8) = false := by
      rw [hn, hh]
      apply decide_eq_false
      show ¬ 1024 - 168 < rowSize r.video
      omega
    refine ⟨{ r with ndata := r.ndata + s.bytes.length, nsamples := r.nsamples + 1, nmeta := r.nmeta + rowSize r.video, dts := s.dts, subs := { r.subs with sampleDuration := some (0, 168) }, buf := some [head0 r.video ++ Mp4.row (mask r.video) (msOf s 0)] }, ?_, ?_, rfl⟩
    · unfold appendMeta
      rw [hb]
      simp only [List.getLast?_singleton]
      rw [e1, hd]
      generalize head0 r.video = H at *
      simp only [putIf, Bool.false_eq_true, if_false, Option.bind_some, List.getLast?_singleton, List.length_singleton, Nat.sub_self, List.dropLast_singleton, List.nil_append]
      rw [hh, sampleFields_eq _ _ _ ho hk, List.take_of_length_le (by rw [hR, hB]; omega), hn]
    · subst hl
      refine ⟨?_, ?_, ?_, ⟨some (0, 168), by show _ = _; rw [hsub]⟩, by intro h; simp at h, ?_⟩
      · show r.nsamples + 1 = _
        rw [h.nsamples]; rfl
      · show r.nmeta + rowSize r.video = _
        rw [h.nmeta]
        show 0 * _ + _ = 1 * rowSize r.video
        omega
      · show r.ndata + _ = _
        rw [h.ndata]; simp
      · intro b u hu
        have hb : b = [] := by
          cases b with
          | nil => rfl
          | cons x y => simp at hu
        subst hb
        have hu : s = u := by simpa using hu
        subst hu
        exact ⟨[], head0 r.video, rfl, by simp only [List.length_nil, hh], by simp [before, Mp4.rows], ⟨[], by simp⟩, rfl⟩
  · rw [List.concat_eq_append] at hl
    obtain ⟨pre, x, hb, hd, hf, ⟨y, hy⟩, hdt⟩ := h.some_ a t hl
    have hgl : (pre ++ [x ++ Mp4.row (mask r.video) (msOf t 0)]).getLast? = some (x ++ Mp4.row (mask r.video) (msOf t 0)) := by simp
    have hxl : ∀ d, (x ++ Mp4.row (mask r.video) (msOf t d)).length = x.length + rowSize r.video := fun d => by rw [List.length_append, hR]
    have hflat : (pre ++ [x]).flatten ++ Mp4.row (mask r.video) (msOf t (Spec.wrap s.dts t.dts)) = head0 r.video ++ Mp4.rows (mask r.video) (before (a ++ [t]) s.dts) := by
      rw [before_snoc, rows_append, rows_one, hf, List.append_assoc]
    cases hfr : decide (bufSize - (x ++ Mp4.row (mask r.video) (msOf t 0)).length < rowSize r.video) with
    | true =>
      refine ⟨{ r with ndata := r.ndata + s.bytes.length, nsamples := r.nsamples + 1, nmeta := r.nmeta + rowSize r.video, dts := s.dts, subs := { r.subs with sampleDuration := some (pre.length + 1, 0) }, buf := some (pre ++ [x ++ Mp4.row (mask r.video) (msOf t (Spec.wrap s.dts t.dts))] ++ [[] ++ Mp4.row (mask r.video) (msOf s 0)]) }, ?_, ?_, rfl⟩
      · unfold appendMeta
        rw [hb]
        simp only [hgl]
        rw [hn, hfr, hd]
        simp only [putIf, if_true]
        rw [hdt, diffU_wrap, put_last]
        simp only [Option.bind_some, List.getLast?_append, List.getLast?_singleton, Option.some_or, List.length_append, List.length_singleton, List.length_nil, Nat.add_sub_cancel, List.dropLast_concat]
        rw [sampleFields_eq _ _ _ ho hk, List.take_of_length_le (by rw [hR, hB]; omega)]
      · subst hl
        refine ⟨?_, ?_, ?_, ⟨some (pre.length + 1, 0), by show _ = _; rw [hsub]⟩, by intro h; simp at h, ?_⟩
        · show r.nsamples + 1 = _
          rw [h.nsamples, List.length_append (as := a ++ [t])]; rfl
        · show r.nmeta + rowSize r.video = _
          rw [h.nmeta, List.length_append (as := a ++ [t])]
          show _ = (_ + 1) * rowSize r.video
          rw [Nat.succ_mul]
        · show r.ndata + _ = _
          rw [h.ndata]; simp [Nat.add_assoc]
        · intro b u hu
          obtain ⟨hb', hu⟩ := List.append_inj' hu rfl
          have hu : s = u := by simpa using hu
          subst hu; subst hb'
          refine ⟨pre ++ [x ++ Mp4.row (mask r.video) (msOf t (Spec.wrap s.dts t.dts))], [], rfl, by simp, ?_, ?_, rfl⟩
          · show _ = head0 r.video ++ Mp4.rows (mask r.video) _
            rw [← hflat]; simp
          · cases pre with
            | nil =>
              simp at hy
              exact ⟨y ++ Mp4.row (mask r.video) (msOf t (Spec.wrap s.dts t.dts)), by simp [hy]⟩
            | cons p q =>
              simp at hy
              exact ⟨y, by simp [hy]⟩
    | false =>
      have hlt : ¬ bufSize - (x ++ Mp4.row (mask r.video) (msOf t 0)).length < rowSize r.video := by simpa using hfr
      rw [hxl] at hlt
      refine ⟨{ r with ndata := r.ndata + s.bytes.length, nsamples := r.nsamples + 1, nmeta := r.nmeta + rowSize r.video, dts := s.dts, subs := { r.subs with sampleDuration := some (pre.length, (x ++ Mp4.row (mask r.video) (msOf t (Spec.wrap s.dts t.dts))).length) }, buf := some (pre ++ [x ++ Mp4.row (mask r.video) (msOf t (Spec.wrap s.dts t.dts)) ++ Mp4.row (mask r.video) (msOf s 0)]) }, ?_, ?_, rfl⟩
      · unfold appendMeta
        rw [hb]
        simp only [hgl]
        rw [hn, hfr, hd]
        simp only [putIf, Bool.false_eq_true, if_false]
        have hp := put_last r.video pre [] x t (Spec.wrap s.dts t.dts)
        rw [List.append_nil, List.append_nil] at hp
        rw [hdt, diffU_wrap, hp]
        simp only [Option.bind_some, List.getLast?_append, List.getLast?_singleton, Option.some_or, List.length_append, List.length_singleton, Nat.add_sub_cancel, List.dropLast_concat]
        rw [sampleFields_eq _ _ _ ho hk, List.take_of_length_le (by rw [hR, hR]; omega), hR, hR]
      · subst hl
        refine ⟨?_, ?_, ?_, ⟨some (pre.length, (x ++ Mp4.row (mask r.video) (msOf t (Spec.wrap s.dts t.dts))).length), by show _ = _; rw [hsub]⟩, by intro h; simp at h, ?_⟩
        · show r.nsamples + 1 = _
          rw [h.nsamples, List.length_append (as := a ++ [t])]; rfl
        · show r.nmeta + rowSize r.video = _
          rw [h.nmeta, List.length_append (as := a ++ [t])]
          show _ = (_ + 1) * rowSize r.video
          rw [Nat.succ_mul]
        · show r.ndata + _ = _
          rw [h.ndata]; simp [Nat.add_assoc]
        · intro b u hu
          obtain ⟨hb', hu⟩ := List.append_inj' hu rfl
          have hu : s = u := by simpa using hu
          subst hu; subst hb'
          refine ⟨pre, x ++ Mp4.row (mask r.video) (msOf t (Spec.wrap s.dts t.dts)), rfl, rfl, ?_, ?_, rfl⟩
          · show _ = head0 r.video ++ Mp4.rows (mask r.video) _
            rw [← hflat]; simp
          · cases pre with
            | nil =>
              simp at hy
              exact ⟨y ++ Mp4.row (mask r.video) (msOf t (Spec.wrap s.dts t.dts)), by simp [hy]⟩
            | cons p q =>
              simp at hy
              exact ⟨y, by simp [hy]⟩

/-! ### The end of a segment -/

/-- The rows of an ended segment -/
def ended (l : List Spec.Sample) (next : Nat) : List Mp4.Sample := List.zipWith msOf l (Spec.durations next l)

def lastDur (next dts : Nat) : Nat := if 0 < Spec.wrap next dts ∧ Spec.wrap next dts < 2 ^ 31 then Spec.wrap next dts else 0

theorem ended_snoc (s : Spec.Sample) (next : Nat) : ∀ a : List Spec.Sample, ended (a ++ [s]) next = before a s.dts ++ [msOf s (lastDur next s.dts)]
  | [] => rfl
  | [t] => rfl
  | t :: u :: r => by
    have ih := ended_snoc s next (u :: r)
    simp only [ended, List.cons_append, before, Spec.durations, List.zipWith_cons_cons] at ih ⊢
    rw [ih]

theorem durations_length (next : Nat) : ∀ l : List Spec.Sample, (Spec.durations next l).length = l.length
  | [] => rfl
  | [_] => rfl
  | s :: t :: r => by simp only [Spec.durations, List.length_cons, durations_length next (t :: r)]

theorem ended_length (l : List Spec.Sample) (next : Nat) : (ended l next).length = l.length := by
  simp [ended, durations_length]

theorem ended_size (l : List Spec.Sample) (next : Nat) : (ended l next).map (·.size) = (l.map (·.bytes)).map List.length := by
  have h := durations_length next l
  unfold ended
  generalize Spec.durations next l = d at h
  induction l generalizing d with
  | nil => rfl
  | cons s l ih =>
    cases d with
    | nil => simp at h
    | cons x d => simp only [List.zipWith_cons_cons, List.map_cons, ih d (by simpa using h)]; rfl

theorem fields_snoc (v : Bool) (a1 a2 a3 a4 a5 a6 a7 a8 a9 a10 : Nat) (y : Bytes) :
    (fields v a1 a2 a3 a4 a5 a6 a7 a8 a9 a10 y).flatten = (fields v a1 a2 a3 a4 a5 a6 a7 a8 a9 a10 []).flatten ++ y := by
  simp only [fields, List.flatten_cons, List.flatten_nil, List.append_assoc, List.append_nil, List.nil_append]

/-- What is returned for an ended segment -/
theorem endSegment_eq {r : Rep} {l : List Spec.Sample} (h : Meta r l) (e : Es) (raw : Bytes) (hd : r.data = boxText (tag "mdat") [] ++ raw) (hn : r.ndata = raw.length)
    (hm : l.length * rowSize r.video + raw.length + 96 < 2 ^ 31) :
    endSegment r e = some (segText r.video r.segPts r.segDts r.seg (Spec.wrap e.dts r.segDts) (ended l e.dts) raw) := by
  obtain ⟨sd, hsub⟩ := h.subs
  have hmeta := h.nmeta
  have hrl : (Mp4.rows (mask r.video) (ended l e.dts)).length = r.nmeta := by rw [rows_len, ended_length, hmeta]
  obtain ⟨-, -, -, t4, -⟩ := tag4
  -- the data
  have hdata : grow r.subs.mdat r.ndata r.data = some (boxText (tag "mdat") raw, 8 + raw.length) := by
    have e0 : r.subs.mdat = 0 := by rw [hsub]; rfl
    have e1 : r.data = [beEnc 4 8, tag "mdat" ++ raw].flatten := by rw [hd]; simp [boxText]
    rw [e0, e1, grow_field _ 0 0 8 _ rfl rfl (by omega), hn, Nat.mod_eq_of_lt (by omega)]
    simp [boxText]
  -- the end, from the chain with the last duration
  have key : ∀ chain b rest, putIf chain (if positive32 (diffU 32 e.dts r.dts) then r.subs.sampleDuration else none) (beEnc 4 (diffU 32 e.dts r.dts)) = some (b :: rest) →
      r.buf = some chain → ∀ y, b = head0 r.video ++ y → y ++ rest.flatten = Mp4.rows (mask r.video) (ended l e.dts) →
      endSegment r e = some (segText r.video r.segPts r.segDts r.seg (Spec.wrap e.dts r.segDts) (ended l e.dts) raw) := by
    intro chain b rest h1 h2 y hb hy
    unfold endSegment
    rw [h2]
    simp only [Option.bind_some]
    rw [h1]
    simp only [Option.bind_some]
    rw [hdata]
    simp only [Option.bind_some]
    have e1 : b = (fields r.video 0 0 0 88 0 64 0 20 0 0 y).flatten := by rw [fields_snoc]; exact hb
    rw [e1, patches_eq r e _ r.video y sd hsub (by omega)]
    simp only [Option.map_some, Option.some.injEq]
    rw [fields_snoc, List.append_assoc _ y, hy, ← fields_snoc, diffU_wrap]
    have ht := fields_text r.video r.segPts r.segDts r.seg (Spec.wrap e.dts r.segDts) (88 + r.nmeta + (8 + raw.length)) (ended l e.dts)
    rw [hrl, ended_length, ← h.nsamples] at ht
    rw [ht]
    unfold segText
    rw [hrl, show 88 + r.nmeta + (8 + raw.length) = 96 + r.nmeta + raw.length by omega]
  rcases List.eq_nil_or_concat l with hl | ⟨a, t, hl⟩
  · obtain ⟨hb, hs⟩ := h.none_ hl
    refine key _ (head0 r.video) [] ?_ hb [] (by simp) ?_
    · rw [hs]
      simp [putIf]
    · subst hl; rfl
  · rw [List.concat_eq_append] at hl
    obtain ⟨pre, x, hb, hs, hf, ⟨y, hy⟩, hdt⟩ := h.some_ a t hl
    have hput : putIf (pre ++ [x ++ Mp4.row (mask r.video) (msOf t 0)]) (if positive32 (diffU 32 e.dts r.dts) then r.subs.sampleDuration else none) (beEnc 4 (diffU 32 e.dts r.dts)) =
        some (pre ++ [x ++ Mp4.row (mask r.video) (msOf t (lastDur e.dts t.dts))]) := by
      rw [hdt, diffU_wrap]
      have hp := put_last r.video pre [] x t (Spec.wrap e.dts t.dts)
      rw [List.append_nil, List.append_nil] at hp
      unfold positive32 lastDur
      by_cases c : 0 < Spec.wrap e.dts t.dts ∧ Spec.wrap e.dts t.dts < 2 ^ 31
      · rw [if_pos c, if_pos (by simpa using c), hs]
        exact hp
      · rw [if_neg c, if_neg (by simpa using c)]
        rfl
    have hrows : (pre ++ [x]).flatten ++ Mp4.row (mask r.video) (msOf t (lastDur e.dts t.dts)) = head0 r.video ++ Mp4.rows (mask r.video) (ended l e.dts) := by
      rw [hf, hl, ended_snoc, rows_append, rows_one, List.append_assoc]
    cases pre with
    | nil =>
      simp only [List.nil_append, List.head?_cons, Option.some.injEq] at hy
      refine key _ _ [] hput hb (y ++ Mp4.row (mask r.video) (msOf t (lastDur e.dts t.dts))) (by rw [hy, List.append_assoc]) ?_
      simp only [List.nil_append, List.flatten_cons, List.flatten_nil, List.append_nil] at hrows ⊢
      rw [hy, List.append_assoc] at hrows
      exact List.append_cancel_left hrows
    | cons p q =>
      simp only [List.cons_append, List.head?_cons, Option.some.injEq] at hy
      refine key _ p (q ++ [x ++ Mp4.row (mask r.video) (msOf t (lastDur e.dts t.dts))]) hput hb y hy ?_
      simp only [List.cons_append, List.flatten_cons, List.flatten_append, List.flatten_nil, List.append_nil, List.append_assoc] at hrows ⊢
      rw [hy, List.append_assoc] at hrows
      exact List.append_cancel_left hrows

/-- A new segment -/
theorem startSegment_eq (r : Rep) : ∃ r', startSegment r = (r', true) ∧ Meta r' [] ∧ r'.data = boxText (tag "mdat") [] ∧
    r' = { r with nsamples := 0, nmeta := 0, ndata := 0, buf := some [head0 r.video], data := boxText (tag "mdat") [], subs := subs0 } := by
  refine ⟨{ r with nsamples := 0, nmeta := 0, ndata := 0, buf := some [head0 r.video], data := boxText (tag "mdat") [], subs := subs0 }, ?_, ?_, rfl, rfl⟩
  · unfold startSegment
    rw [head_eq]
    dsimp only
    rw [mdat_eq]
    dsimp only
    have h : (boxText (tag "mdat") []).length = 8 := by decide +kernel
    rw [head0_length, h]
    rfl
  · exact ⟨rfl, by simp, rfl, ⟨none, rfl⟩, fun _ => ⟨rfl, rfl⟩, by intro a s h; simp at h⟩

end Verif.TsDash
