import Verif.TsDash.InitText
import Verif.TsDash.InitSpec
/- What a reader finds in an initialization segment -/
namespace Verif.TsDash
open Verif Verif.TsIn
open Verif.Mp4 (tag str overwrite boxText boxText_length flat child child_at row_cons row_nil Row numAt numAt_append readInit boxes)

/-- Parameter sets have lengths of 16 bits. -/
def ShortSets (r : Rep) : Prop := (∀ s, r.sps = some s → s.length < 2 ^ 16) ∧ (∀ p, r.pps = some p → p.length < 2 ^ 16)

theorem l1 (n : Nat) : (beEnc 1 n).length = 1 := beEnc_length ..
theorem l2 (n : Nat) : (beEnc 2 n).length = 2 := beEnc_length ..
theorem l3 (n : Nat) : (beEnc 3 n).length = 3 := beEnc_length ..
theorem l4 (n : Nat) : (beEnc 4 n).length = 4 := beEnc_length ..
theorem l8 (n : Nat) : (beEnc 8 n).length = 8 := beEnc_length ..
theorem vf_len (v f : Nat) : (vf v f).length = 4 := by unfold vf; rw [List.length_append, l1, l3]

theorem f32sT_len : ∀ l : List Nat, (f32sT l).length = 4 * l.length
  | [] => rfl
  | n :: l => by rw [f32sT, List.length_append, l4, f32sT_len l, List.length_cons]; omega

theorem matrixT_len : matrixT.length = 36 := f32sT_len _
theorem mvhdB_len (now : Nat) : (mvhdB now).length = 100 := by
  simp only [mvhdB, List.length_append, vf_len, f32sT_len, l8, l4, matrixT_len, List.length_cons, List.length_nil]
theorem tkhdB_len (now : Nat) (r : Rep) : (tkhdB now r).length = 84 := by
  simp only [tkhdB, List.length_append, vf_len, f32sT_len, l4, matrixT_len, List.length_cons, List.length_nil]
theorem mdhdB_len (now : Nat) : (mdhdB now).length = 24 := by simp only [mdhdB, List.length_append, vf_len, f32sT_len, List.length_cons, List.length_nil]
theorem hdlrB_len (v : Bool) : (hdlrB v).length = 30 := by cases v <;> decide +kernel
theorem xmhdP_len (v : Bool) : (xmhdP v).1.length = 4 ∧ (xmhdP v).2.length ≤ 12 := by cases v <;> decide +kernel
theorem dinfB_len : dinfB.length = 28 := by decide +kernel
theorem trex_len : (flat [(tag "trex", trexB)]).length = 32 := by decide +kernel
theorem videoH_len (w h : Nat) : (videoH w h).length = 78 := by
  simp only [videoH, List.length_append, f32sT_len, l2, l4, List.length_cons, List.length_nil]
theorem audioH_len : audioH.length = 28 := by decide +kernel

theorem decSpecT_len (r : Rep) : (decSpecT r).length ≤ 7 := by
  unfold decSpecT
  cases r.aac with
  | none => simp
  | some a => simp only [descText_len, List.length_append, l1]; omega
theorem decConfB_len (r : Rep) : (decConfB r).length = 13 + (decSpecT r).length := by
  simp only [decConfB, List.length_append, l1, l3, l4]
theorem esdsB_len (r : Rep) : (esdsB r).length ≤ 43 := by
  have := decSpecT_len r
  simp only [esdsB, List.length_append, vf_len, descText_len, l1, l2, decConfB_len]
  omega
theorem avccB_len (s p : Bytes) : (avccB s p).length ≤ 11 + s.length + p.length := by
  simp only [avccB, List.length_append, l1, l2, List.length_take, List.length_drop]
  omega
theorem avccT_len {r : Rep} (h : ShortSets r) : (avccT r).length ≤ 140000 := by
  have ht : (tag "avcC").length = 4 := by decide +kernel
  unfold avccT
  cases hs : r.sps with
  | none => simp
  | some s =>
    cases hp : r.pps with
    | none => simp
    | some p =>
      dsimp only
      have h1 := h.1 s hs
      have h2 := h.2 p hp
      have h3 := avccB_len s p
      split
      · simp
      · rw [boxText_length ht]; omega
theorem entryB_le {r : Rep} (h : ShortSets r) : (entryB r).length ≤ 150000 := by
  have h1 := avccT_len h
  have h2 := esdsB_len r
  have ht : (tag "esds").length = 4 := by decide +kernel
  unfold entryB
  by_cases hv : r.video = true
  · rw [if_pos hv]
    by_cases ha : r.type = avcType
    · rw [if_pos ha, List.length_append, videoH_len]; omega
    · rw [if_neg ha, List.length_append, videoH_len, boxText_length ht]; omega
  · rw [if_neg hv, List.length_append, audioH_len, boxText_length ht]; omega
theorem stsdB_le {r : Rep} (h : ShortSets r) : (stsdB r).length ≤ 160000 := by
  have := entryB_le h
  simp only [stsdB, List.length_append, vf_len, l4]
  rw [boxText_length (formatOf_len r)]
  omega
theorem stblB_le {r : Rep} (h : ShortSets r) : (stblB r).length ≤ 170000 := by
  have := stsdB_le h
  have h1 : (tag "stsd").length = 4 := by decide +kernel
  have h2 : (tag "stts").length = 4 := by decide +kernel
  have h3 : (tag "stsc").length = 4 := by decide +kernel
  have h4 : (tag "stsz").length = 4 := by decide +kernel
  have h5 : (tag "stco").length = 4 := by decide +kernel
  unfold stblB
  rw [Mp4.flat5]
  simp only [List.length_append, boxText_length h1, boxText_length h2, boxText_length h3, boxText_length h4, boxText_length h5, vf_len, l4, f32sT_len, List.length_cons, List.length_nil]
  omega
theorem minfB_le {r : Rep} (h : ShortSets r) : (minfB r).length ≤ 180000 := by
  have := stblB_le h
  have hm := xmhdP_len r.video
  have h1 : (tag "dinf").length = 4 := by decide +kernel
  have h3 : (tag "stbl").length = 4 := by decide +kernel
  unfold minfB
  rw [Mp4.flat3]
  simp only [List.length_append, boxText_length h1, boxText_length h3, boxText_length hm.1, dinfB_len]
  omega
theorem mdiaB_le (now : Nat) {r : Rep} (h : ShortSets r) : (mdiaB now r).length ≤ 190000 := by
  have := minfB_le h
  have h1 : (tag "mdhd").length = 4 := by decide +kernel
  have h2 : (tag "hdlr").length = 4 := by decide +kernel
  have h3 : (tag "minf").length = 4 := by decide +kernel
  unfold mdiaB
  rw [Mp4.flat3]
  simp only [List.length_append, boxText_length h1, boxText_length h2, boxText_length h3, mdhdB_len, hdlrB_len]
  omega
theorem trakB_le (now : Nat) {r : Rep} (h : ShortSets r) : (trakB now r).length ≤ 200000 := by
  have := mdiaB_le now h
  have h1 : (tag "tkhd").length = 4 := by decide +kernel
  have h2 : (tag "mdia").length = 4 := by decide +kernel
  unfold trakB
  rw [Mp4.flat2]
  simp only [List.length_append, boxText_length h1, boxText_length h2, tkhdB_len]
  omega
theorem moovB_le (now : Nat) {r : Rep} (h : ShortSets r) : (moovB now r).length ≤ 210000 := by
  have := trakB_le now h
  have h1 : (tag "mvhd").length = 4 := by decide +kernel
  have h2 : (tag "mvex").length = 4 := by decide +kernel
  have h3 : (tag "trak").length = 4 := by decide +kernel
  unfold moovB
  rw [Mp4.flat3]
  simp only [List.length_append, boxText_length h1, boxText_length h2, boxText_length h3, mvhdB_len, trex_len]
  omega

/-- What is read of the file of a track -/
theorem readInit_eq (now : Nat) {r : Rep} (h : ShortSets r) :
    readInit (initT now r) = some ⟨90000, 1, 1, if r.video then str "vide" else str "soun", formatOf r, entryB r⟩ := by
  have b1 := moovB_le now h
  have b2 := trakB_le now h
  have b3 := mdiaB_le now h
  have b4 := minfB_le h
  have b5 := stblB_le h
  have b6 := stsdB_le h
  have b7 := entryB_le h
  have k1 : child "moov" (initT now r) = some (moovB now r) := by
    refine child_at "moov" [(tag "ftyp", ftypB)] _ [] ?_ ?_ (by simp)
    · exact row_cons (by decide +kernel) (by decide +kernel) (row_cons (by decide +kernel) (by omega) row_nil)
    · show str "moov" ∉ [tag "ftyp"]
      decide +kernel
  have rm : Row [(tag "mvhd", mvhdB now), (tag "mvex", flat [(tag "trex", trexB)]), (tag "trak", trakB now r)] :=
    row_cons (by decide +kernel) (by rw [mvhdB_len]; omega) (row_cons (by decide +kernel) (by decide +kernel) (row_cons (by decide +kernel) (by omega) row_nil))
  have k2 : child "mvex" (moovB now r) = some (flat [(tag "trex", trexB)]) := by
    refine child_at "mvex" [(tag "mvhd", mvhdB now)] _ [(tag "trak", trakB now r)] rm ?_ ?_
    · show str "mvex" ∉ [tag "mvhd"]
      decide +kernel
    · show str "mvex" ∉ [tag "trak"]
      decide +kernel
  have k3 : child "trex" (flat [(tag "trex", trexB)]) = some trexB := by decide +kernel
  have k4 : child "trak" (moovB now r) = some (trakB now r) := by
    refine child_at "trak" [(tag "mvhd", mvhdB now), (tag "mvex", flat [(tag "trex", trexB)])] _ [] rm ?_ (by simp)
    show str "trak" ∉ [tag "mvhd", tag "mvex"]
    decide +kernel
  have rt : Row [(tag "tkhd", tkhdB now r), (tag "mdia", mdiaB now r)] :=
    row_cons (by decide +kernel) (by rw [tkhdB_len]; omega) (row_cons (by decide +kernel) (by omega) row_nil)
  have k5 : child "tkhd" (trakB now r) = some (tkhdB now r) := by
    refine child_at "tkhd" [] _ [(tag "mdia", mdiaB now r)] rt (by simp) ?_
    show str "tkhd" ∉ [tag "mdia"]
    decide +kernel
  have k6 : child "mdia" (trakB now r) = some (mdiaB now r) := by
    refine child_at "mdia" [(tag "tkhd", tkhdB now r)] _ [] rt ?_ (by simp)
    show str "mdia" ∉ [tag "tkhd"]
    decide +kernel
  have rd : Row [(tag "mdhd", mdhdB now), (tag "hdlr", hdlrB r.video), (tag "minf", minfB r)] :=
    row_cons (by decide +kernel) (by rw [mdhdB_len]; omega) (row_cons (by decide +kernel) (by rw [hdlrB_len]; omega) (row_cons (by decide +kernel) (by omega) row_nil))
  have k7 : child "mdhd" (mdiaB now r) = some (mdhdB now) := by
    refine child_at "mdhd" [] _ [(tag "hdlr", hdlrB r.video), (tag "minf", minfB r)] rd (by simp) ?_
    show str "mdhd" ∉ [tag "hdlr", tag "minf"]
    decide +kernel
  have k8 : child "hdlr" (mdiaB now r) = some (hdlrB r.video) := by
    refine child_at "hdlr" [(tag "mdhd", mdhdB now)] _ [(tag "minf", minfB r)] rd ?_ ?_
    · show str "hdlr" ∉ [tag "mdhd"]
      decide +kernel
    · show str "hdlr" ∉ [tag "minf"]
      decide +kernel
  have k9 : child "minf" (mdiaB now r) = some (minfB r) := by
    refine child_at "minf" [(tag "mdhd", mdhdB now), (tag "hdlr", hdlrB r.video)] _ [] rd ?_ (by simp)
    show str "minf" ∉ [tag "mdhd", tag "hdlr"]
    decide +kernel
  have k10 : child "stbl" (minfB r) = some (stblB r) := by
    refine child_at "stbl" [xmhdP r.video, (tag "dinf", dinfB)] _ [] ?_ ?_ (by simp)
    · have := xmhdP_len r.video
      refine row_cons (t := (xmhdP r.video).1) (x := (xmhdP r.video).2) this.1 (by omega) (row_cons (by decide +kernel) (by decide +kernel) (row_cons (by decide +kernel) (by omega) row_nil))
    · show str "stbl" ∉ [(xmhdP r.video).1, tag "dinf"]
      cases r.video <;> decide +kernel
  have k11 : child "stsd" (stblB r) = some (stsdB r) := by
    refine child_at "stsd" [] _ [(tag "stts", vf 0 0 ++ beEnc 4 0), (tag "stsc", vf 0 0 ++ beEnc 4 0), (tag "stsz", vf 0 0 ++ f32sT [0, 0]), (tag "stco", vf 0 0 ++ beEnc 4 0)] ?_ (by simp) ?_
    · exact row_cons (by decide +kernel) (by omega) (row_cons (by decide +kernel) (by decide +kernel) (row_cons (by decide +kernel) (by decide +kernel) (row_cons (by decide +kernel) (by decide +kernel)
        (row_cons (by decide +kernel) (by decide +kernel) row_nil))))
    · show str "stsd" ∉ [tag "stts", tag "stsc", tag "stsz", tag "stco"]
      decide +kernel
  have k12 : numAt 12 4 (mdhdB now) = some 90000 := by
    have := numAt_append (vf 0 0 ++ (beEnc 4 now ++ beEnc 4 now)) (beEnc 4 90000) (f32sT [0, 0x55c40000]) 12 4 90000 (by simp only [List.length_append, vf_len, l4]) rfl
    simpa [mdhdB, f32sT, List.append_assoc] using this
  have k13 : numAt 12 4 (tkhdB now r) = some 1 := by
    have := numAt_append (vf 0 3 ++ (beEnc 4 now ++ beEnc 4 now)) (beEnc 4 1) (f32sT [0, 0xffffffff, 0, 0, 0] ++ beEnc 4 (if r.video then 0 else 0x1000000) ++ matrixT ++
      beEnc 4 (widthOf r * 65536) ++ beEnc 4 (heightOf r * 65536)) 12 4 1 (by simp only [List.length_append, vf_len, l4]) rfl
    simpa [tkhdB, f32sT, List.append_assoc] using this
  have k14 : numAt 4 4 trexB = some 1 := by decide +kernel
  have k15 : ((hdlrB r.video).drop 8).take 4 = if r.video then str "vide" else str "soun" := by cases r.video <;> decide +kernel
  have e8 : (vf 0 0 ++ beEnc 4 1).length = 8 := by decide +kernel
  have k16 : boxes ((stsdB r).drop 8) = some [⟨0, formatOf r, entryB r⟩] := by
    unfold stsdB
    rw [← List.append_assoc, List.drop_left' e8]
    exact Mp4.boxes_one (p := (formatOf r, entryB r)) ⟨formatOf_len r, by dsimp only; omega⟩
  have k17 : numAt 4 4 (stsdB r) = some 1 := by
    unfold stsdB
    exact numAt_append (vf 0 0) (beEnc 4 1) _ 4 4 1 (vf_len ..) rfl
  unfold readInit
  rw [k1]
  simp only [Option.bind_some]
  rw [k2]
  simp only [Option.bind_some]
  rw [k3, k4]
  simp only [Option.bind_some]
  rw [k5, k6]
  simp only [Option.bind_some]
  rw [k7, k8, k9]
  simp only [Option.bind_some]
  rw [k10]
  simp only [Option.bind_some]
  rw [k11]
  simp only [Option.bind_some]
  rw [k12, k13, k14]
  simp only [Option.bind_some]
  rw [k16]
  simp only []
  rw [if_pos k17, k15]

end Verif.TsDash
