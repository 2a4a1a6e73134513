import Verif.Dash.InitModel
import Verif.Dash.InitSpec
import Verif.Dash.Mp4Lemmas
namespace Verif.Mp4
open Verif

/-! ### What is written -/

def matrixT : Bytes := beEnc 4 0x10000 ++ beEnc 4 0 ++ beEnc 4 0 ++ beEnc 4 0 ++ beEnc 4 0x10000 ++ beEnc 4 0 ++ beEnc 4 0 ++ beEnc 4 0 ++ beEnc 4 0x40000000
def ftypB : Bytes := tag "iso6" ++ beEnc 4 1 ++ tag "isom" ++ tag "iso6" ++ tag "dash"
def mvhdB : Bytes := beEnc 4 0 ++ beEnc 4 0 ++ beEnc 4 0 ++ beEnc 4 1000 ++ beEnc 4 0 ++ beEnc 4 0x10000 ++ beEnc 2 0x0100 ++ beEnc 2 0 ++ beEnc 4 0 ++
  beEnc 4 0 ++ matrixT ++ beEnc 4 0 ++ beEnc 4 0 ++ beEnc 4 0 ++ beEnc 4 0 ++ beEnc 4 0 ++ beEnc 4 0 ++ beEnc 4 1
def tkhdB (c : Codec) (video : Bool) : Bytes := beEnc 1 0 ++ beEnc 3 0xf ++ beEnc 4 0 ++ beEnc 4 0 ++ beEnc 4 1 ++ beEnc 4 0 ++ beEnc 4 0 ++ beEnc 4 0 ++
  beEnc 4 0 ++ beEnc 4 0 ++ beEnc 2 (if video then 0 else 0x0100) ++ beEnc 2 0 ++ matrixT ++ beEnc 4 (if video then c.width * 65536 else 0) ++
  beEnc 4 (if video then c.height * 65536 else 0)
def mdhdB : Bytes := beEnc 4 0 ++ beEnc 4 0 ++ beEnc 4 0 ++ beEnc 4 1000 ++ beEnc 4 0 ++ beEnc 2 0x15C7 ++ beEnc 2 0
def hdlrB (video : Bool) : Bytes := beEnc 4 0 ++ beEnc 4 0 ++ (if video then tag "vide" else tag "soun") ++ beEnc 4 0 ++ beEnc 4 0 ++ beEnc 4 0 ++
  ((if video then tag "VideoHandler" else tag "SoundHandler") ++ [0])
def drefB : Bytes := beEnc 4 0 ++ beEnc 4 1 ++ beEnc 4 0xc ++ tag "url " ++ beEnc 4 1
def avc1H (w h : Nat) : Bytes := beEnc 4 0 ++ beEnc 2 0 ++ beEnc 2 1 ++ beEnc 2 0 ++ beEnc 2 0 ++ beEnc 4 0 ++ beEnc 4 0 ++ beEnc 4 0 ++ beEnc 2 w ++
  beEnc 2 h ++ beEnc 4 0x480000 ++ beEnc 4 0x480000 ++ beEnc 4 0 ++ beEnc 2 1 ++ beEnc 4 0 ++ beEnc 4 0 ++ beEnc 4 0 ++ beEnc 4 0 ++ beEnc 4 0 ++ beEnc 4 0 ++
  beEnc 4 0 ++ beEnc 4 0 ++ beEnc 2 0x18 ++ beEnc 2 0xffff
def mp4aH (ch ss r : Nat) : Bytes := beEnc 4 0 ++ beEnc 2 0 ++ beEnc 2 1 ++ beEnc 4 0 ++ beEnc 4 0 ++ beEnc 2 ch ++ beEnc 2 (ss * 8) ++ beEnc 4 0 ++ beEnc 2 1000 ++
  beEnc 2 r
def descT (t n : Nat) : Bytes := beEnc 1 t ++ beEnc 1 (n % 128)
def esdsB (x : Bytes) : Bytes := beEnc 4 0 ++ descT 3 (23 + x.length) ++ beEnc 2 1 ++ beEnc 1 0 ++ descT 4 (15 + x.length) ++ beEnc 1 0x40 ++ beEnc 1 0x15 ++
  beEnc 3 0 ++ beEnc 4 0x1F151 ++ beEnc 4 0x1F14D ++ descT 5 x.length ++ x ++ descT 6 1 ++ beEnc 1 2
/-- The sample entry; `conf` is the configuration of the decoder. -/
def entryB (c : Codec) (video : Bool) (conf : Bytes) : Bytes :=
  if video then avc1H c.width c.height ++ boxText (tag "avcC") conf else mp4aH c.channels c.sampleSize c.rate ++ boxText (tag "esds") (esdsB conf)
def entryTag (video : Bool) : Bytes := if video then tag "avc1" else tag "mp4a"
def stsdB (c : Codec) (video : Bool) (conf : Bytes) : Bytes := beEnc 4 0 ++ beEnc 4 1 ++ boxText (entryTag video) (entryB c video conf)

/-- Boxes one after the other. -/
def flat : List (Bytes × Bytes) → Bytes
  | [] => []
  | p :: l => boxText p.1 p.2 ++ flat l

def mhd (video : Bool) : Bytes × Bytes := if video then (tag "vmhd", beEnc 4 1 ++ beEnc 4 0 ++ beEnc 4 0) else (tag "smhd", beEnc 4 0 ++ beEnc 2 0 ++ beEnc 2 0)
def stblB (c : Codec) (video : Bool) (conf : Bytes) : Bytes := flat [(tag "stsd", stsdB c video conf), (tag "stts", beEnc 4 0 ++ beEnc 4 0),
  (tag "stsc", beEnc 4 0 ++ beEnc 4 0), (tag "stsz", beEnc 4 0 ++ beEnc 4 0 ++ beEnc 4 0), (tag "stco", beEnc 4 0 ++ beEnc 4 0)]
def minfB (c : Codec) (video : Bool) (conf : Bytes) : Bytes := flat [mhd video, (tag "dinf", boxText (tag "dref") drefB), (tag "stbl", stblB c video conf)]
def mdiaB (c : Codec) (video : Bool) (conf : Bytes) : Bytes := flat [(tag "mdhd", mdhdB), (tag "hdlr", hdlrB video), (tag "minf", minfB c video conf)]
def trakB (c : Codec) (video : Bool) (conf : Bytes) : Bytes := flat [(tag "tkhd", tkhdB c video), (tag "mdia", mdiaB c video conf)]
def trexB : Bytes := beEnc 4 0 ++ beEnc 4 1 ++ beEnc 4 1 ++ beEnc 4 0 ++ beEnc 4 0 ++ beEnc 4 0
def moovB (c : Codec) (video : Bool) (conf : Bytes) : Bytes := flat [(tag "mvhd", mvhdB), (tag "mvex", flat [(tag "trex", trexB)]), (tag "trak", trakB c video conf)]

macro "at_all" : tactic => `(tactic| repeat (first
  | with_reducible exact at_f32 _ _ | with_reducible exact at_f24 _ _ | with_reducible exact at_f16 _ _ | with_reducible exact at_f8 _ _
  | with_reducible exact at_data _ _ | with_reducible exact at_nop _ | with_reducible refine at_seq ?_ ?_))

theorem at_matrix (n : Nat) : At n matrix matrixT := by unfold matrix matrixT; at_all

theorem at_descr (n t k : Nat) : At n (descr t k) (descT t k) := by unfold descr descT; at_all

macro "at_more" : tactic => `(tactic| repeat (first
  | with_reducible exact at_f32 _ _ | with_reducible exact at_f24 _ _ | with_reducible exact at_f16 _ _ | with_reducible exact at_f8 _ _
  | with_reducible exact at_data _ _ | with_reducible exact at_matrix _ | with_reducible exact at_descr _ _ _ | with_reducible refine at_seq ?_ ?_))

theorem at_ftyp (n : Nat) : At n ftyp (boxText (tag "ftyp") ftypB) := at_box (by decide +kernel) (by unfold ftypB; at_all)

theorem at_mvhd (n : Nat) : At n mvhd (boxText (tag "mvhd") mvhdB) := by
  refine at_box (by decide +kernel) ?_
  unfold mvhdB
  at_more

theorem at_tkhd (n : Nat) (c : Codec) (video : Bool) : At n (tkhd c video) (boxText (tag "tkhd") (tkhdB c video)) := by
  refine at_box (by decide +kernel) ?_
  unfold tkhdB
  at_more

theorem at_mdhd (n : Nat) : At n mdhd (boxText (tag "mdhd") mdhdB) := at_box (by decide +kernel) (by unfold mdhdB; at_all)

theorem at_hdlr (n : Nat) (video : Bool) : At n (hdlr video) (boxText (tag "hdlr") (hdlrB video)) := at_box (by decide +kernel) (by unfold hdlrB; at_all)

theorem at_mhd (n : Nat) (video : Bool) : At n (xmhd video) (boxText (mhd video).1 (mhd video).2) := by
  cases video
  · have e : boxText (mhd false).1 (mhd false).2 = beEnc 4 16 ++ tag "smhd" ++ beEnc 4 0 ++ beEnc 2 0 ++ beEnc 2 0 := by decide +kernel
    rw [e]
    unfold xmhd
    simp only [Bool.false_eq_true, if_false]
    at_all
  · have e : boxText (mhd true).1 (mhd true).2 = beEnc 4 20 ++ tag "vmhd" ++ beEnc 4 1 ++ beEnc 4 0 ++ beEnc 4 0 := by decide +kernel
    rw [e]
    unfold xmhd
    simp only [if_true]
    at_all

theorem at_dinf (n : Nat) : At n dinf (boxText (tag "dinf") (boxText (tag "dref") drefB)) :=
  at_box (by decide +kernel) (at_box (by decide +kernel) (by unfold drefB; at_all))

/-- The configuration that a codec has for a track: of the first buffer of the header. -/
def Conf (c : Codec) (video : Bool) (conf : Bytes) : Prop :=
  if video then ∃ x l, c.avc = some (x :: l) ∧ 5 < x.length ∧ conf = x.drop 5 else ∃ x l, c.aac = some (x :: l) ∧ 2 ≤ x.length ∧ conf = x.drop 2

theorem at_avcc (n : Nat) (c : Codec) (conf : Bytes) (h : Conf c true conf) : At n (avcc c) (boxText (tag "avcC") conf) := by
  obtain ⟨x, l, h1, h2, rfl⟩ := h
  have : avcc c = box (tag "avcC") (data (x.drop 5)) := by
    funext b
    simp only [avcc, h1, h2, if_true]
  rw [this]
  exact at_box (by decide +kernel) (at_data _ _)

theorem at_esds (n : Nat) (c : Codec) (conf : Bytes) (h : Conf c false conf) : At n (esds c) (boxText (tag "esds") (esdsB conf)) := by
  obtain ⟨x, l, h1, h2, rfl⟩ := h
  have : esds c = box (tag "esds") (f32 0 ;; descr 3 (23 + (x.drop 2).length) ;; f16 1 ;; f8 0 ;; descr 4 (15 + (x.drop 2).length) ;; f8 0x40 ;; f8 0x15 ;; f24 0 ;;
      f32 0x1F151 ;; f32 0x1F14D ;; descr 5 (x.drop 2).length ;; data (x.drop 2) ;; descr 6 1 ;; f8 2) := by
    funext b
    simp only [esds, h1, List.length_drop]
    rw [if_neg (by omega)]
  rw [this]
  refine at_box (by decide +kernel) ?_
  unfold esdsB
  at_more

theorem at_entry (n : Nat) (c : Codec) (video : Bool) (conf : Bytes) (h : Conf c video conf) :
    At n (if video then avc1 c else mp4a c) (boxText (entryTag video) (entryB c video conf)) := by
  cases video
  · simp only [Bool.false_eq_true, if_false, entryTag, entryB]
    refine at_box (by decide +kernel) ?_
    refine at_seq ?_ (at_esds _ c conf h)
    unfold mp4aH
    at_all
  · simp only [if_true, entryTag, entryB]
    refine at_box (by decide +kernel) ?_
    refine at_seq ?_ (at_avcc _ c conf h)
    unfold avc1H
    at_all

theorem at_stsd (n : Nat) (c : Codec) (video : Bool) (conf : Bytes) (h : Conf c video conf) : At n (stsd c video) (boxText (tag "stsd") (stsdB c video conf)) := by
  refine at_box (by decide +kernel) ?_
  exact at_seq (at_seq (at_f32 _ _) (at_f32 _ _)) (at_entry _ c video conf h)

theorem flat2 (a b : Bytes × Bytes) : flat [a, b] = boxText a.1 a.2 ++ boxText b.1 b.2 := by simp [flat]
theorem flat3 (a b c : Bytes × Bytes) : flat [a, b, c] = boxText a.1 a.2 ++ boxText b.1 b.2 ++ boxText c.1 c.2 := by simp [flat]
theorem flat5 (a b c d e : Bytes × Bytes) :
    flat [a, b, c, d, e] = boxText a.1 a.2 ++ boxText b.1 b.2 ++ boxText c.1 c.2 ++ boxText d.1 d.2 ++ boxText e.1 e.2 := by simp [flat]

theorem at_stbl (n : Nat) (c : Codec) (video : Bool) (conf : Bytes) (h : Conf c video conf) : At n (stbl c video) (boxText (tag "stbl") (stblB c video conf)) := by
  refine at_box (by decide +kernel) ?_
  unfold stblB
  rw [flat5]
  refine at_seq (at_seq (at_seq (at_seq (at_stsd _ c video conf h) ?_) ?_) ?_) ?_ <;> exact at_box (by decide +kernel) (by at_all)

theorem at_minf (n : Nat) (c : Codec) (video : Bool) (conf : Bytes) (h : Conf c video conf) : At n (minf c video) (boxText (tag "minf") (minfB c video conf)) := by
  refine at_box (by decide +kernel) ?_
  unfold minfB
  rw [flat3]
  exact at_seq (at_seq (at_mhd _ video) (at_dinf _)) (at_stbl _ c video conf h)

theorem at_mdia (n : Nat) (c : Codec) (video : Bool) (conf : Bytes) (h : Conf c video conf) : At n (mdia c video) (boxText (tag "mdia") (mdiaB c video conf)) := by
  refine at_box (by decide +kernel) ?_
  unfold mdiaB
  rw [flat3]
  exact at_seq (at_seq (at_mdhd _) (at_hdlr _ video)) (at_minf _ c video conf h)

theorem at_trak (n : Nat) (c : Codec) (video : Bool) (conf : Bytes) (h : Conf c video conf) : At n (trak c video) (boxText (tag "trak") (trakB c video conf)) := by
  refine at_box (by decide +kernel) ?_
  unfold trakB
  rw [flat2]
  exact at_seq (at_tkhd _ c video) (at_mdia _ c video conf h)

theorem at_mvex (n : Nat) : At n mvex (boxText (tag "mvex") (flat [(tag "trex", trexB)])) := by
  refine at_box (by decide +kernel) ?_
  have e : flat [(tag "trex", trexB)] = beEnc 4 0x20 ++ tag "trex" ++ beEnc 4 0 ++ beEnc 4 1 ++ beEnc 4 1 ++ beEnc 4 0 ++ beEnc 4 0 ++ beEnc 4 0 := by decide +kernel
  rw [e]
  at_all

theorem at_moov (n : Nat) (c : Codec) (video : Bool) (conf : Bytes) (h : Conf c video conf) : At n (moov c video) (boxText (tag "moov") (moovB c video conf)) := by
  refine at_box (by decide +kernel) ?_
  unfold moovB
  rw [flat3]
  exact at_seq (at_seq (at_mvhd _) (at_mvex _)) (at_trak _ c video conf h)

/-! ### Lengths -/

theorem boxText_len (t x : Bytes) : (boxText t x).length = 4 + t.length + x.length := by simp [boxText, beEnc_length]; omega

theorem avc1H_len (w h : Nat) : (avc1H w h).length = 78 := by
  have e : ∀ k n, (beEnc k n).length = k := beEnc_length
  unfold avc1H
  repeat rw [List.length_append]
  repeat rw [e]
theorem mp4aH_len (a b c : Nat) : (mp4aH a b c).length = 28 := by simp only [mp4aH, beEnc_length, List.length_append]
theorem esdsB_len (x : Bytes) : (esdsB x).length = 29 + x.length := by simp only [esdsB, descT, beEnc_length, List.length_append]; omega
theorem entryTag_len (video : Bool) : (entryTag video).length = 4 := by cases video <;> decide +kernel
theorem entryB_le (c : Codec) (video : Bool) (x : Bytes) : (entryB c video x).length ≤ 100 + x.length := by
  have h1 : (tag "avcC").length = 4 := by decide +kernel
  have h2 : (tag "esds").length = 4 := by decide +kernel
  cases video
  · simp [entryB, mp4aH_len, boxText_len, esdsB_len, h2]; omega
  · simp [entryB, avc1H_len, boxText_len, h1]; omega
theorem stsdB_le (c : Codec) (video : Bool) (x : Bytes) : (stsdB c video x).length ≤ 116 + x.length := by
  have := entryB_le c video x
  simp [stsdB, boxText_len, entryTag_len, beEnc_length]; omega
theorem stblB_le (c : Codec) (video : Bool) (x : Bytes) : (stblB c video x).length ≤ 200 + x.length := by
  have := stsdB_le c video x
  have h1 : (tag "stsd").length = 4 := by decide +kernel
  have h2 : (tag "stts").length = 4 := by decide +kernel
  have h3 : (tag "stsc").length = 4 := by decide +kernel
  have h4 : (tag "stsz").length = 4 := by decide +kernel
  have h5 : (tag "stco").length = 4 := by decide +kernel
  unfold stblB
  rw [flat5]
  simp [boxText_len, beEnc_length, h1, h2, h3, h4, h5]; omega
theorem mhd_len (video : Bool) : (mhd video).1.length = 4 ∧ (mhd video).2.length ≤ 12 := by cases video <;> decide +kernel
theorem drefB_len : drefB.length = 20 := by decide +kernel
theorem minfB_le (c : Codec) (video : Bool) (x : Bytes) : (minfB c video x).length ≤ 264 + x.length := by
  have := stblB_le c video x
  have hm := mhd_len video
  have hd := drefB_len
  have h1 : (tag "dinf").length = 4 := by decide +kernel
  have h2 : (tag "dref").length = 4 := by decide +kernel
  have h3 : (tag "stbl").length = 4 := by decide +kernel
  unfold minfB
  rw [flat3]
  simp [boxText_len, h1, h2, h3, hm.1, hd]; omega
theorem mdhdB_len : mdhdB.length = 24 := by decide +kernel
theorem hdlrB_len (video : Bool) : (hdlrB video).length = 37 := by cases video <;> decide +kernel
theorem mdiaB_le (c : Codec) (video : Bool) (x : Bytes) : (mdiaB c video x).length ≤ 364 + x.length := by
  have := minfB_le c video x
  have h1 : (tag "mdhd").length = 4 := by decide +kernel
  have h2 : (tag "hdlr").length = 4 := by decide +kernel
  have h3 : (tag "minf").length = 4 := by decide +kernel
  unfold mdiaB
  rw [flat3]
  simp [boxText_len, h1, h2, h3, mdhdB_len, hdlrB_len]; omega
theorem matrixT_len : matrixT.length = 36 := by decide +kernel
theorem tkhdB_len (c : Codec) (video : Bool) : (tkhdB c video).length = 84 := by
  simp only [tkhdB, matrixT_len, beEnc_length, List.length_append]
theorem trakB_le (c : Codec) (video : Bool) (x : Bytes) : (trakB c video x).length ≤ 464 + x.length := by
  have := mdiaB_le c video x
  have h1 : (tag "tkhd").length = 4 := by decide +kernel
  have h2 : (tag "mdia").length = 4 := by decide +kernel
  unfold trakB
  rw [flat2]
  simp [boxText_len, h1, h2, tkhdB_len]; omega
theorem mvhdB_len : mvhdB.length = 100 := by decide +kernel
theorem trex_len : (flat [(tag "trex", trexB)]).length = 32 := by decide +kernel
theorem moovB_le (c : Codec) (video : Bool) (x : Bytes) : (moovB c video x).length ≤ 664 + x.length := by
  have := trakB_le c video x
  have h1 : (tag "mvhd").length = 4 := by decide +kernel
  have h2 : (tag "mvex").length = 4 := by decide +kernel
  have h3 : (tag "trak").length = 4 := by decide +kernel
  unfold moovB
  rw [flat3]
  simp [boxText_len, h1, h2, h3, mvhdB_len, trex_len]; omega

theorem initFile_eq (c : Codec) (video : Bool) (conf : Bytes) (h : Conf c video conf) (hl : conf.length ≤ 1000000) :
    initFile c video = some (flat [(tag "ftyp", ftypB), (tag "moov", moovB c video conf)]) := by
  have hm := moovB_le c video conf
  have h1 : (tag "ftyp").length = 4 := by decide +kernel
  have h2 : (tag "moov").length = 4 := by decide +kernel
  have h3 : ftypB.length = 20 := by decide +kernel
  have hcap : cap = 1048576 := rfl
  unfold initFile
  rw [flat2]
  refine at_seq (n := 0) (at_ftyp 0) (at_moov _ c video conf h) [] rfl ?_
  simp [boxText_len, h1, h2, h3]; omega

/-! ### What is read -/

/-- The boxes of a row, without their places. -/
theorem boxesFrom_flat (l : List (Bytes × Bytes)) : ∀ n off, l.length ≤ n → (∀ p ∈ l, p.1.length = 4 ∧ 8 + p.2.length < 2 ^ 32) →
    ∃ bs, boxesFrom n off (flat l) = some bs ∧ bs.map (fun b => (b.type, b.body)) = l := by
  induction l with
  | nil => exact fun n off _ _ => ⟨[], boxesFrom_nil n off, rfl⟩
  | cons p l ih =>
    intro n off hn hp
    have h1 := hp p List.mem_cons_self
    obtain ⟨k, rfl⟩ : ∃ k, n = k + 1 := ⟨n - 1, by rw [List.length_cons] at hn; omega⟩
    obtain ⟨bs, e1, e2⟩ := ih k (off + (8 + p.2.length)) (by rw [List.length_cons] at hn; omega) fun q hq => hp q (List.mem_cons_of_mem _ hq)
    refine ⟨⟨off, p.1, p.2⟩ :: bs, ?_, by rw [List.map_cons, e2]⟩
    rw [flat, boxesFrom_cons k off h1.1 h1.2, e1]
    rfl

theorem flat_length_ge (l : List (Bytes × Bytes)) (h : ∀ p ∈ l, p.1.length = 4) : l.length ≤ (flat l).length := by
  induction l with
  | nil => simp
  | cons p l ih =>
    have := ih fun q hq => h q (List.mem_cons_of_mem _ hq)
    rw [flat, List.length_append, boxText_length (h p List.mem_cons_self), List.length_cons]
    omega

/-- Every box of a row is short and has a type of four letters. -/
def Row (l : List (Bytes × Bytes)) : Prop := ∀ p ∈ l, p.1.length = 4 ∧ 8 + p.2.length < 2 ^ 32

theorem boxes_flat {l : List (Bytes × Bytes)} (h : Row l) : ∃ bs, boxes (flat l) = some bs ∧ bs.map (fun b => (b.type, b.body)) = l :=
  boxesFrom_flat l _ 0 (flat_length_ge l fun p hp => (h p hp).1) h

theorem boxes_one {p : Bytes × Bytes} (h : p.1.length = 4 ∧ 8 + p.2.length < 2 ^ 32) : boxes (boxText p.1 p.2) = some [⟨0, p.1, p.2⟩] := by
  have e : boxText p.1 p.2 = boxText p.1 p.2 ++ [] := (List.append_nil _).symm
  have hl : (boxText p.1 p.2).length = (7 + p.2.length) + 1 := by rw [boxText_length h.1]; omega
  unfold boxes
  rw [hl]
  conv => lhs; arg 3; rw [e]
  rw [boxesFrom_cons _ 0 h.1 h.2, boxesFrom_nil]
  rfl

theorem filter_none (t : Bytes) (bs : List Box) (h : t ∉ bs.map (·.type)) : bs.filter (fun b => b.type == t) = [] := by
  rw [List.filter_eq_nil_iff]
  intro b hb e
  exact h (List.mem_map.2 ⟨b, hb, by simpa using e⟩)

/-- The box of a type in a row in which the others have other types. -/
theorem child_at (s : String) (l1 : List (Bytes × Bytes)) (x : Bytes) (l2 : List (Bytes × Bytes)) (h : Row (l1 ++ (str s, x) :: l2))
    (h1 : str s ∉ l1.map Prod.fst) (h2 : str s ∉ l2.map Prod.fst) : child s (flat (l1 ++ (str s, x) :: l2)) = some x := by
  obtain ⟨bs, e1, e2⟩ := boxes_flat h
  unfold child
  rw [e1]
  simp only [Option.bind_some]
  obtain ⟨a, b, rfl, ha, hb⟩ := List.map_eq_append_iff.1 e2
  obtain ⟨q, b, rfl, hq, hb'⟩ := List.map_eq_cons_iff.1 hb
  have k1 : str s ∉ a.map (·.type) := by
    intro hm
    apply h1
    rw [← ha, List.map_map]
    exact hm
  have k2 : str s ∉ b.map (·.type) := by
    intro hm
    apply h2
    rw [← hb', List.map_map]
    exact hm
  have hqt : q.type = str s := congrArg Prod.fst hq
  have hqb : q.body = x := congrArg Prod.snd hq
  unfold the
  rw [List.filter_append, filter_none _ _ k1, List.nil_append, List.filter_cons, if_pos (by simp [hqt]), filter_none _ _ k2]
  simp [hqb]

end Verif.Mp4
