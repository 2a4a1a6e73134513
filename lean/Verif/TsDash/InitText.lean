import Verif.TsDash.InitModel
import Verif.Dash.InitProps
/- Initialization segments as text: what is written if there is room, and that the buffer is full if there is not. -/
namespace Verif.TsDash
open Verif Verif.TsIn
open Verif.Mp4 (tag overwrite boxText boxText_length flat)

/-- A writer of a text: as much of it as there is room for, and all of it if there is room -/
structure Writes (w : W) (x : Bytes) : Prop where
  len : ∀ cap o, o.b.length ≤ cap → (w cap o).b.length = min cap (o.b.length + x.length)
  all : ∀ cap o, o.b.length + x.length ≤ cap → (w cap o).b = o.b ++ x

theorem wr_data (x : Bytes) : Writes (data x) x := by
  constructor
  · intro cap o h
    simp only [data, List.length_append, List.length_take]
    omega
  · intro cap o h
    simp only [data]
    rw [List.take_of_length_le (by omega)]

theorem wr_nop : Writes nop [] := ⟨fun cap o h => by simp [nop]; omega, fun cap o h => by simp [nop]⟩

theorem wr_seq {a b : W} {x y : Bytes} (ha : Writes a x) (hb : Writes b y) : Writes (a ;; b) (x ++ y) := by
  constructor
  · intro cap o h
    have h1 := ha.len cap o h
    have h2 := hb.len cap (a cap o) (by omega)
    simp only [W.seq, List.length_append]
    omega
  · intro cap o h
    rw [List.length_append] at h
    have h1 := ha.all cap o (by omega)
    have h2 := hb.all cap (a cap o) (by rw [h1, List.length_append]; omega)
    simp only [W.seq]
    rw [h2, h1, List.append_assoc]

theorem wr_f64 (n : Nat) : Writes (f64 n) (beEnc 8 n) := wr_data _
theorem wr_f32 (n : Nat) : Writes (f32 n) (beEnc 4 n) := wr_data _
theorem wr_f24 (n : Nat) : Writes (f24 n) (beEnc 3 n) := wr_data _
theorem wr_f16 (n : Nat) : Writes (f16 n) (beEnc 2 n) := wr_data _
theorem wr_f8 (n : Nat) : Writes (f8 n) (beEnc 1 n) := wr_data _

def f32sT : List Nat → Bytes
  | [] => []
  | n :: l => beEnc 4 n ++ f32sT l

theorem wr_f32s : ∀ l : List Nat, Writes (f32s l) (f32sT l)
  | [] => wr_nop
  | n :: l => wr_seq (wr_f32 n) (wr_f32s l)

theorem overwrite_mid (a b x c : Bytes) (h : b.length = x.length) : overwrite (a ++ (b ++ c)) a.length x = a ++ (x ++ c) := by
  unfold overwrite
  rw [List.take_left' rfl, ← List.append_assoc a b c, List.drop_left' (by rw [List.length_append, h]), List.append_assoc]

theorem overwrite_len (b x : Bytes) (p : Nat) (h : p + x.length ≤ b.length) : (overwrite b p x).length = b.length := by
  unfold overwrite
  simp only [List.length_append, List.length_take, List.length_drop]
  omega

theorem wr_box {t : Bytes} {body : W} {x : Bytes} (ht : t.length = 4) (hb : Writes body x) : Writes (box t body) (boxText t x) := by
  have h4 : ∀ n, (beEnc 4 n).length = 4 := fun n => beEnc_length ..
  have hw := wr_seq (wr_seq (wr_f32 0) (wr_data t)) hb
  have hl := boxText_length (x := x) ht
  have hwl : (beEnc 4 0 ++ t ++ x).length = 8 + x.length := by rw [List.length_append, List.length_append, h4, ht]
  constructor
  · intro cap o h
    have h1 := hw.len cap o h
    unfold box
    dsimp only
    by_cases hc : o.b.length + 4 > cap
    · rw [if_pos hc, h1, hl, hwl]
    · rw [if_neg hc]
      dsimp only
      rw [overwrite_len _ _ _ (by rw [h1, h4, hwl]; omega), h1, hl, hwl]
  · intro cap o h
    rw [hl] at h
    have h1 := hw.all cap o (by rw [hwl]; omega)
    unfold box
    dsimp only
    rw [if_neg (by omega)]
    dsimp only
    have hn : (o.b ++ (beEnc 4 0 ++ t ++ x)).length - o.b.length = 8 + x.length := by rw [List.length_append, hwl]; omega
    rw [h1, hn, List.append_assoc, overwrite_mid _ _ _ _ (by rw [h4, h4])]
    unfold boxText
    rw [List.append_assoc (beEnc 4 _)]

theorem wr_full {t : Bytes} {body : W} {x : Bytes} (v f : Nat) (ht : t.length = 4) (hb : Writes body x) : Writes (full t v f body) (boxText t (beEnc 1 v ++ beEnc 3 f ++ x)) :=
  wr_box ht (wr_seq (wr_seq (wr_f8 v) (wr_f24 f)) hb)

/-- A descriptor -/
def descText (t : Nat) (x : Bytes) : Bytes := beEnc 1 t ++ (descSize x.length ++ x)

theorem descText_len (t : Nat) (x : Bytes) : (descText t x).length = 5 + x.length := by
  simp only [descText, descSize, List.length_append, beEnc_length, List.length_cons, List.length_nil]
  omega

theorem wr_desc {t : Nat} {body : W} {x : Bytes} (hb : Writes body x) : Writes (desc t body) (descText t x) := by
  have h4 : ∀ n, (beEnc 4 n).length = 4 := fun n => beEnc_length ..
  have h1 : ∀ n, (beEnc 1 n).length = 1 := fun n => beEnc_length ..
  have hw := wr_seq (wr_f32 0) hb
  have hwl : (beEnc 4 0 ++ x).length = 4 + x.length := by rw [List.length_append, h4]
  have hd : ∀ n, (descSize n).length = 4 := fun n => rfl
  constructor
  · intro cap o h
    have e1 := (wr_f8 t).len cap o h
    rw [h1] at e1
    have e2 := hw.len cap (f8 t cap o) (by omega)
    rw [hwl] at e2
    have hs : (f32 0 ;; body) cap (f8 t cap o) = body cap (f32 0 cap (f8 t cap o)) := rfl
    unfold desc
    dsimp only
    rw [descText_len]
    by_cases hc : (f8 t cap o).b.length + 4 > cap
    · rw [if_pos hc, e2]; omega
    · rw [if_neg hc]
      dsimp only
      rw [overwrite_len _ _ _ (by rw [e2, hd]; omega), e2]
      omega
  · intro cap o h
    rw [descText_len] at h
    have e1 := (wr_f8 t).all cap o (by rw [h1]; omega)
    have e1l : (f8 t cap o).b.length = o.b.length + 1 := by rw [e1, List.length_append, h1]
    have e2 := hw.all cap (f8 t cap o) (by rw [hwl, e1l]; omega)
    unfold desc
    dsimp only
    rw [if_neg (by omega)]
    dsimp only
    rw [e2, overwrite_mid _ _ _ _ (by rw [h4, hd]), e1, List.append_assoc]
    unfold descText
    congr 4
    simp only [List.length_append, h4, h1]
    omega

/-! ### What is written -/

def matrixT : Bytes := f32sT [0x10000, 0, 0, 0, 0x10000, 0, 0, 0, 0x40000000]
def vf (v f : Nat) : Bytes := beEnc 1 v ++ beEnc 3 f
def ftypB : Bytes := tag "iso6" ++ beEnc 4 1 ++ tag "isom" ++ tag "iso6" ++ tag "dash"
def mvhdB (now : Nat) : Bytes := vf 0 0 ++ (f32sT [now, now, 90000, 0, 0x10000, 0x1000000] ++ beEnc 8 0 ++ matrixT ++ f32sT [0, 0, 0, 0, 0, 0] ++ beEnc 4 1)
def trexB : Bytes := vf 0 0 ++ f32sT [1, 1, 0, 0, 0]
def tkhdB (now : Nat) (r : Rep) : Bytes := vf 0 3 ++ (f32sT [now, now, 1, 0, 0xffffffff, 0, 0, 0] ++ beEnc 4 (if r.video then 0 else 0x1000000) ++ matrixT ++ beEnc 4 (widthOf r * 65536) ++ beEnc 4 (heightOf r * 65536))
def mdhdB (now : Nat) : Bytes := vf 0 0 ++ f32sT [now, now, 90000, 0, 0x55c40000]
def hdlrB (video : Bool) : Bytes := vf 0 0 ++ (beEnc 4 0 ++ (if video then tag "vide" else tag "soun") ++ f32sT [0, 0, 0] ++ ((if video then tag "video" else tag "audio") ++ [0]))
def xmhdP (video : Bool) : Bytes × Bytes := if video then (tag "vmhd", vf 0 1 ++ f32sT [0, 0]) else (tag "smhd", vf 0 0 ++ beEnc 4 0)
def dinfB : Bytes := boxText (tag "dref") (vf 0 0 ++ (beEnc 4 1 ++ boxText (tag "url ") (vf 0 1 ++ [])))
def decSpecT (r : Rep) : Bytes :=
  match r.aac with
  | none => []
  | some a => descText 5 (beEnc 1 (a.profile * 8 + a.freqIndex / 2) ++ beEnc 1 (a.freqIndex * 128 + a.chan * 8))
def decConfB (r : Rep) : Bytes := beEnc 1 (oti r.type) ++ beEnc 1 ((if r.video then 4 else 5) * 4) ++ beEnc 3 0 ++ beEnc 4 (r.bandwidth * 2) ++ beEnc 4 r.bandwidth ++ decSpecT r
def esdsB (r : Rep) : Bytes := vf 0 0 ++ descText 3 (beEnc 2 1 ++ beEnc 1 0 ++ descText 4 (decConfB r) ++ descText 6 (beEnc 1 2))
def avccB (s p : Bytes) : Bytes := beEnc 1 1 ++ (s.drop 1).take 3 ++ beEnc 1 0xff ++ beEnc 1 0xe1 ++ beEnc 2 s.length ++ s ++ beEnc 1 1 ++ beEnc 2 p.length ++ p
def avccT (r : Rep) : Bytes :=
  match r.sps, r.pps with
  | some s, some p => if s.length < 4 ∨ p.length = 0 then [] else boxText (tag "avcC") (avccB s p)
  | _, _ => []
def videoH (w h : Nat) : Bytes := beEnc 4 0 ++ beEnc 2 0 ++ beEnc 2 1 ++ f32sT [0, 0, 0, 0] ++ beEnc 2 w ++ beEnc 2 h ++ beEnc 4 0x480000 ++ beEnc 4 0x480000 ++ beEnc 4 0 ++ beEnc 2 1 ++
  f32sT [0, 0, 0, 0, 0, 0, 0, 0] ++ beEnc 2 0x18 ++ beEnc 2 0xffff
def audioH : Bytes := beEnc 4 0 ++ beEnc 2 0 ++ beEnc 2 1 ++ f32sT [0, 0] ++ beEnc 2 2 ++ beEnc 2 16 ++ beEnc 4 0 ++ beEnc 4 90000
def formatOf (r : Rep) : Bytes := if r.video then (if r.type = avcType then tag "avc1" else tag "mp4v") else tag "mp4a"
def entryB (r : Rep) : Bytes :=
  if r.video then videoH (widthOf r) (heightOf r) ++ (if r.type = avcType then avccT r else boxText (tag "esds") (esdsB r)) else audioH ++ boxText (tag "esds") (esdsB r)
def stsdB (r : Rep) : Bytes := vf 0 0 ++ (beEnc 4 1 ++ boxText (formatOf r) (entryB r))
def stblB (r : Rep) : Bytes := flat [(tag "stsd", stsdB r), (tag "stts", vf 0 0 ++ beEnc 4 0), (tag "stsc", vf 0 0 ++ beEnc 4 0), (tag "stsz", vf 0 0 ++ f32sT [0, 0]), (tag "stco", vf 0 0 ++ beEnc 4 0)]
def minfB (r : Rep) : Bytes := flat [xmhdP r.video, (tag "dinf", dinfB), (tag "stbl", stblB r)]
def mdiaB (now : Nat) (r : Rep) : Bytes := flat [(tag "mdhd", mdhdB now), (tag "hdlr", hdlrB r.video), (tag "minf", minfB r)]
def trakB (now : Nat) (r : Rep) : Bytes := flat [(tag "tkhd", tkhdB now r), (tag "mdia", mdiaB now r)]
def moovB (now : Nat) (r : Rep) : Bytes := flat [(tag "mvhd", mvhdB now), (tag "mvex", flat [(tag "trex", trexB)]), (tag "trak", trakB now r)]
def initT (now : Nat) (r : Rep) : Bytes := flat [(tag "ftyp", ftypB), (tag "moov", moovB now r)]

macro "wr_all" : tactic => `(tactic| repeat (first
  | with_reducible exact wr_f64 _ | with_reducible exact wr_f32 _ | with_reducible exact wr_f24 _ | with_reducible exact wr_f16 _ | with_reducible exact wr_f8 _ | with_reducible exact wr_f32s _
  | with_reducible exact wr_data _ | with_reducible exact wr_nop | with_reducible refine wr_seq ?_ ?_))

theorem wr_ftyp : Writes ftyp (boxText (tag "ftyp") ftypB) := wr_box (by decide +kernel) (by unfold ftypB; wr_all)
theorem wr_matrix : Writes matrix matrixT := wr_f32s _
theorem wr_mvhd (now : Nat) : Writes (mvhd now) (boxText (tag "mvhd") (mvhdB now)) := wr_full 0 0 (by decide +kernel) (by unfold matrix matrixT; wr_all)
theorem wr_mvex : Writes mvex (boxText (tag "mvex") (flat [(tag "trex", trexB)])) := by
  refine wr_box (by decide +kernel) ?_
  have e : flat [(tag "trex", trexB)] = boxText (tag "trex") trexB := by simp [flat]
  rw [e]
  exact wr_full 0 0 (by decide +kernel) (wr_f32s _)
theorem wr_tkhd (now : Nat) (r : Rep) : Writes (tkhd now r) (boxText (tag "tkhd") (tkhdB now r)) := wr_full 0 3 (by decide +kernel) (by unfold matrix matrixT; wr_all)
theorem wr_mdhd (now : Nat) : Writes (mdhd now) (boxText (tag "mdhd") (mdhdB now)) := wr_full 0 0 (by decide +kernel) (by wr_all)
theorem wr_hdlr (v : Bool) : Writes (hdlr v) (boxText (tag "hdlr") (hdlrB v)) := wr_full 0 0 (by decide +kernel) (by wr_all)
theorem wr_xmhd (v : Bool) : Writes (xmhd v) (boxText (xmhdP v).1 (xmhdP v).2) := by
  cases v
  · exact wr_full 0 0 (by decide +kernel) (wr_f32 _)
  · exact wr_full 0 1 (by decide +kernel) (wr_f32s _)
theorem wr_dinf : Writes dinf (boxText (tag "dinf") dinfB) :=
  wr_box (by decide +kernel) (wr_full 0 0 (by decide +kernel) (wr_seq (wr_f32 _) (wr_full 0 1 (by decide +kernel) wr_nop)))
theorem wr_decSpec (r : Rep) : Writes (decSpec r) (decSpecT r) := by
  unfold decSpec decSpecT
  cases r.aac with
  | none => exact wr_nop
  | some a => exact wr_desc (wr_seq (wr_f8 _) (wr_f8 _))
theorem wr_esds (r : Rep) : Writes (esds r) (boxText (tag "esds") (esdsB r)) := by
  refine wr_full 0 0 (by decide +kernel) (wr_desc (wr_seq (wr_seq (wr_seq (wr_f16 _) (wr_f8 _)) (wr_desc ?_)) (wr_desc (wr_f8 _))))
  exact wr_seq (by wr_all) (wr_decSpec r)
theorem wr_avcc (r : Rep) : Writes (avcc r) (avccT r) := by
  unfold avcc avccT
  cases r.sps with
  | none => exact wr_nop
  | some s =>
    cases r.pps with
    | none => exact wr_nop
    | some p =>
      dsimp only
      by_cases h : s.length < 4 ∨ p.length = 0
      · rw [if_pos h, if_pos h]; exact wr_nop
      · rw [if_neg h, if_neg h]
        exact wr_box (by decide +kernel) (by unfold avccB; wr_all)
theorem formatOf_len (r : Rep) : (formatOf r).length = 4 := by
  unfold formatOf
  split
  · split <;> decide +kernel
  · decide +kernel
theorem wr_entry (r : Rep) : Writes (if r.video then videoBox r else audioBox r) (boxText (formatOf r) (entryB r)) := by
  have hf := formatOf_len r
  unfold formatOf at *
  unfold entryB
  by_cases hv : r.video = true
  · rw [if_pos hv] at hf
    rw [if_pos hv, if_pos hv, if_pos hv]
    refine wr_box hf (wr_seq (by unfold videoH; wr_all) ?_)
    by_cases ha : r.type = avcType
    · rw [if_pos ha, if_pos ha]; exact wr_avcc r
    · rw [if_neg ha, if_neg ha]; exact wr_esds r
  · rw [if_neg hv] at hf
    rw [if_neg hv, if_neg hv, if_neg hv]
    exact wr_box hf (wr_seq (by unfold audioH; wr_all) (wr_esds r))
theorem wr_stsd (r : Rep) : Writes (stsd r) (boxText (tag "stsd") (stsdB r)) := wr_full 0 0 (by decide +kernel) (wr_seq (wr_f32 _) (wr_entry r))
theorem wr_stbl (r : Rep) : Writes (stbl r) (boxText (tag "stbl") (stblB r)) := by
  refine wr_box (by decide +kernel) ?_
  unfold stblB
  rw [Mp4.flat5]
  refine wr_seq (wr_seq (wr_seq (wr_seq (wr_stsd r) ?_) ?_) ?_) ?_ <;> exact wr_full 0 0 (by decide +kernel) (by wr_all)
theorem wr_minf (r : Rep) : Writes (minf r) (boxText (tag "minf") (minfB r)) := by
  refine wr_box (by decide +kernel) ?_
  unfold minfB
  rw [Mp4.flat3]
  exact wr_seq (wr_seq (wr_xmhd _) wr_dinf) (wr_stbl r)
theorem wr_mdia (now : Nat) (r : Rep) : Writes (mdia now r) (boxText (tag "mdia") (mdiaB now r)) := by
  refine wr_box (by decide +kernel) ?_
  unfold mdiaB
  rw [Mp4.flat3]
  exact wr_seq (wr_seq (wr_mdhd now) (wr_hdlr _)) (wr_minf r)
theorem wr_trak (now : Nat) (r : Rep) : Writes (trak now r) (boxText (tag "trak") (trakB now r)) := by
  refine wr_box (by decide +kernel) ?_
  unfold trakB
  rw [Mp4.flat2]
  exact wr_seq (wr_tkhd now r) (wr_mdia now r)
theorem wr_moov (now : Nat) (r : Rep) : Writes (moov now r) (boxText (tag "moov") (moovB now r)) := by
  refine wr_box (by decide +kernel) ?_
  unfold moovB
  rw [Mp4.flat3]
  exact wr_seq (wr_seq (wr_mvhd now) wr_mvex) (wr_trak now r)
theorem wr_init (now : Nat) (r : Rep) : Writes (initSegment now r) (initT now r) := by
  unfold initT
  rw [Mp4.flat2]
  exact wr_seq wr_ftyp (wr_moov now r)

/-- The loop ends with the whole file. -/
theorem initFile_eq (now : Nat) (r : Rep) : ∀ n cap, (initT now r).length < cap * 2 ^ n → ∃ cap', initFile now r (n + 1) cap = some (initT now r, cap') ∧ cap ≤ cap'
  | n, cap, h => by
    have hl := (wr_init now r).len cap {} (by simp)
    have ha := (wr_init now r).all cap {}
    have hl : (initSegment now r cap {}).b.length = min cap (initT now r).length := by simpa using hl
    have ha : (initT now r).length ≤ cap → (initSegment now r cap {}).b = initT now r := by simpa using ha
    unfold initFile
    dsimp only
    by_cases hc : (initT now r).length < cap
    · rw [if_pos (by omega), ha (by omega)]
      exact ⟨cap, rfl, Nat.le_refl _⟩
    · rw [if_neg (by omega)]
      cases n with
      | zero => simp at h; omega
      | succ n =>
        obtain ⟨cap', h1, h2⟩ := initFile_eq now r n (cap * 2) (by rw [Nat.pow_succ] at h; rw [Nat.mul_assoc, Nat.mul_comm 2]; exact h)
        exact ⟨cap', h1, by omega⟩

end Verif.TsDash
