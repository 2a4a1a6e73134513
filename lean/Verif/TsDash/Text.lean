import Verif.Dash.Mp4Lemmas
import Verif.Dash.Mp4Props
import Verif.TsDash.Model
import Verif.TsDash.Spec
/- Media segments as text, what is set in them, and what a reader makes of them. -/
namespace Verif.TsDash
open Verif Verif.TsIn
open Verif.Mp4 (tag overwrite boxText boxText_length)

theorem overwrite_field : ∀ (fs : List Bytes) (i : Nat) (f x : Bytes), fs[i]? = some f → f.length = x.length →
    overwrite fs.flatten ((fs.take i).map List.length).sum x = (fs.set i x).flatten
  | [], i, f, x, h, _ => by simp at h
  | g :: gs, 0, f, x, h, hl => by
    rw [List.getElem?_cons_zero] at h
    injection h with h
    subst h
    simp [overwrite, ← hl]
  | g :: gs, i + 1, f, x, h, hl => by
    rw [List.getElem?_cons_succ] at h
    have ih := overwrite_field gs i f x h hl
    rw [List.take_succ_cons, List.map_cons, List.sum_cons, List.set_cons_succ, List.flatten_cons, List.flatten_cons, ← ih]
    unfold overwrite
    rw [List.take_append, List.drop_append]
    have e1 : g.take (g.length + ((gs.take i).map List.length).sum) = g := List.take_of_length_le (by omega)
    have e2 : g.drop (g.length + ((gs.take i).map List.length).sum + x.length) = [] := List.drop_eq_nil_of_le (by omega)
    rw [e1, e2]
    have e3 : g.length + ((gs.take i).map List.length).sum - g.length = ((gs.take i).map List.length).sum := by omega
    have e4 : g.length + ((gs.take i).map List.length).sum + x.length - g.length = ((gs.take i).map List.length).sum + x.length := by omega
    rw [e3, e4]
    simp

theorem field_le : ∀ (fs : List Bytes) (i : Nat) (f : Bytes), fs[i]? = some f → ((fs.take i).map List.length).sum + f.length ≤ fs.flatten.length
  | [], i, f, h => by simp at h
  | g :: gs, 0, f, h => by
    rw [List.getElem?_cons_zero] at h
    injection h with h
    subst h
    simp
  | g :: gs, i + 1, f, h => by
    rw [List.getElem?_cons_succ] at h
    have ih := field_le gs i f h
    rw [List.take_succ_cons, List.map_cons, List.sum_cons, List.flatten_cons, List.length_append]
    omega

theorem field_at : ∀ (fs : List Bytes) (i : Nat) (f : Bytes), fs[i]? = some f → (fs.flatten.drop ((fs.take i).map List.length).sum).take f.length = f
  | [], i, f, h => by simp at h
  | g :: gs, 0, f, h => by
    rw [List.getElem?_cons_zero] at h
    injection h with h
    subst h
    simp
  | g :: gs, i + 1, f, h => by
    rw [List.getElem?_cons_succ] at h
    have ih := field_at gs i f h
    rw [List.take_succ_cons, List.map_cons, List.sum_cons, List.flatten_cons, List.drop_append]
    have e2 : g.drop (g.length + ((gs.take i).map List.length).sum) = [] := List.drop_eq_nil_of_le (by omega)
    have e3 : g.length + ((gs.take i).map List.length).sum - g.length = ((gs.take i).map List.length).sum := by omega
    rw [e2, e3, List.nil_append]
    exact ih

theorem putAt_field (fs : List Bytes) (i p : Nat) (f x : Bytes) (h : fs[i]? = some f) (hl : f.length = x.length) (hp : ((fs.take i).map List.length).sum = p) :
    putAt p x fs.flatten = some (fs.set i x).flatten := by
  subst hp
  have := field_le fs i f h
  unfold putAt
  rw [if_pos (by omega), overwrite_field fs i f x h hl]

theorem grow_field (fs : List Bytes) (i p v n : Nat) (h : fs[i]? = some (beEnc 4 v)) (hp : ((fs.take i).map List.length).sum = p) (hv : v < 2 ^ 32) :
    grow p n fs.flatten = some ((fs.set i (beEnc 4 (v + n))).flatten, (v + n) % 2 ^ 32) := by
  have h4 : ∀ n, (beEnc 4 n).length = 4 := fun n => beEnc_length ..
  have hle := field_le fs i _ h
  have hat := field_at fs i _ h
  rw [h4] at hle hat
  unfold grow get32
  rw [hp] at hle hat
  rw [if_pos hle, hat, beDec_beEnc_of_lt hv]
  simp only [Option.bind_some]
  rw [putAt_field fs i p _ _ h (by rw [h4, h4]) hp]
  rfl

/-- What is in the first buffer before the samples: fields that are set later, and what is between them -/
def fields (v : Bool) (pts ref dur moofS seq trafS dts trunS n off : Nat) (y : Bytes) : List Bytes :=
  [ boxText (tag "styp") Mp4.stypBody ++ beEnc 4 52 ++ tag "sidx" ++ beEnc 4 0x1000000 ++ beEnc 4 1 ++ beEnc 4 90000,
    beEnc 8 pts, beEnc 8 0 ++ beEnc 2 0 ++ beEnc 2 1, beEnc 4 ref, beEnc 4 dur, beEnc 4 0x80000000,
    beEnc 4 moofS, tag "moof" ++ beEnc 4 16 ++ tag "mfhd" ++ beEnc 4 0, beEnc 4 seq,
    beEnc 4 trafS, tag "traf" ++ boxText (tag "tfhd") (beEnc 4 0 ++ beEnc 4 1) ++ beEnc 4 20 ++ tag "tfdt" ++ beEnc 4 0x1000000,
    beEnc 8 dts, beEnc 4 trunS, tag "trun" ++ beEnc 4 (if v then 0xf01 else 0x301), beEnc 4 n, beEnc 4 off, y ]

/-- What is there at first -/
def head0 (v : Bool) : Bytes := (fields v 0 0 0 88 0 64 0 20 0 0 []).flatten

/-- Where the fields are -/
def subs0 : Subs where
  dts := 140
  pts := 48
  seq := 100
  duration := 72
  sampleDuration := none
  nsamples := 160
  traf := 104
  trun := 148
  moof := 80
  moofMdat := 68
  moofData := 164
  mdat := 0

theorem head_eq (v : Bool) : (styp ;; sidx ;; moof v) bufSize {} = ⟨head0 v, subs0⟩ := by cases v <;> decide +kernel

theorem head0_length (v : Bool) : (head0 v).length = 168 := by cases v <;> decide +kernel

theorem mdat_eq : mdat bufSize { b := [], subs := subs0 } = ⟨boxText (tag "mdat") [], subs0⟩ := by decide +kernel

/-- What is set at the end of a segment -/
theorem patches_eq (r : Rep) (e : Es) (md : Nat) (v : Bool) (y : Bytes) (sd : Option (Nat × Nat)) (hs : r.subs = { subs0 with sampleDuration := sd }) (hn : r.nmeta + 88 < 2 ^ 32) :
    patches r e md (fields v 0 0 0 88 0 64 0 20 0 0 y).flatten =
      some (fields v r.segPts (88 + r.nmeta + md) (diffU 32 e.dts r.segDts) (88 + r.nmeta) r.seg (64 + r.nmeta) r.segDts (20 + r.nmeta) r.nsamples (88 + r.nmeta + 8) y).flatten := by
  have h4 : ∀ n, (beEnc 4 n).length = 4 := fun n => beEnc_length ..
  have h8 : ∀ n, (beEnc 8 n).length = 8 := fun n => beEnc_length ..
  have h2 : ∀ n, (beEnc 2 n).length = 2 := fun n => beEnc_length ..
  have t1 : (boxText (tag "styp") Mp4.stypBody).length = 28 := by decide +kernel
  have t2 : (tag "sidx").length = 4 := by decide +kernel
  have t3 : (tag "moof").length = 4 := by decide +kernel
  have t4 : (tag "mfhd").length = 4 := by decide +kernel
  have t5 : (tag "traf").length = 4 := by decide +kernel
  have t6 : (boxText (tag "tfhd") (beEnc 4 0 ++ beEnc 4 1)).length = 16 := by decide +kernel
  have t7 : (tag "tfdt").length = 4 := by decide +kernel
  have t8 : (tag "trun").length = 4 := by decide +kernel
  generalize hD : diffU 32 e.dts r.segDts = D
  unfold patches
  rw [hD, hs]
  simp only [subs0]
  rw [putAt_field _ 1 48 _ _ rfl (by rw [h8, h8]) (by simp [fields, h4, h8, h2, t1, t2, t3, t4, t5, t6, t7, t8])]
  simp only [Option.bind_some]
  rw [putAt_field _ 11 140 _ _ rfl (by rw [h8, h8]) (by simp [fields, h4, h8, h2, t1, t2, t3, t4, t5, t6, t7, t8])]
  simp only [Option.bind_some]
  rw [putAt_field _ 8 100 _ _ rfl (by rw [h4, h4]) (by simp [fields, h4, h8, h2, t1, t2, t3, t4, t5, t6, t7, t8])]
  simp only [Option.bind_some]
  rw [putAt_field _ 14 160 _ _ rfl (by rw [h4, h4]) (by simp [fields, h4, h8, h2, t1, t2, t3, t4, t5, t6, t7, t8])]
  simp only [Option.bind_some]
  rw [putAt_field _ 4 72 _ _ rfl (by rw [h4, h4]) (by simp [fields, h4, h8, h2, t1, t2, t3, t4, t5, t6, t7, t8])]
  simp only [Option.bind_some]
  rw [grow_field _ 9 104 64 _ rfl (by simp [fields, h4, h8, h2, t1, t2, t3, t4, t5, t6, t7, t8]) (by omega)]
  simp only [Option.bind_some]
  rw [grow_field _ 12 148 20 _ rfl (by simp [fields, h4, h8, h2, t1, t2, t3, t4, t5, t6, t7, t8]) (by omega)]
  simp only [Option.bind_some]
  rw [grow_field _ 6 80 88 _ rfl (by simp [fields, h4, h8, h2, t1, t2, t3, t4, t5, t6, t7, t8]) (by omega)]
  simp only [Option.bind_some]
  rw [Nat.mod_eq_of_lt (show 88 + r.nmeta < 2 ^ 32 by omega)]
  rw [putAt_field _ 3 68 _ _ rfl (by rw [h4, h4]) (by simp [fields, h4, h8, h2, t1, t2, t3, t4, t5, t6, t7, t8])]
  simp only [Option.bind_some]
  rw [putAt_field _ 15 164 _ _ rfl (by rw [h4, h4]) (by simp [fields, h4, h8, h2, t1, t2, t3, t4, t5, t6, t7, t8])]
  rfl

/-! ### A segment as boxes -/

def mask (v : Bool) : Nat := if v then 15 else 3

def sidxBody (pts ref dur : Nat) : Bytes :=
  beEnc 4 0x1000000 ++ beEnc 4 1 ++ beEnc 4 90000 ++ beEnc 8 pts ++ beEnc 8 0 ++ beEnc 2 0 ++ beEnc 2 1 ++ beEnc 4 ref ++ beEnc 4 dur ++ beEnc 4 0x80000000

def tfhdBody : Bytes := beEnc 4 0 ++ beEnc 4 1
def tfdtBody (dts : Nat) : Bytes := beEnc 4 0x1000000 ++ beEnc 8 dts
def mfhdBody (seq : Nat) : Bytes := beEnc 4 0 ++ beEnc 4 seq
def runBody (v : Bool) (l : List Mp4.Sample) : Bytes :=
  beEnc 4 (if v then 0xf01 else 0x301) ++ beEnc 4 l.length ++ beEnc 4 (96 + (Mp4.rows (mask v) l).length) ++ Mp4.rows (mask v) l
def trafBody (v : Bool) (dts : Nat) (l : List Mp4.Sample) : Bytes := boxText (tag "tfhd") tfhdBody ++ boxText (tag "tfdt") (tfdtBody dts) ++ boxText (tag "trun") (runBody v l)
def moofBody (v : Bool) (seq dts : Nat) (l : List Mp4.Sample) : Bytes := boxText (tag "mfhd") (mfhdBody seq) ++ boxText (tag "traf") (trafBody v dts l)

def segText (v : Bool) (pts dts seq dur : Nat) (l : List Mp4.Sample) (raw : Bytes) : Bytes :=
  boxText (tag "styp") Mp4.stypBody ++ boxText (tag "sidx") (sidxBody pts (96 + (Mp4.rows (mask v) l).length + raw.length) dur) ++
    boxText (tag "moof") (moofBody v seq dts l) ++ boxText (tag "mdat") raw

theorem tag4 : (tag "styp").length = 4 ∧ (tag "sidx").length = 4 ∧ (tag "moof").length = 4 ∧ (tag "mdat").length = 4 ∧ (tag "mfhd").length = 4 ∧ (tag "traf").length = 4 ∧
    (tag "tfhd").length = 4 ∧ (tag "tfdt").length = 4 ∧ (tag "trun").length = 4 := by decide +kernel

theorem sidxBody_length (pts ref dur : Nat) : (sidxBody pts ref dur).length = 44 := by simp [sidxBody, beEnc_length]
theorem runBody_length (v : Bool) (l : List Mp4.Sample) : (runBody v l).length = 12 + (Mp4.rows (mask v) l).length := by simp [runBody, beEnc_length]; omega
theorem trafBody_length (v : Bool) (dts : Nat) (l : List Mp4.Sample) : (trafBody v dts l).length = 56 + (Mp4.rows (mask v) l).length := by
  obtain ⟨-, -, -, -, -, -, t7, t8, t9⟩ := tag4
  simp only [trafBody, List.length_append, boxText_length t7, boxText_length t8, boxText_length t9, runBody_length]
  simp only [tfhdBody, tfdtBody, List.length_append, beEnc_length]
  omega
theorem moofBody_length (v : Bool) (seq dts : Nat) (l : List Mp4.Sample) : (moofBody v seq dts l).length = 80 + (Mp4.rows (mask v) l).length := by
  obtain ⟨-, -, -, -, t5, t6, -, -, -⟩ := tag4
  simp only [moofBody, List.length_append, boxText_length t5, boxText_length t6, trafBody_length]
  simp only [mfhdBody, List.length_append, beEnc_length]
  omega

theorem fields_text (v : Bool) (pts dts seq dur ref : Nat) (l : List Mp4.Sample) :
    (fields v pts ref dur (88 + (Mp4.rows (mask v) l).length) seq (64 + (Mp4.rows (mask v) l).length) dts (20 + (Mp4.rows (mask v) l).length) l.length
      (88 + (Mp4.rows (mask v) l).length + 8) (Mp4.rows (mask v) l)).flatten =
    boxText (tag "styp") Mp4.stypBody ++ boxText (tag "sidx") (sidxBody pts ref dur) ++ boxText (tag "moof") (moofBody v seq dts l) := by
  have a1 : boxText (tag "moof") (moofBody v seq dts l) = beEnc 4 (88 + (Mp4.rows (mask v) l).length) ++ tag "moof" ++ moofBody v seq dts l := by
    unfold boxText; rw [moofBody_length]; congr 3; omega
  have a2 : boxText (tag "sidx") (sidxBody pts ref dur) = beEnc 4 52 ++ tag "sidx" ++ sidxBody pts ref dur := by unfold boxText; rw [sidxBody_length]
  have a3 : boxText (tag "traf") (trafBody v dts l) = beEnc 4 (64 + (Mp4.rows (mask v) l).length) ++ tag "traf" ++ trafBody v dts l := by
    unfold boxText; rw [trafBody_length]; congr 3; omega
  have a4 : boxText (tag "trun") (runBody v l) = beEnc 4 (20 + (Mp4.rows (mask v) l).length) ++ tag "trun" ++ runBody v l := by
    unfold boxText; rw [runBody_length]; congr 3; omega
  have a5 : boxText (tag "mfhd") (mfhdBody seq) = beEnc 4 16 ++ tag "mfhd" ++ mfhdBody seq := by
    have h : (mfhdBody seq).length = 8 := by simp [mfhdBody, beEnc_length]
    unfold boxText; rw [h]
  have a6 : boxText (tag "tfdt") (tfdtBody dts) = beEnc 4 20 ++ tag "tfdt" ++ tfdtBody dts := by
    have h : (tfdtBody dts).length = 12 := by simp [tfdtBody, beEnc_length]
    unfold boxText; rw [h]
  rw [a1, a2]
  unfold moofBody
  rw [a5, a3]
  unfold trafBody
  rw [a4, a6]
  unfold runBody
  rw [show 96 + (Mp4.rows (mask v) l).length = 88 + (Mp4.rows (mask v) l).length + 8 by omega]
  generalize (Mp4.rows (mask v) l).length = n
  simp only [fields, mfhdBody, tfdtBody, tfhdBody, sidxBody, List.flatten_cons, List.flatten_nil, List.append_assoc, List.append_nil]

/-! ### Reading -/

theorem boxes_seg (v : Bool) (pts dts seq dur : Nat) (l : List Mp4.Sample) (raw : Bytes) (hm : (Mp4.rows (mask v) l).length + raw.length + 96 < 2 ^ 31) :
    Mp4.boxes (segText v pts dts seq dur l raw) = some [⟨0, tag "styp", Mp4.stypBody⟩, ⟨28, tag "sidx", sidxBody pts (96 + (Mp4.rows (mask v) l).length + raw.length) dur⟩,
      ⟨80, tag "moof", moofBody v seq dts l⟩, ⟨168 + (Mp4.rows (mask v) l).length, tag "mdat", raw⟩] := by
  obtain ⟨t1, t2, t3, t4, -⟩ := tag4
  have l0 : (Mp4.stypBody).length = 20 := by decide +kernel
  have l1 := sidxBody_length pts (96 + (Mp4.rows (mask v) l).length + raw.length) dur
  have l2 := moofBody_length v seq dts l
  have hlen : (segText v pts dts seq dur l raw).length = 176 + (Mp4.rows (mask v) l).length + raw.length := by
    simp only [segText, List.length_append, boxText_length t1, boxText_length t2, boxText_length t3, boxText_length t4, l0, l1, l2]; omega
  unfold Mp4.boxes
  rw [hlen, show 176 + (Mp4.rows (mask v) l).length + raw.length = 172 + (Mp4.rows (mask v) l).length + raw.length + 1 + 1 + 1 + 1 by omega]
  unfold segText
  rw [List.append_assoc, List.append_assoc, Mp4.boxesFrom_cons _ _ t1 (by omega), Mp4.boxesFrom_cons _ _ t2 (by omega), Mp4.boxesFrom_cons _ _ t3 (by omega)]
  have := Mp4.boxesFrom_cons (172 + (Mp4.rows (mask v) l).length + raw.length) (0 + (8 + Mp4.stypBody.length) + (8 + (sidxBody pts (96 + (Mp4.rows (mask v) l).length + raw.length) dur).length) + (8 + (moofBody v seq dts l).length))
    (x := raw) (rest := []) t4 (by omega)
  rw [List.append_nil] at this
  rw [this, Mp4.boxesFrom_nil, l0, l1, l2]
  simp only [Option.map_some]
  rw [show 0 + (8 + 20) + (8 + 44) + (8 + (80 + (Mp4.rows (mask v) l).length)) = 168 + (Mp4.rows (mask v) l).length by omega]

theorem boxes_moof (v : Bool) (seq dts : Nat) (l : List Mp4.Sample) (hm : (Mp4.rows (mask v) l).length + 96 < 2 ^ 31) :
    Mp4.boxes (moofBody v seq dts l) = some [⟨0, tag "mfhd", mfhdBody seq⟩, ⟨16, tag "traf", trafBody v dts l⟩] := by
  obtain ⟨-, -, -, -, t5, t6, -⟩ := tag4
  have l0 : (mfhdBody seq).length = 8 := by simp [mfhdBody, beEnc_length]
  have l1 := trafBody_length v dts l
  unfold Mp4.boxes
  rw [moofBody_length, show 80 + (Mp4.rows (mask v) l).length = 78 + (Mp4.rows (mask v) l).length + 1 + 1 by omega]
  unfold moofBody
  rw [Mp4.boxesFrom_cons _ _ t5 (by omega)]
  have := Mp4.boxesFrom_cons (78 + (Mp4.rows (mask v) l).length) (0 + (8 + (mfhdBody seq).length)) (x := trafBody v dts l) (rest := []) t6 (by omega)
  rw [List.append_nil] at this
  rw [this, Mp4.boxesFrom_nil, l0]
  rfl

theorem boxes_traf (v : Bool) (dts : Nat) (l : List Mp4.Sample) (hm : (Mp4.rows (mask v) l).length + 96 < 2 ^ 31) :
    Mp4.boxes (trafBody v dts l) = some [⟨0, tag "tfhd", tfhdBody⟩, ⟨16, tag "tfdt", tfdtBody dts⟩, ⟨36, tag "trun", runBody v l⟩] := by
  obtain ⟨-, -, -, -, -, -, t7, t8, t9⟩ := tag4
  have l0 : (tfhdBody).length = 8 := by simp [tfhdBody, beEnc_length]
  have l1 : (tfdtBody dts).length = 12 := by simp [tfdtBody, beEnc_length]
  have l2 := runBody_length v l
  unfold Mp4.boxes
  rw [trafBody_length, show 56 + (Mp4.rows (mask v) l).length = 53 + (Mp4.rows (mask v) l).length + 1 + 1 + 1 by omega]
  unfold trafBody
  rw [List.append_assoc, Mp4.boxesFrom_cons _ _ t7 (by omega), Mp4.boxesFrom_cons _ _ t8 (by omega)]
  have := Mp4.boxesFrom_cons (53 + (Mp4.rows (mask v) l).length) (0 + (8 + tfhdBody.length) + (8 + (tfdtBody dts).length)) (x := runBody v l) (rest := []) t9 (by omega)
  rw [List.append_nil] at this
  rw [this, Mp4.boxesFrom_nil, l0, l1]
  rfl

theorem runFlags_mask (v : Bool) : Mp4.runFlags (mask v) = if v then 0xf01 else 0x301 := by cases v <;> decide +kernel

theorem readRun_eq (v : Bool) (l : List Mp4.Sample) (h : l.length < 2 ^ 32) (hm : (Mp4.rows (mask v) l).length + 96 < 2 ^ 32) :
    Mp4.readRun (runBody v l) = some ⟨some (96 + (Mp4.rows (mask v) l).length), none, l.map (Mp4.entryOf (mask v))⟩ := by
  obtain ⟨h0, h2, -, -, -, -, hf⟩ := Mp4.flags_bits (mask v)
  unfold Mp4.readRun Mp4.verFlags runBody
  rw [← runFlags_mask, List.append_assoc, List.append_assoc, Mp4.num_cons]
  simp only [Option.map_some, Option.bind_some]
  have e : Mp4.runFlags (mask v) % 256 ^ 4 % 2 ^ 24 = Mp4.runFlags (mask v) := by omega
  rw [e, Mp4.num_cons]
  simp only [Option.bind_some]
  have e2 : l.length % 256 ^ 4 = l.length := by omega
  have e3 := Mp4.optNum_cons true (v := 96 + (Mp4.rows (mask v) l).length) (Mp4.rows (mask v) l)
  simp only [if_true] at e3
  rw [h0, h2, e2, e3]
  simp only [Option.bind_some, Mp4.optNum]
  rw [if_neg (by decide)]
  simp only [Option.bind_some]
  rw [Mp4.entries_rows]
  have e4 : (96 + (Mp4.rows (mask v) l).length) % 2 ^ 32 = 96 + (Mp4.rows (mask v) l).length := by omega
  rw [e4]
  rfl

theorem readTime_eq (dts : Nat) (h : dts < 2 ^ 64) : Mp4.readTime (tfdtBody dts) = some dts := by
  unfold Mp4.readTime Mp4.verFlags tfdtBody
  rw [Mp4.num_cons]
  simp only [Option.map_some, Option.bind_some]
  rw [if_neg (by decide), Mp4.num_last]
  simp only [Option.map_some]
  rw [Nat.mod_eq_of_lt (by omega)]

theorem fromMoof_eq : Spec.fromMoof tfhdBody = true := by decide +kernel

/-- A segment read: the data has as many bytes as the samples say. -/
theorem readMedia_seg (v : Bool) (pts dts seq dur : Nat) (l : List Mp4.Sample) (ds : List Bytes) (hd : dts < 2 ^ 64)
    (hl : l.map (·.size) = ds.map List.length) (hm : (Mp4.rows (mask v) l).length + ds.flatten.length + 96 < 2 ^ 31) :
    Spec.readMedia (segText v pts dts seq dur l ds.flatten) =
      some ⟨seq % 2 ^ 32, dts, ((l.map (Mp4.entryOf (mask v))).zip ds).map fun p => ⟨p.2, p.1.duration, p.1.flags, p.1.offset⟩⟩ := by
  obtain ⟨n1, n2, n3, n4, n5, n6, n7, n8, n9, n10, n11, n12, n13, n14, n15, n16, n17, hts⟩ := Mp4.tags
  obtain ⟨t1, t2, t3, t4, -⟩ := tag4
  have a1 : ∀ a b c d : Mp4.Box, a.type = tag "styp" → b.type = tag "sidx" → c.type = tag "moof" → d.type = tag "mdat" →
      Mp4.the (Mp4.str "moof") [a, b, c, d] = some c ∧ Mp4.the (Mp4.str "mdat") [a, b, c, d] = some d := by
    intro a b c d ha hb hc hd
    simp [Mp4.the, ha, hb, hc, hd, n1, n2, n4, n5, n6, n8, hts]
  have a2 : ∀ a b : Mp4.Box, a.type = tag "mfhd" → b.type = tag "traf" → Mp4.the (Mp4.str "mfhd") [a, b] = some a ∧ Mp4.the (Mp4.str "traf") [a, b] = some b := by
    intro a b ha hb
    simp [Mp4.the, ha, hb, n10, n11, hts]
  have a3 : ∀ a b c : Mp4.Box, a.type = tag "tfhd" → b.type = tag "tfdt" → c.type = tag "trun" →
      Mp4.the (Mp4.str "tfhd") [a, b, c] = some a ∧ Mp4.the (Mp4.str "tfdt") [a, b, c] = some b ∧ Mp4.the (Mp4.str "trun") [a, b, c] = some c := by
    intro a b c ha hb hc
    simp [Mp4.the, ha, hb, hc, n12, n13, n14, n15, n16, n17, hts]
  have hrow : l.length ≤ (Mp4.rows (mask v) l).length := by
    rw [Mp4.rows_length]
    have : 1 ≤ Mp4.nitems (mask v) := by cases v <;> decide +kernel
    calc l.length = l.length * 1 * 1 := by omega
      _ ≤ l.length * Mp4.nitems (mask v) * 4 := Nat.mul_le_mul (Nat.mul_le_mul_left _ this) (by omega)
  unfold Spec.readMedia
  rw [boxes_seg _ _ _ _ _ _ _ (by omega)]
  simp only [Option.bind_some]
  rw [(a1 _ _ _ _ rfl rfl rfl rfl).1]
  simp only [Option.bind_some]
  rw [(a1 _ _ _ _ rfl rfl rfl rfl).2]
  simp only [Option.bind_some]
  rw [boxes_moof _ _ _ _ (by omega)]
  simp only [Option.bind_some]
  rw [(a2 _ _ rfl rfl).1]
  simp only [Option.bind_some]
  rw [(a2 _ _ rfl rfl).2]
  simp only [Option.bind_some]
  rw [boxes_traf _ _ _ (by omega)]
  simp only [Option.bind_some]
  rw [(a3 _ _ _ rfl rfl rfl).1]
  simp only [Option.bind_some]
  rw [(a3 _ _ _ rfl rfl rfl).2.1]
  simp only [Option.bind_some]
  rw [(a3 _ _ _ rfl rfl rfl).2.2]
  simp only [Option.bind_some]
  rw [readRun_eq _ _ (by omega) (by omega), readTime_eq _ hd]
  simp only [Option.bind_some]
  have hseq : Mp4.num 4 ((mfhdBody seq).drop 4) = some (seq % 2 ^ 32, []) := by
    unfold mfhdBody
    rw [List.drop_left' (beEnc_length ..), Mp4.num_last]
  rw [hseq]
  simp only [Option.bind_some]
  rw [if_pos fromMoof_eq]
  have hsz : ∀ s ∈ l, s.size < 2 ^ 32 := by
    intro s hs
    have h1 : s.size ∈ ds.map List.length := hl ▸ List.mem_map_of_mem hs
    obtain ⟨d, hd', hd2⟩ := List.mem_map.1 h1
    have := (List.sublist_flatten_of_mem hd').length_le
    omega
  have hes : (l.map (Mp4.entryOf (mask v))).filterMap (·.size) = ds.map List.length := by
    rw [← hl]
    clear hl hm hrow
    induction l with
    | nil => rfl
    | cons s l ih =>
      have hs : (Mp4.entryOf (mask v) s).size = some s.size := by
        have : Mp4.hasSize (mask v) = true := by cases v <;> decide +kernel
        simp only [Mp4.entryOf, this, if_true]
        rw [Nat.mod_eq_of_lt (hsz s List.mem_cons_self)]
      rw [List.map_cons, List.filterMap_cons_some hs, ih (fun s h => hsz s (List.mem_cons_of_mem _ h))]
      rfl
  have hsum : (ds.map List.length).sum = ds.flatten.length := by rw [List.length_flatten]
  have hlen : (ds.map List.length).length = (l.map (Mp4.entryOf (mask v))).length := by
    rw [← hl]; simp
  have hdrop : (segText v pts dts seq dur l ds.flatten).drop (80 + (96 + (Mp4.rows (mask v) l).length)) = ds.flatten := by
    have l0 : (Mp4.stypBody).length = 20 := by decide +kernel
    unfold segText
    generalize hX : boxText (tag "styp") Mp4.stypBody ++ boxText (tag "sidx") (sidxBody pts (96 + (Mp4.rows (mask v) l).length + ds.flatten.length) dur) ++ boxText (tag "moof") (moofBody v seq dts l) = X
    have hXl : X.length = 168 + (Mp4.rows (mask v) l).length := by
      rw [← hX]
      simp only [List.length_append, boxText_length t1, boxText_length t2, boxText_length t3, l0, sidxBody_length, moofBody_length]; omega
    unfold boxText
    rw [← List.append_assoc, List.drop_left']
    simp only [List.length_append, hXl, beEnc_length, t4]
    omega
  rw [hes]
  show (if _ then _ else _) = _
  rw [hsum, hdrop]
  rw [if_pos ⟨hlen, by omega, by omega⟩]
  have hp := Mp4.pieces_sizes ds []
  rw [List.append_nil] at hp
  rw [hp]
  rfl

/-- The index of a segment -/
theorem readIndex_seg (v : Bool) (pts dts seq dur : Nat) (l : List Mp4.Sample) (raw : Bytes) (hp : pts < 2 ^ 64) (hdur : dur < 2 ^ 32)
    (hm : (Mp4.rows (mask v) l).length + raw.length + 96 < 2 ^ 31) :
    Spec.readIndex (segText v pts dts seq dur l raw) = some ⟨90000, pts, 80, 96 + (Mp4.rows (mask v) l).length + raw.length, dur⟩ ∧
    (segText v pts dts seq dur l raw).length = 80 + (96 + (Mp4.rows (mask v) l).length + raw.length) ∧
    ∃ top m, Mp4.boxes (segText v pts dts seq dur l raw) = some top ∧ Mp4.the (Mp4.str "moof") top = some m ∧ m.off = 80 := by
  obtain ⟨n1, n2, n3, n4, n5, n6, n7, n8, n9, n10, n11, n12, n13, n14, n15, n16, n17, hts⟩ := Mp4.tags
  obtain ⟨t1, t2, t3, t4, -⟩ := tag4
  have a1 : ∀ a b c d : Mp4.Box, a.type = tag "styp" → b.type = tag "sidx" → c.type = tag "moof" → d.type = tag "mdat" →
      Mp4.the (Mp4.str "sidx") [a, b, c, d] = some b ∧ Mp4.the (Mp4.str "moof") [a, b, c, d] = some c := by
    intro a b c d ha hb hc hd
    simp [Mp4.the, ha, hb, hc, hd, n1, n3, n4, n7, n8, n9, hts]
  refine ⟨?_, ?_, _, _, boxes_seg _ _ _ _ _ _ _ hm, (a1 _ _ _ _ rfl rfl rfl rfl).2, rfl⟩
  · unfold Spec.readIndex
    rw [boxes_seg _ _ _ _ _ _ _ hm]
    simp only [Option.bind_some]
    rw [(a1 _ _ _ _ rfl rfl rfl rfl).1]
    simp only [Option.bind_some]
    rw [sidxBody_length]
    generalize hR : 96 + (Mp4.rows (mask v) l).length + raw.length = R
    unfold sidxBody
    simp only [List.append_assoc]
    unfold Mp4.verFlags
    rw [Mp4.num_cons]
    simp only [Option.map_some, Option.bind_some]
    rw [if_neg (by decide), Mp4.num_cons]
    simp only [Option.bind_some]
    rw [Mp4.num_cons]
    simp only [Option.bind_some]
    rw [Mp4.num_cons]
    simp only [Option.bind_some]
    rw [Mp4.num_cons]
    simp only [Option.bind_some]
    rw [Mp4.num_cons]
    simp only [Option.bind_some]
    rw [Mp4.num_cons]
    simp only [Option.bind_some]
    rw [if_neg (by decide), Mp4.num_cons]
    simp only [Option.bind_some]
    rw [Mp4.num_cons]
    simp only [Option.map_some]
    have x1 : dur % 256 ^ 4 = dur := by omega
    have x2 : pts % 256 ^ 8 = pts := Nat.mod_eq_of_lt (by omega)
    have x3 : R % 256 ^ 4 % 2 ^ 31 = R := by omega
    rw [x1, x2, x3]
  · have l0 : (Mp4.stypBody).length = 20 := by decide +kernel
    simp only [segText, List.length_append, boxText_length t1, boxText_length t2, boxText_length t3, boxText_length t4, l0, sidxBody_length, moofBody_length]; omega

end Verif.TsDash
