import Verif.Dash.Mp4Model
import Verif.Dash.Mp4Spec
namespace Verif.Mp4
open Verif

/-! ### What the writers write -/

/-- At offset `n` a writer adds `x`. -/
def At (n : Nat) (w : W) (x : Bytes) : Prop := ∀ b : Bytes, b.length = n → n + x.length ≤ cap → w b = some (b ++ x)

theorem at_data (n : Nat) (x : Bytes) : At n (data x) x := by
  intro b hb h
  unfold data
  rw [if_neg (by omega)]

theorem at_f32 (n v : Nat) : At n (f32 v) (beEnc 4 v) := at_data n _
theorem at_f24 (n v : Nat) : At n (f24 v) (beEnc 3 v) := at_data n _
theorem at_f16 (n v : Nat) : At n (f16 v) (beEnc 2 v) := at_data n _
theorem at_f8 (n v : Nat) : At n (f8 v) (beEnc 1 v) := at_data n _

theorem at_nop (n : Nat) : At n nop [] := by
  intro b _ _
  simp [nop]

theorem at_seq {n : Nat} {a b : W} {x y : Bytes} (ha : At n a x) (hb : At (n + x.length) b y) : At n (a ;; b) (x ++ y) := by
  intro s hs h
  rw [List.length_append] at h
  unfold W.seq
  rw [ha s hs (by omega)]
  show b (s ++ x) = _
  rw [hb (s ++ x) (by rw [List.length_append, hs]) (by omega), List.append_assoc]

/-- A box as text. -/
def boxText (t x : Bytes) : Bytes := beEnc 4 (8 + x.length) ++ t ++ x

theorem boxText_length {t x : Bytes} (ht : t.length = 4) : (boxText t x).length = 8 + x.length := by
  simp [boxText, beEnc_length, ht]; omega

theorem at_boxP {n : Nat} {t : Bytes} {body : Option Nat → W} {x : Bytes} (ht : t.length = 4) (hb : At (n + 8) (body (some n)) x) :
    At n (boxP t body) (boxText t x) := by
  intro b hl h
  rw [boxText_length ht] at h
  have h0 : (beEnc 4 0).length = 4 := beEnc_length ..
  have e : startBox t b = (b ++ beEnc 4 0 ++ t, some n) := by
    unfold startBox
    rw [if_neg (by omega)]
    dsimp only
    rw [if_neg (by rw [List.length_append, h0]; omega), hl]
  unfold boxP
  rw [e]
  dsimp only
  rw [hb (b ++ beEnc 4 0 ++ t) (by simp [h0, ht, hl]) (by omega)]
  simp only [Option.map_some, updateSize, overwrite, boxText]
  have hlen : (b ++ beEnc 4 0 ++ t ++ x).length - n = 8 + x.length := by simp [h0, ht, hl]; omega
  rw [hlen, beEnc_length]
  have e1 : (b ++ beEnc 4 0 ++ t ++ x).take n = b := by
    rw [List.append_assoc, List.append_assoc, List.take_left' hl]
  have e2 : (b ++ beEnc 4 0 ++ t ++ x).drop (n + 4) = t ++ x := by
    have : (b ++ beEnc 4 0).length = n + 4 := by simp [h0, hl]
    rw [List.append_assoc, List.drop_left' this]
  rw [e1, e2]
  simp

theorem at_box {n : Nat} {t : Bytes} {body : W} {x : Bytes} (ht : t.length = 4) (hb : At (n + 8) body x) : At n (box t body) (boxText t x) :=
  at_boxP ht hb

/-- The fields of a sample. -/
def row (m : Nat) (s : Sample) : Bytes :=
  (if hasDuration m then beEnc 4 s.duration else []) ++ (if hasSize m then beEnc 4 s.size else []) ++
    (if hasKey m then beEnc 4 (if s.key then 0 else 0x10000) else []) ++ (if hasDelay m then beEnc 4 s.delay else [])

def rows (m : Nat) (l : List Sample) : Bytes := (l.map (row m)).flatten

theorem at_if {n : Nat} (c : Bool) (v : Nat) : At n (if c then f32 v else nop) (if c then beEnc 4 v else []) := by
  cases c
  · exact at_nop n
  · exact at_f32 n v

theorem at_row (n m : Nat) (s : Sample) : At n (sampleFields m s) (row m s) :=
  at_seq (at_seq (at_seq (at_if _ _) (at_if _ _)) (at_if _ _)) (at_if _ _)

theorem at_rows (m : Nat) (l : List Sample) : ∀ n, At n (sampleLoop m l) (rows m l) := by
  induction l with
  | nil => exact fun n => at_nop n
  | cons s l ih =>
    intro n
    unfold rows
    rw [List.map_cons, List.flatten_cons]
    exact at_seq (at_row n m s) (ih _)

def nitems (m : Nat) : Nat := bit (hasDuration m) 1 + bit (hasSize m) 1 + bit (hasKey m) 1 + bit (hasDelay m) 1
def runFlags (m : Nat) : Nat := 1 + bit (hasDuration m) 0x100 + bit (hasSize m) 0x200 + bit (hasKey m) 0x400 + bit (hasDelay m) 0x800

theorem row_length (m : Nat) (s : Sample) : (row m s).length = 4 * nitems m := by
  unfold row nitems
  cases hasDuration m <;> cases hasSize m <;> cases hasKey m <;> cases hasDelay m <;> simp [bit, beEnc_length]

theorem rows_length (m : Nat) (l : List Sample) : (rows m l).length = l.length * nitems m * 4 := by
  induction l with
  | nil => simp [rows]
  | cons s l ih =>
    unfold rows at ih ⊢
    rw [List.map_cons, List.flatten_cons, List.length_append, ih, row_length, List.length_cons, Nat.succ_mul, Nat.add_mul]
    omega

/-- Where the data begins, from the beginning of `moof`. -/
def dataOff (m : Nat) (l : List Sample) : Nat := 64 + 20 + l.length * nitems m * 4 + 8

def runBody (m : Nat) (l : List Sample) : Bytes := beEnc 4 (runFlags m) ++ beEnc 4 l.length ++ beEnc 4 (dataOff m l) ++ rows m l

theorem at_trun (n m : Nat) (l : List Sample) : At (n + 64) (trun l m (some n)) (boxText (tag "trun") (runBody m l)) := by
  refine at_boxP (by decide +kernel) ?_
  have e : n + 64 - n = 64 := by omega
  dsimp only
  rw [e]
  exact at_seq (at_seq (at_seq (at_f32 _ _) (at_f32 _ _)) (at_f32 _ _)) (at_rows m l _)

def tfhdBody : Bytes := beEnc 4 0x20000 ++ beEnc 4 1
def tfdtBody (time : Nat) : Bytes := beEnc 4 0 ++ beEnc 4 time
def mfhdBody (index : Nat) : Bytes := beEnc 4 0 ++ beEnc 4 index

theorem at_tfhd (n : Nat) : At n tfhd (boxText (tag "tfhd") tfhdBody) := at_box (by decide +kernel) (at_seq (at_f32 _ _) (at_f32 _ _))
theorem at_tfdt (n time : Nat) : At n (tfdt time) (boxText (tag "tfdt") (tfdtBody time)) := at_box (by decide +kernel) (at_seq (at_f32 _ _) (at_f32 _ _))
theorem at_mfhd (n index : Nat) : At n (mfhd index) (boxText (tag "mfhd") (mfhdBody index)) := at_box (by decide +kernel) (at_seq (at_f32 _ _) (at_f32 _ _))

def trafBody (time : Nat) (l : List Sample) (m : Nat) : Bytes :=
  boxText (tag "tfhd") tfhdBody ++ boxText (tag "tfdt") (tfdtBody time) ++ boxText (tag "trun") (runBody m l)

def moofBody (time : Nat) (l : List Sample) (m index : Nat) : Bytes := boxText (tag "mfhd") (mfhdBody index) ++ boxText (tag "traf") (trafBody time l m)

theorem text16 (t x : Bytes) (ht : t.length = 4) (hx : x.length = 8) : (boxText t x).length = 16 := by rw [boxText_length ht, hx]

theorem tfhd_len : (boxText (tag "tfhd") tfhdBody).length = 16 := text16 _ _ (by decide +kernel) (by decide +kernel)
theorem tfdt_len (time : Nat) : (boxText (tag "tfdt") (tfdtBody time)).length = 16 := text16 _ _ (by decide +kernel) (by simp [tfdtBody, beEnc_length])
theorem mfhd_len (i : Nat) : (boxText (tag "mfhd") (mfhdBody i)).length = 16 := text16 _ _ (by decide +kernel) (by simp [mfhdBody, beEnc_length])

theorem at_traf (n time : Nat) (l : List Sample) (m : Nat) : At (n + 24) (traf time l m (some n)) (boxText (tag "traf") (trafBody time l m)) := by
  refine at_box (by decide +kernel) ?_
  refine at_seq (at_seq (at_tfhd _) (at_tfdt _ _)) ?_
  have e : n + 24 + 8 + (boxText (tag "tfhd") tfhdBody ++ boxText (tag "tfdt") (tfdtBody time)).length = n + 64 := by
    rw [List.length_append, tfhd_len, tfdt_len]
  rw [e]
  exact at_trun n m l

theorem at_moof (n time : Nat) (l : List Sample) (m index : Nat) : At n (moof time l m index) (boxText (tag "moof") (moofBody time l m index)) := by
  refine at_boxP (by decide +kernel) ?_
  refine at_seq (at_mfhd _ _) ?_
  rw [mfhd_len]
  exact at_traf n time l m

def stypBody : Bytes := tag "iso6" ++ beEnc 4 1 ++ tag "isom" ++ tag "iso6" ++ tag "dash"

theorem at_styp (n : Nat) : At n styp (boxText (tag "styp") stypBody) :=
  at_box (by decide +kernel) (at_seq (at_seq (at_seq (at_seq (at_data _ _) (at_f32 _ _)) (at_data _ _)) (at_data _ _)) (at_data _ _))

def span (earliest latest : Nat) : Nat := (latest + 2 ^ 32 - earliest) % 2 ^ 32

def sidxBody (ref earliest latest : Nat) : Bytes :=
  beEnc 4 0 ++ beEnc 4 1 ++ beEnc 4 1000 ++ beEnc 4 earliest ++ beEnc 4 (span earliest latest) ++ beEnc 2 0 ++ beEnc 2 1 ++ beEnc 4 ref ++
    beEnc 4 (span earliest latest) ++ beEnc 1 0x90 ++ beEnc 3 0

theorem at_sidx (n ref e l : Nat) : At n (sidx ref e l) (boxText (tag "sidx") (sidxBody ref e l)) :=
  at_box (by decide +kernel) (at_seq (at_seq (at_seq (at_seq (at_seq (at_seq (at_seq (at_seq (at_seq (at_seq (at_f32 _ _) (at_f32 _ _)) (at_f32 _ _)) (at_f32 _ _))
    (at_f32 _ _)) (at_f16 _ _)) (at_f16 _ _)) (at_f32 _ _)) (at_f32 _ _)) (at_f8 _ _)) (at_f24 _ _))

theorem sidx_len (ref e l : Nat) : (boxText (tag "sidx") (sidxBody ref e l)).length = 44 := by
  rw [boxText_length (by decide +kernel)]
  simp [sidxBody, beEnc_length]

theorem styp_len : (boxText (tag "styp") stypBody).length = 28 := by decide +kernel

theorem moof_len (time : Nat) (l : List Sample) (m index : Nat) :
    (boxText (tag "moof") (moofBody time l m index)).length = dataOff m l - 8 := by
  have e4 : ∀ k, (beEnc 4 k).length = 4 := fun k => beEnc_length ..
  rw [boxText_length (by decide +kernel)]
  unfold moofBody
  rw [List.length_append, mfhd_len, boxText_length (by decide +kernel)]
  unfold trafBody
  rw [List.length_append, List.length_append, tfhd_len, tfdt_len, boxText_length (by decide +kernel)]
  unfold runBody dataOff
  simp only [List.length_append, e4, rows_length]
  omega

theorem nitems_le (m : Nat) : nitems m ≤ 4 := by
  unfold nitems
  cases hasDuration m <;> cases hasSize m <;> cases hasKey m <;> cases hasDelay m <;> decide

theorem dataOff_le (m : Nat) {l : List Sample} (h : l.length ≤ 1024) : dataOff m l ≤ 92 + 16384 := by
  unfold dataOff
  have : l.length * nitems m ≤ 1024 * 4 := Nat.mul_le_mul h (nitems_le m)
  omega

/-- The headers of a fragment. -/
def headText (t : Track) : Bytes :=
  boxText (tag "styp") stypBody ++ boxText (tag "sidx") (sidxBody (t.mdatSize + dataOff t.mask t.samples) t.earliest t.latest) ++
    boxText (tag "moof") (moofBody t.earliest t.samples t.mask t.id) ++ (beEnc 4 (t.mdatSize + 8) ++ tag "mdat")

theorem headers_eq (t : Track) (junk : Bytes) (hj : junk.length = 44) (h : t.samples.length ≤ 1024) : headers t junk = some (headText t) := by
  have hm := moof_len t.earliest t.samples t.mask t.id
  have ho : 8 ≤ dataOff t.mask t.samples := by unfold dataOff; omega
  have hu := dataOff_le t.mask h
  have hcap : cap = 1048576 := rfl
  generalize hM : boxText (tag "moof") (moofBody t.earliest t.samples t.mask t.id) = M at hm
  unfold headers
  rw [at_styp 0 [] rfl (by rw [styp_len]; omega)]
  have hS := styp_len
  generalize hSS : boxText (tag "styp") stypBody = S at hS ⊢
  simp only [Option.bind_some, List.nil_append]
  have hp : (S ++ junk).length = 72 := by simp [hS, hj]
  rw [at_moof 72 _ _ _ _ (S ++ junk) hp (by rw [hM, hm]; omega), hM]
  simp only [Option.bind_some]
  have e1 : (S ++ junk ++ M).take S.length = S := by rw [List.append_assoc, List.take_left' rfl]
  have e2 : (S ++ junk ++ M).length - (S.length + 44) = M.length := by simp [hj]; omega
  rw [e1, e2]
  have e3 : t.mdatSize + 8 + M.length = t.mdatSize + dataOff t.mask t.samples := by omega
  rw [e3, at_sidx 28 _ _ _ S hS (by rw [sidx_len]; omega)]
  have hX := sidx_len (t.mdatSize + dataOff t.mask t.samples) t.earliest t.latest
  unfold headText
  rw [hSS, hM]
  generalize boxText (tag "sidx") (sidxBody (t.mdatSize + dataOff t.mask t.samples) t.earliest t.latest) = X at hX ⊢
  simp only [Option.bind_some]
  have e4 : (S ++ junk ++ M).drop (S ++ X).length = M := by
    rw [List.drop_left' (by simp [hS, hX, hj])]
  rw [e4]
  have ht : (tag "mdat").length = 4 := by decide +kernel
  have h4 : (beEnc 4 (t.mdatSize + 8)).length = 4 := beEnc_length ..
  refine at_seq (n := (S ++ X ++ M).length) (at_f32 _ _) (at_data _ _) _ rfl ?_
  simp only [List.length_append, hS, hX, hm, ht, h4]
  omega

/-- The copy of a file that is long enough. -/
theorem copyLoop_eq (left : Nat) : ∀ raw : Bytes, left ≤ raw.length → copyLoop raw left = some (raw.take left) := by
  induction left using Nat.strongRecOn with
  | ind left ih =>
    intro raw h
    have hcap : cap = 1048576 := rfl
    rw [copyLoop]
    by_cases h0 : left = 0
    · rw [if_pos h0, h0]; rfl
    · rw [if_neg h0]
      generalize hn : min (min cap left) raw.length = n
      have h1 : n ≠ 0 := by omega
      rw [dif_neg h1, ih (left - n) (by omega) (raw.drop n) (by rw [List.length_drop]; omega)]
      simp only [Option.map_some, Option.some.injEq]
      have : left = n + (left - n) := by omega
      conv => rhs; rw [this, List.take_add]

/-- The copy of a file that is too short does not end. -/
theorem copyLoop_none (left : Nat) : ∀ raw : Bytes, raw.length < left → copyLoop raw left = none := by
  induction left using Nat.strongRecOn with
  | ind left ih =>
    intro raw h
    have hcap : cap = 1048576 := rfl
    rw [copyLoop, if_neg (by omega)]
    generalize hn : min (min cap left) raw.length = n
    by_cases h1 : n = 0
    · rw [dif_pos h1]
    · rw [dif_neg h1, ih (left - n) (by omega) (raw.drop n) (by rw [List.length_drop]; omega)]
      rfl

/-! ### What the reader reads -/

theorem boxesFrom_nil (n off : Nat) : boxesFrom n off [] = some [] := by cases n <;> rfl

theorem boxesFrom_cons (n off : Nat) {t x rest : Bytes} (ht : t.length = 4) (hx : 8 + x.length < 2 ^ 32) :
    boxesFrom (n + 1) off (boxText t x ++ rest) = (boxesFrom n (off + (8 + x.length)) rest).map (⟨off, t, x⟩ :: ·) := by
  have h4 : (beEnc 4 (8 + x.length)).length = 4 := beEnc_length ..
  have hl : (boxText t x).length = 8 + x.length := boxText_length ht
  have e0 : beDec ((boxText t x ++ rest).take 4) = 8 + x.length := by
    unfold boxText
    rw [List.append_assoc, List.append_assoc, List.take_left' h4, beDec_beEnc_of_lt hx]
  have e1 : ((boxText t x ++ rest).drop 4).take 4 = t := by
    unfold boxText
    rw [List.append_assoc, List.append_assoc, List.drop_left' h4, List.take_left' ht]
  have e2 : ((boxText t x ++ rest).drop 8).take (8 + x.length - 8) = x := by
    unfold boxText
    rw [List.append_assoc, List.drop_left' (by simp [h4, ht]), List.take_left' (by omega)]
  have e3 : (boxText t x ++ rest).drop (8 + x.length) = rest := List.drop_left' hl
  have hne : boxText t x ++ rest ≠ [] := by
    intro e
    have := congrArg List.length e
    rw [List.length_append, hl] at this
    simp at this
  have hlen : 8 + x.length ≤ (boxText t x ++ rest).length := by rw [List.length_append, hl]; omega
  generalize boxText t x ++ rest = L at *
  cases L with
  | nil => exact absurd rfl hne
  | cons a L =>
    rw [boxesFrom]
    · rw [e0, e1, e2, e3, if_neg (by omega)]
    · simp

theorem num_cons {k v : Nat} (rest : Bytes) : num k (beEnc k v ++ rest) = some (v % 256 ^ k, rest) := by
  unfold num
  have h : (beEnc k v).length = k := beEnc_length ..
  rw [if_neg (by rw [List.length_append, h]; omega), List.take_left' h, List.drop_left' h, beDec_beEnc]

theorem num_last {k v : Nat} : num k (beEnc k v) = some (v % 256 ^ k, []) := by
  have := num_cons (k := k) (v := v) []
  rwa [List.append_nil] at this

theorem optNum_cons (c : Bool) {v : Nat} (rest : Bytes) :
    optNum c ((if c then beEnc 4 v else []) ++ rest) = some (if c then some (v % 2 ^ 32) else none, rest) := by
  cases c
  · rfl
  · simp only [optNum, if_true]
    rw [num_cons]
    rfl

/-- What a sample says in `trun`. -/
def entryOf (m : Nat) (s : Sample) : Entry where
  duration := if hasDuration m then some (s.duration % 2 ^ 32) else none
  size := if hasSize m then some (s.size % 2 ^ 32) else none
  flags := if hasKey m then some (if s.key then 0 else 0x10000) else none
  offset := if hasDelay m then some (s.delay % 2 ^ 32) else none

theorem flags_bits (m : Nat) : (runFlags m).testBit 0 = true ∧ (runFlags m).testBit 2 = false ∧ (runFlags m).testBit 8 = hasDuration m ∧
    (runFlags m).testBit 9 = hasSize m ∧ (runFlags m).testBit 10 = hasKey m ∧ (runFlags m).testBit 11 = hasDelay m ∧ runFlags m < 2 ^ 24 := by
  unfold runFlags
  cases hasDuration m <;> cases hasSize m <;> cases hasKey m <;> cases hasDelay m <;> decide

theorem entry_row (m : Nat) (s : Sample) (rest : Bytes) : entry (runFlags m) (row m s ++ rest) = some (entryOf m s, rest) := by
  obtain ⟨-, -, h8, h9, h10, h11, -⟩ := flags_bits m
  unfold entry row
  rw [h8, h9, h10, h11, List.append_assoc, List.append_assoc, List.append_assoc, optNum_cons]
  simp only [Option.bind_some]
  rw [optNum_cons]
  simp only [Option.bind_some]
  rw [optNum_cons]
  simp only [Option.bind_some]
  rw [optNum_cons]
  simp only [Option.map_some]
  unfold entryOf
  cases s.key <;> rfl

theorem entries_rows (m : Nat) (l : List Sample) : entries (runFlags m) l.length (rows m l) = some (l.map (entryOf m)) := by
  induction l with
  | nil => rfl
  | cons s l ih =>
    unfold rows at ih ⊢
    rw [List.map_cons, List.flatten_cons, List.length_cons]
    unfold entries
    rw [entry_row]
    simp only [Option.bind_some]
    rw [ih]
    rfl

theorem readRun_body (m : Nat) {l : List Sample} (h : l.length ≤ 1024) :
    readRun (runBody m l) = some ⟨some (dataOff m l), none, l.map (entryOf m)⟩ := by
  obtain ⟨h0, h2, -, -, -, -, hf⟩ := flags_bits m
  have hd := dataOff_le m h
  unfold readRun verFlags runBody
  rw [List.append_assoc, List.append_assoc, num_cons]
  simp only [Option.map_some, Option.bind_some]
  have e : runFlags m % 256 ^ 4 % 2 ^ 24 = runFlags m := by omega
  rw [e, num_cons]
  simp only [Option.bind_some]
  have e2 : l.length % 256 ^ 4 = l.length := by omega
  have e3 := optNum_cons true (v := dataOff m l) (rows m l)
  simp only [if_true] at e3
  rw [h0, h2, e2, e3]
  simp only [Option.bind_some, optNum]
  rw [if_neg (by decide)]
  simp only [Option.bind_some]
  rw [entries_rows]
  have e4 : dataOff m l % 2 ^ 32 = dataOff m l := by omega
  rw [e4]
  rfl

theorem readTime_body (time : Nat) : readTime (tfdtBody time) = some (time % 2 ^ 32) := by
  unfold readTime verFlags tfdtBody
  rw [num_cons]
  simp only [Option.map_some, Option.bind_some]
  rw [if_pos (by decide), num_last]
  rfl

theorem baseIsMoof_body : baseIsMoof tfhdBody = true := by decide +kernel

theorem pieces_sizes (ds : List Bytes) (rest : Bytes) : pieces (ds.map List.length) (ds.flatten ++ rest) = some ds := by
  induction ds with
  | nil => rfl
  | cons d ds ih =>
    rw [List.map_cons, List.flatten_cons, List.append_assoc]
    unfold pieces
    rw [if_neg (by rw [List.length_append]; omega), List.drop_left' rfl, ih, List.take_left' rfl]
    rfl

end Verif.Mp4
