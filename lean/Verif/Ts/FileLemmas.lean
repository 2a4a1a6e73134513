import Verif.Ts.FileModel
import Verif.Ts.FileSpec
/-
Cipher block chaining and the write loop.
-/
namespace Verif.Ts
open Verif

theorem cbc_small (enc iv) (d : Bytes) (h : d.length < 16) : cbc enc iv d = ([], iv) := by
  rw [cbc.eq_1, dif_pos h]

theorem cbc_block (enc iv) (d : Bytes) (h : ¬ d.length < 16) :
    cbc enc iv d = (enc (List.zipWith (· ^^^ ·) iv (d.take 16)) ++ (cbc enc (enc (List.zipWith (· ^^^ ·) iv (d.take 16))) (d.drop 16)).1,
      (cbc enc (enc (List.zipWith (· ^^^ ·) iv (d.take 16))) (d.drop 16)).2) := by
  rw [cbc.eq_1, dif_neg h]

theorem cbc_append (enc : Bytes → Bytes) (b : Bytes) : ∀ (n : Nat) (a iv : Bytes), a.length = 16 * n →
    cbc enc iv (a ++ b) = ((cbc enc iv a).1 ++ (cbc enc (cbc enc iv a).2 b).1, (cbc enc (cbc enc iv a).2 b).2) := by
  intro n
  induction n with
  | zero =>
    intro a iv h
    have : a = [] := List.length_eq_zero_iff.1 (by omega)
    subst this
    rw [cbc_small enc iv [] (by simp)]
    simp
  | succ n ih =>
    intro a iv h
    have ha : ¬ a.length < 16 := by omega
    have hab : ¬ (a ++ b).length < 16 := by rw [List.length_append]; omega
    rw [cbc_block enc iv (a ++ b) hab, cbc_block enc iv a ha]
    rw [List.take_append_of_le_length (by omega), List.drop_append_of_le_length (by omega)]
    rw [ih (a.drop 16) _ (by rw [List.length_drop]; omega)]
    simp

theorem cbc_length (enc : Bytes → Bytes) (hlen : ∀ b : Bytes, b.length = 16 → (enc b).length = 16) :
    ∀ (n : Nat) (a iv : Bytes), a.length = 16 * n → iv.length = 16 →
      (cbc enc iv a).1.length = a.length ∧ (cbc enc iv a).2.length = 16 := by
  intro n
  induction n with
  | zero =>
    intro a iv h hi
    have : a = [] := List.length_eq_zero_iff.1 (by omega)
    subst this
    rw [cbc_small enc iv [] (by simp)]
    exact ⟨rfl, hi⟩
  | succ n ih =>
    intro a iv h hi
    rw [cbc_block enc iv a (by omega)]
    have hz : (List.zipWith (· ^^^ ·) iv (a.take 16)).length = 16 := by
      rw [List.length_zipWith, List.length_take]; omega
    have := ih (a.drop 16) _ (by rw [List.length_drop]; omega) (hlen _ hz)
    refine ⟨?_, this.2⟩
    dsimp only
    rw [List.length_append, this.1, hlen _ hz, List.length_drop]; omega

theorem zip_xor_cancel : ∀ (a b : Bytes), a.length = b.length →
    List.zipWith (· ^^^ ·) a (List.zipWith (· ^^^ ·) a b) = b := by
  intro a
  induction a with
  | nil => intro b h; cases b with
    | nil => rfl
    | cons _ _ => simp at h
  | cons x xs ih =>
    intro b h
    cases b with
    | nil => simp at h
    | cons y ys =>
      simp only [List.zipWith_cons_cons]
      rw [ih ys (by simpa using h), ← UInt8.xor_assoc, UInt8.xor_self, UInt8.zero_xor]

theorem cbc_decrypt (enc dec : Bytes → Bytes) (hlen : ∀ b : Bytes, b.length = 16 → (enc b).length = 16)
    (hinv : ∀ b : Bytes, b.length = 16 → dec (enc b) = b) :
    ∀ (n : Nat) (a iv : Bytes), a.length = 16 * n → iv.length = 16 →
      Spec.cbcDecrypt dec iv (cbc enc iv a).1 = some a := by
  intro n
  induction n with
  | zero =>
    intro a iv h hi
    have : a = [] := List.length_eq_zero_iff.1 (by omega)
    subst this
    rw [cbc_small enc iv [] (by simp), Spec.cbcDecrypt.eq_1]
    rfl
  | succ n ih =>
    intro a iv h hi
    have hz : (List.zipWith (· ^^^ ·) iv (a.take 16)).length = 16 := by
      rw [List.length_zipWith, List.length_take]; omega
    have hc := hlen _ hz
    rw [cbc_block enc iv a (by omega), Spec.cbcDecrypt.eq_1]
    dsimp only
    rw [if_neg (by rw [List.length_append]; omega), dif_neg (by rw [List.length_append]; omega)]
    rw [List.take_append_of_le_length (by omega), List.take_of_length_le (by omega),
      List.drop_append_of_le_length (by omega), List.drop_of_length_le (by omega), List.nil_append]
    rw [ih (a.drop 16) _ (by rw [List.length_drop]; omega) hc, hinv _ hz,
      zip_xor_cancel iv (a.take 16) (by rw [List.length_take]; omega)]
    simp [List.take_append_drop]

/-- All writes are complete. -/
def FullWrites (io : Io) : Prop := ∀ i n, io i n = some n

theorem writeFd_full (io : Io) (h : FullWrites io) (f : File) (b : Bytes) :
    f.writeFd io b = ({ f with out := f.out ++ b, writes := f.writes + 1 }, true) := by
  unfold File.writeFd
  rw [h]; dsimp only
  rw [show b.take b.length = b from List.take_of_length_le (Nat.le_refl _)]

theorem loop_spec (enc : Bytes → Bytes) (io : Io) (hio : FullWrites io) (iv0 : Bytes) :
    ∀ (n : Nat) (f : File) (pend inp done : Bytes), inp.length * 2 + (if pend = [] then 0 else 1) = n →
      pend.length % 16 = 0 → pend.length ≤ 16 → done.length % 16 = 0 → cbc enc iv0 done = (f.out ++ pend, f.iv) →
      ∃ f' blk rest, f.loop enc io pend inp = (f', some rest) ∧ inp = blk ++ rest ∧ rest.length < 16 ∧
        f'.buf = f.buf ∧ f'.encrypt = f.encrypt ∧
        (done ++ blk).length % 16 = 0 ∧ cbc enc iv0 (done ++ blk) = (f'.out, f'.iv) := by
  intro n
  induction n using Nat.strongRecOn with
  | ind n ih =>
    intro f pend inp done hn hp hp16 hd hcbc
    rw [File.loop.eq_1]
    by_cases h : inp.length / 16 * 16 > 0 ∧ pend.length < 1024
    · rw [dif_pos h]
      dsimp only
      rw [writeFd_full io hio, if_pos rfl]
      generalize hk : min (inp.length / 16 * 16) (1024 - pend.length) = k
      have hk16 : k % 16 = 0 := by omega
      have hkpos : 0 < k ∧ k ≤ inp.length := by omega
      have htl : (inp.take k).length = k := by rw [List.length_take]; omega
      have hcat := cbc_append enc (inp.take k) (done.length / 16) done iv0 (by omega)
      rw [hcbc] at hcat
      obtain ⟨f', blk, rest, h1, h2, h3, h4, h4', h5, h6⟩ := ih ((inp.drop k).length * 2 + 0) (by
          rw [List.length_drop]; split at hn <;> omega)
        { f with iv := (cbc enc f.iv (inp.take k)).2, out := f.out ++ (pend ++ (cbc enc f.iv (inp.take k)).1), writes := f.writes + 1 }
        [] (inp.drop k) (done ++ inp.take k) (by simp) (by simp) (by simp)
        (by rw [List.length_append, htl]; omega) (by rw [hcat]; simp)
      refine ⟨f', inp.take k ++ blk, rest, h1, ?_, h3, h4, h4', ?_, ?_⟩
      · rw [List.append_assoc, ← h2, List.take_append_drop]
      · rw [← List.append_assoc]; exact h5
      · rw [← List.append_assoc]; exact h6
    · rw [dif_neg h]
      by_cases h2 : pend = []
      · rw [dif_pos h2]
        subst h2
        refine ⟨f, [], inp, rfl, rfl, ?_, rfl, rfl, by simpa using hd, ?_⟩
        · simp at h; omega
        · simpa using hcbc
      · rw [dif_neg h2]
        dsimp only
        rw [writeFd_full io hio, if_pos rfl]
        rw [if_neg h2] at hn
        exact ih (inp.length * 2 + 0) (by omega) { f with out := f.out ++ pend, writes := f.writes + 1 } [] inp done
          (by simp) (by simp) (by simp) hd (by simpa using hcbc)

/-- State of an encrypted file that has taken the bytes `plain`. -/
structure Taken (enc : Bytes → Bytes) (iv0 plain : Bytes) (f : File) : Prop where
  isEnc : f.encrypt = true
  small : f.buf.length < 16
  split : ∃ done, plain = done ++ f.buf ∧ done.length % 16 = 0 ∧ cbc enc iv0 done = (f.out, f.iv)

theorem write_taken (enc : Bytes → Bytes) (io : Io) (hio : FullWrites io) (iv0 plain : Bytes) (f : File) (inp : Bytes)
    (hlen : ∀ b : Bytes, b.length = 16 → (enc b).length = 16) (hiv : iv0.length = 16)
    (h : Taken enc iv0 plain f) : ∃ f', f.write enc io inp = (f', true) ∧ Taken enc iv0 (plain ++ inp) f' := by
  obtain ⟨done, h1, h2, h3⟩ := h.split
  have hsm := h.small
  unfold File.write
  rw [h.isEnc]
  simp only [Bool.not_true, Bool.false_eq_true, if_false]
  by_cases hc : f.buf.length > 0 ∧ f.buf.length + inp.length ≥ 16
  · rw [if_pos hc]
    dsimp only
    generalize hk : 16 - f.buf.length = k
    have hblk : (f.buf ++ inp.take k).length = 16 := by rw [List.length_append, List.length_take]; omega
    have hcat := cbc_append enc (f.buf ++ inp.take k) (done.length / 16) done iv0 (by omega)
    rw [h3] at hcat
    have hfiv : f.iv.length = 16 := by
      have := (cbc_length enc hlen (done.length / 16) done iv0 (by omega) hiv).2
      rw [h3] at this; exact this
    have hcl : (cbc enc f.iv (f.buf ++ inp.take k)).1.length = 16 := by
      rw [(cbc_length enc hlen 1 _ f.iv (by omega) hfiv).1]; exact hblk
    · obtain ⟨f', blk, rest, g1, g2, g3, g4, g4', g5, g6⟩ := loop_spec enc io hio iv0 _
        { f with iv := (cbc enc f.iv (f.buf ++ inp.take k)).2, buf := [] } (cbc enc f.iv (f.buf ++ inp.take k)).1 (inp.drop k)
        (done ++ (f.buf ++ inp.take k)) rfl (by omega) (by omega) (by rw [List.length_append]; omega) hcat
      rw [h.isEnc] at g1
      rw [g1]
      refine ⟨_, rfl, ?_, ?_, ?_⟩
      · exact g4'.trans h.isEnc
      · simp [g4]; exact g3
      · refine ⟨done ++ (f.buf ++ inp.take k) ++ blk, ?_, g5, ?_⟩
        · rw [h1]
          show _ = _ ++ (f'.buf ++ rest)
          rw [g4]
          simp only [List.nil_append, List.append_assoc]
          rw [← g2, List.take_append_drop]
        · exact g6
  · rw [if_neg hc]
    dsimp only
    obtain ⟨f', blk, rest, g1, g2, g3, g4, g4', g5, g6⟩ := loop_spec enc io hio iv0 _ f [] inp done rfl (by simp) (by simp) h2
      (by simpa using h3)
    rw [g1]
    refine ⟨_, rfl, g4'.trans h.isEnc, ?_, done ++ blk, ?_, g5, g6⟩
    · show (f'.buf ++ rest).length < 16
      rw [g4, List.length_append]
      by_cases hb : f.buf.length = 0
      · omega
      · have : inp.length = blk.length + rest.length := by rw [g2, List.length_append]
        omega
    · show plain ++ inp = done ++ blk ++ (f'.buf ++ rest)
      rw [g4, h1]
      by_cases hb : f.buf = []
      · rw [hb, g2]; simp
      · have hbl : 0 < f.buf.length := List.length_pos_iff.2 hb
        have : inp.length = blk.length + rest.length := by rw [g2, List.length_append]
        have hbk : blk = [] := List.length_eq_zero_iff.1 (by
          rw [List.length_append] at g5; omega)
        rw [g2, hbk]; simp

theorem writeAll_taken (enc : Bytes → Bytes) (io : Io) (hio : FullWrites io) (iv0 : Bytes)
    (hlen : ∀ b : Bytes, b.length = 16 → (enc b).length = 16) (hiv : iv0.length = 16) (ws : List Bytes) :
    ∀ (plain : Bytes) (f : File), Taken enc iv0 plain f →
      ∃ f', f.writeAll enc io ws = (f', true) ∧ Taken enc iv0 (plain ++ ws.flatten) f' := by
  induction ws with
  | nil => intro plain f h; exact ⟨f, rfl, by simpa using h⟩
  | cons w ws ih =>
    intro plain f h
    obtain ⟨f1, h1, h2⟩ := write_taken enc io hio iv0 plain f w hlen hiv h
    obtain ⟨f2, h3, h4⟩ := ih _ f1 h2
    refine ⟨f2, ?_, ?_⟩
    · rw [File.writeAll, h1]; exact h3
    · rw [List.flatten_cons, ← List.append_assoc]; exact h4

theorem writeAll_append (enc : Bytes → Bytes) (io : Io) (a b : List Bytes) (f f1 : File) (h : f.writeAll enc io a = (f1, true)) :
    f.writeAll enc io (a ++ b) = f1.writeAll enc io b := by
  induction a generalizing f with
  | nil => cases h; rfl
  | cons w ws ih =>
    rw [List.cons_append, File.writeAll]
    rw [File.writeAll] at h
    generalize f.write enc io w = r at h ⊢
    obtain ⟨g, ok⟩ := r
    cases ok
    · cases h
    · exact ih g h

theorem close_taken (enc : Bytes → Bytes) (io : Io) (hio : FullWrites io) (iv0 plain : Bytes) (f : File)
    (h : Taken enc iv0 plain f) :
    ∃ f', f.close enc io = (f', true) ∧
      f'.out = (cbc enc iv0 (plain ++ List.replicate (16 - f.buf.length) (UInt8.ofNat (16 - f.buf.length)))).1 := by
  obtain ⟨done, h1, h2, h3⟩ := h.split
  unfold File.close
  rw [h.isEnc, if_pos rfl]
  dsimp only
  rw [writeFd_full io hio]
  refine ⟨_, rfl, ?_⟩
  have := cbc_append enc (f.buf ++ List.replicate (16 - f.buf.length) (UInt8.ofNat (16 - f.buf.length))) (done.length / 16) done
    iv0 (by omega)
  rw [h1, List.append_assoc, this, h3]

theorem unpad_pad (p : Bytes) (k : Nat) (h1 : 1 ≤ k) (h2 : k ≤ 16) :
    Spec.unpad (p ++ List.replicate k (UInt8.ofNat k)) = some p := by
  unfold Spec.unpad
  have hk : (UInt8.ofNat k).toNat = k := by simp; omega
  rw [List.getLast?_append, List.getLast?_replicate, if_neg (by omega)]
  simp only [Option.some_or]
  have hl : (p ++ List.replicate k (UInt8.ofNat k)).length - k = p.length := by simp
  rw [hk, hl, List.drop_left, List.take_left, if_pos ⟨h1, h2, by simp, rfl⟩]

end Verif.Ts
