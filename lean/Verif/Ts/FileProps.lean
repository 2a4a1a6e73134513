import Verif.Ts.FileLemmas
import Verif.Ts.PacketProps
import Verif.Ts.CrcProps
/-
C22: encrypted TS file does not depend on write sizes.
-/
namespace Verif.Ts
open Verif

/-- A block cipher with a fixed key: 16-byte blocks to 16-byte blocks, with an inverse. -/
structure Cipher (enc dec : Bytes → Bytes) : Prop where
  len : ∀ b : Bytes, b.length = 16 → (enc b).length = 16
  inv : ∀ b : Bytes, b.length = 16 → dec (enc b) = b

/-- A new encrypted file before anything is written. -/
def newFile (iv : Bytes) : File := { encrypt := true, buf := [], iv := iv, out := [], writes := 0 }

/-- The bytes of the file after a list of writes and the closing, if no call failed. -/
def fileBytes (enc : Bytes → Bytes) (io : Io) (iv : Bytes) (ws : List Bytes) : Option Bytes :=
  match (newFile iv).writeAll enc io ws with
  | (f, true) => match f.close enc io with
    | (f, true) => some f.out
    | _ => none
  | _ => none

theorem newFile_taken (enc : Bytes → Bytes) (iv : Bytes) : Taken enc iv [] (newFile iv) :=
  ⟨rfl, by simp [newFile], [], rfl, rfl, cbc_small enc iv [] (by simp)⟩

/-- C22. For every block cipher, initialisation vector and sequence of writes of any sizes, when the system writes what it is
asked to: the calls succeed and a player decrypting the file gets exactly the bytes written, in order. -/
theorem C22_player_sees_plain_partial (enc dec : Bytes → Bytes) (hc : Cipher enc dec) (io : Io) (hio : FullWrites io) (iv : Bytes)
    (hiv : iv.length = 16) (ws : List Bytes) :
    ∃ out, fileBytes enc io iv ws = some out ∧ out.length % 16 = 0 ∧ out.length = (ws.flatten.length / 16 + 1) * 16 ∧
      Spec.play dec iv out = some ws.flatten := by
  obtain ⟨f1, h1, h2⟩ := writeAll_taken enc io hio iv hc.len hiv ws [] _ (newFile_taken enc iv)
  obtain ⟨f2, h3, h4⟩ := close_taken enc io hio iv _ f1 h2
  rw [List.nil_append] at h2 h4
  have hsm := h2.small
  obtain ⟨done, d1, d2, d3⟩ := h2.split
  have hwl : ws.flatten.length = done.length + f1.buf.length := by rw [d1, List.length_append]
  have hl : (ws.flatten ++ List.replicate (16 - f1.buf.length) (UInt8.ofNat (16 - f1.buf.length))).length
      = 16 * (ws.flatten.length / 16 + 1) := by
    rw [List.length_append, List.length_replicate]; omega
  have hcl := (cbc_length enc hc.len _ _ iv hl hiv).1
  refine ⟨f2.out, ?_, ?_, ?_, ?_⟩
  · unfold fileBytes; rw [h1]; dsimp only; rw [h3]
  · rw [h4, hcl, hl]; omega
  · rw [h4, hcl, hl]; omega
  · unfold Spec.play
    rw [h4, cbc_decrypt enc dec hc.len hc.inv _ _ iv hl hiv]
    exact unpad_pad _ _ (by omega) (by omega)

/-- C22. The file does not depend on how the bytes were cut into writes. -/
theorem C22_cut_independent (enc dec : Bytes → Bytes) (hc : Cipher enc dec) (io : Io) (hio : FullWrites io) (iv : Bytes)
    (hiv : iv.length = 16) (ws ws' : List Bytes) (h : ws.flatten = ws'.flatten) :
    fileBytes enc io iv ws = fileBytes enc io iv ws' := by
  have key : ∀ ws : List Bytes, fileBytes enc io iv ws = some (cbc enc iv (ws.flatten ++
      List.replicate (16 - ws.flatten.length % 16) (UInt8.ofNat (16 - ws.flatten.length % 16)))).1 := by
    intro ws
    obtain ⟨f1, h1, h2⟩ := writeAll_taken enc io hio iv hc.len hiv ws [] _ (newFile_taken enc iv)
    obtain ⟨f2, h3, h4⟩ := close_taken enc io hio iv _ f1 h2
    rw [List.nil_append] at h2 h4
    have hsm := h2.small
    obtain ⟨done, d1, d2, d3⟩ := h2.split
    have hwl : ws.flatten.length = done.length + f1.buf.length := by rw [d1, List.length_append]
    unfold fileBytes; rw [h1]; dsimp only; rw [h3]; dsimp only
    rw [h4, show ws.flatten.length % 16 = f1.buf.length by omega]
  rw [key, key, h]

/-- The hypotheses can be met. -/
example : Cipher id id ∧ FullWrites (fun _ n => some n) ∧ (ivOf 7).length = 16 :=
  ⟨⟨fun _ h => h, fun _ _ => rfl⟩, fun _ _ => rfl, rfl⟩
example : ([[1, 2, 3], [4, 5]] : List Bytes).flatten = ([[1], [2, 3, 4, 5]] : List Bytes).flatten := rfl

/-- C22. The initialisation vector is the key number as a 128 bit big endian number, as the playlist announces it
(`IV=0x%032XL` of `key_id`, hls/ngx_rtmp_hls_module.c:569-572). -/
theorem C22_iv (keyId : Nat) (h : keyId < 2 ^ 64) : (ivOf keyId).length = 16 ∧ beDec (ivOf keyId) = keyId := by
  refine ⟨rfl, ?_⟩
  have e : beDec (ivOf keyId) = beDec [UInt8.ofNat (keyId >>> 56), UInt8.ofNat (keyId >>> 48), UInt8.ofNat (keyId >>> 40),
      UInt8.ofNat (keyId >>> 32), UInt8.ofNat (keyId >>> 24), UInt8.ofNat (keyId >>> 16), UInt8.ofNat (keyId >>> 8),
      UInt8.ofNat keyId] := by simp [ivOf, beDec, List.replicate]
  rw [e]
  simp only [beDec, List.foldl, UInt8.toNat_ofNat', Nat.shiftRight_eq_div_pow]
  omega

example : (12345 : Nat) < 2 ^ 64 := by decide

/-- C22. A whole encrypted segment: opened, any sequence of frames written packet by packet, closed. A player decrypts it to
PAT, PMT and the packets of `C19_stream`. -/
theorem C22_segment_partial (enc dec : Bytes → Bytes) (hc : Cipher enc dec) (io : Io) (hio : FullWrites io) (keyId : Nat)
    (hevc vcodec acodec : Int) (hcodec : ¬ (vcodec = 0 ∧ acodec = 0)) (m : Mux) (ops : List Op) :
    ∃ f1 f2 f3 pmt, File.open enc io true keyId hevc vcodec acodec = (f1, true) ∧
      f1.writeAll enc io (m.run false ops).2 = (f2, true) ∧ f2.close enc io = (f3, true) ∧
      genPmt hevc vcodec acodec = some pmt ∧
      Spec.play dec (ivOf keyId) f3.out = some (pat ++ pmt ++ (m.run false ops).2.flatten) := by
  cases hp : genPmt hevc vcodec acodec with
  | none => exact absurd ((C21_pmt hevc vcodec acodec).1.1 hp) hcodec
  | some pmt =>
    have hopen : File.open enc io true keyId hevc vcodec acodec = (newFile (ivOf keyId)).writeAll enc io [pat, pmt] := by
      unfold File.open; rw [hp]; rfl
    obtain ⟨f1, h1, h2⟩ := writeAll_taken enc io hio (ivOf keyId) hc.len rfl [pat, pmt] [] _ (newFile_taken enc _)
    obtain ⟨f2, h3, h4⟩ := writeAll_taken enc io hio (ivOf keyId) hc.len rfl (m.run false ops).2 _ f1 h2
    obtain ⟨f3, h5, h6⟩ := close_taken enc io hio _ _ f2 h4
    refine ⟨f1, f2, f3, pmt, by rw [hopen]; exact h1, h3, h5, rfl, ?_⟩
    obtain ⟨out, g1, _, _, g4⟩ := C22_player_sees_plain_partial enc dec hc io hio (ivOf keyId) rfl ([pat, pmt] ++ (m.run false ops).2)
    have : fileBytes enc io (ivOf keyId) ([pat, pmt] ++ (m.run false ops).2) = some f3.out := by
      unfold fileBytes
      rw [writeAll_append enc io _ _ _ f1 h1, h3]; dsimp only; rw [h5]
    rw [this] at g1
    cases g1
    rw [g4]
    simp

example : ¬ ((7 : Int) = 0 ∧ (10 : Int) = 0) := by decide

/-- C22. Without encryption the file is the concatenation of the writes. -/
theorem C22_plain_partial (enc : Bytes → Bytes) (io : Io) (hio : FullWrites io) (ws : List Bytes) (f : File)
    (h : f.encrypt = false) :
    ∃ f', f.writeAll enc io ws = (f', true) ∧ f'.out = f.out ++ ws.flatten := by
  induction ws generalizing f with
  | nil => exact ⟨f, rfl, by simp⟩
  | cons w ws ih =>
    have hw : f.write enc io w = ({ f with out := f.out ++ w, writes := f.writes + 1 }, true) := by
      unfold File.write
      rw [if_pos (by simp [h])]
      exact writeFd_full io hio f w
    obtain ⟨f', g1, g2⟩ := ih { f with out := f.out ++ w, writes := f.writes + 1 } h
    refine ⟨f', ?_, ?_⟩
    · rw [File.writeAll, hw]; exact g1
    · rw [g2]; simp

example : (File.mk false [] [] [] 0).encrypt = false := rfl

/-- C22 fails when the system writes less than asked (disk nearly full): every call reports success although a byte is
missing from the file. -/
theorem C22_short_write_violation : ∃ (io : Io) (ws : List Bytes) (f' : File),
    (∀ i n, ∃ k, io i n = some k ∧ k ≤ n) ∧
    (File.mk false [] [] [] 0).writeAll id io ws = (f', true) ∧ f'.out ≠ ws.flatten :=
  ⟨fun _ n => some (n - 1), [[1, 2], [3, 4]], _, fun _ n => ⟨n - 1, rfl, by omega⟩, rfl, by decide⟩

end Verif.Ts
