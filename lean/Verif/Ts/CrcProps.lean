import Verif.Ts.CrcLemmas
/-
C21: PSI tables carry a correct CRC.
-/
namespace Verif.Ts
open Verif

/-- C21. The table-driven routine computes the bit-serial division of ISO 13818-1 for every input. -/
theorem C21_crc_is_mpeg2 (data : Bytes) : crc32 data = Spec.crc data := fold_crc data _

/-- C21. A section followed by the stored CRC bytes leaves a zero register in the decoder, for every section. -/
theorem C21_crc_checks (data : Bytes) : Spec.crc (data ++ crcBuf (crc32 data)) = 0#32 := by
  rw [← C21_crc_is_mpeg2]
  show (data ++ _).foldl crcByte _ = _
  rw [List.foldl_append]
  exact crc_residue _

/-- C21. The stored bytes are the register, most significant first. -/
theorem C21_crc_bytes (r : BitVec 32) : beDec (crcBuf r) = r.toNat := by
  rw [crcBuf_eq]
  simp only [beDec, List.foldl, BitVec.toNat_setWidth, BitVec.toNat_ushiftRight, BitVec.toNat_shiftLeft, UInt8.toNat,
    Nat.shiftRight_eq_div_pow, Nat.shiftLeft_eq]
  have := r.isLt
  omega

/-- C21. The PAT is a valid packet announcing program 1 with its map on PID 0x1001. -/
theorem C21_pat : Spec.readPat pat = some [(1, 0x1001)] := by decide +kernel

/-- Stream types of ISO 13818-1 table 2-34 for the codecs of FLV. -/
def specStreams (hevc vcodec acodec : Int) : List (Nat × Nat) :=
  (if vcodec = 7 then [(0x1b, 0x100)] else if vcodec = hevc ∧ vcodec ≠ 0 then [(0x24, 0x100)] else []) ++
  (if acodec = 10 then [(0x0f, 0x101)] else if acodec = 2 then [(0x03, 0x101)] else [])

/-- C21. For all codec numbers and any configured HEVC number a PMT is refused exactly when there is neither audio nor video;
otherwise it is a valid packet on the PID announced by the PAT, with correct CRC and length, listing the known streams. -/
theorem C21_pmt (hevc vcodec acodec : Int) :
    (genPmt hevc vcodec acodec = none ↔ vcodec = 0 ∧ acodec = 0) ∧
    ∀ p, genPmt hevc vcodec acodec = some p →
      p.length = 188 ∧ Spec.readPmt p = some ⟨0x1001, 1, 0x100, specStreams hevc vcodec acodec⟩ := by
  constructor
  · unfold genPmt
    by_cases h : vcodec = acodec ∧ vcodec = 0
    · rw [if_pos h]; simp; omega
    · rw [if_neg h]; simp; omega
  intro p hp
  unfold genPmt at hp
  split at hp
  · cases hp
  cases hp
  have hv : (vEntry hevc vcodec = [] ∧ (if vcodec = 7 then [(0x1b, 0x100)] else if vcodec = hevc ∧ vcodec ≠ 0 then [(0x24, 0x100)] else [] : List (Nat × Nat)) = [])
      ∨ (vEntry hevc vcodec = [0x1b, 0xe1, 0x00, 0xf0, 0x00] ∧ (if vcodec = 7 then [(0x1b, 0x100)] else if vcodec = hevc ∧ vcodec ≠ 0 then [(0x24, 0x100)] else [] : List (Nat × Nat)) = [(0x1b, 0x100)])
      ∨ (vEntry hevc vcodec = [0x24, 0xe1, 0x00, 0xf0, 0x00] ∧ (if vcodec = 7 then [(0x1b, 0x100)] else if vcodec = hevc ∧ vcodec ≠ 0 then [(0x24, 0x100)] else [] : List (Nat × Nat)) = [(0x24, 0x100)]) := by
    unfold vEntry
    by_cases h0 : vcodec = 0
    · left; subst h0; simp
    by_cases h7 : vcodec = 7
    · right; left; subst h7; simp
    by_cases hh : vcodec = hevc
    · right; right; rw [if_neg h0, if_neg h7, if_pos hh, if_neg h7, if_pos ⟨hh, h0⟩]; simp
    · left; rw [if_neg h0, if_neg h7, if_neg hh, if_neg h7, if_neg (fun h => hh h.1)]; simp
  have ha : (aEntry acodec = [] ∧ (if acodec = 10 then [(0x0f, 0x101)] else if acodec = 2 then [(0x03, 0x101)] else [] : List (Nat × Nat)) = [])
      ∨ (aEntry acodec = [0x0f, 0xe1, 0x01, 0xf0, 0x00] ∧ (if acodec = 10 then [(0x0f, 0x101)] else if acodec = 2 then [(0x03, 0x101)] else [] : List (Nat × Nat)) = [(0x0f, 0x101)])
      ∨ (aEntry acodec = [0x03, 0xe1, 0x01, 0xf0, 0x00] ∧ (if acodec = 10 then [(0x0f, 0x101)] else if acodec = 2 then [(0x03, 0x101)] else [] : List (Nat × Nat)) = [(0x03, 0x101)]) := by
    unfold aEntry
    by_cases h2 : acodec = 2
    · right; right; subst h2; simp
    by_cases h10 : acodec = 10
    · right; left; subst h10; simp
    · left; rw [if_neg h2, if_neg h10, if_neg h10, if_neg h2]; simp
  unfold specStreams pmtSection
  rcases hv with ⟨e1, e2⟩ | ⟨e1, e2⟩ | ⟨e1, e2⟩ <;> rcases ha with ⟨e3, e4⟩ | ⟨e3, e4⟩ | ⟨e3, e4⟩ <;>
    rw [e1, e2, e3, e4] <;> decide +kernel

/-- Hypotheses of `C21_pmt` are met: H.264 + AAC. -/
example : (genPmt 12 7 10).isSome := by decide +kernel
example : specStreams 12 12 10 = [(0x24, 0x100), (0x0f, 0x101)] := by decide

/-- C43, for programs with a known video codec: the PCR PID is one of the listed streams. -/
theorem C43_pcr_pid_partial (hevc vcodec acodec : Int) (hv : vcodec = 7 ∨ (vcodec = hevc ∧ vcodec ≠ 0)) (p : Bytes)
    (hp : genPmt hevc vcodec acodec = some p) :
    ∃ m, Spec.readPmt p = some m ∧ ∃ s ∈ m.streams, s.2 = m.pcrPid := by
  refine ⟨_, ((C21_pmt hevc vcodec acodec).2 p hp).2, ?_⟩
  unfold specStreams
  rcases hv with h | h
  · simp [h]
  · rw [if_pos h]; split <;> simp

example : (genPmt 12 7 0).isSome := by decide +kernel

/-- C43 does not hold in general: with an audio codec only, the PMT names the video PID 0x100 as PCR PID although no stream
with that PID is listed. -/
theorem C43_pcr_pid_violation (hevc : Int) :
    ∃ p, genPmt hevc 0 10 = some p ∧ ∃ m, Spec.readPmt p = some m ∧ ∀ s ∈ m.streams, s.2 ≠ m.pcrPid := by
  obtain ⟨p, hp⟩ : ∃ p, genPmt hevc 0 10 = some p := ⟨_, rfl⟩
  have := ((C21_pmt hevc 0 10).2 p hp).2
  refine ⟨p, hp, _, this, ?_⟩
  simp [specStreams]

end Verif.Ts
