import Verif.Ts.PacketStream
/-
C19: MPEG-TS packetiser output is decodable to the same elementary stream.
C20: timestamps survive PES and PCR encoding.
C44: the PES length field is unspecified only where ISO 13818-1 allows it.
-/
namespace Verif.Ts
open Verif

/-- What a player must get for a frame: random access flag and clock reference on key frames, presentation time 700 ms after
the given one, decoding time only when different, all modulo 2^33; the clock reference is 700 ms before the decoding time
given for files, and equal to it (or 0 in the first 700 ms) for live output. -/
def wanted (live : Bool) (o : Op) : Spec.AccessUnit :=
  match o with
  | .video pts dts key data =>
    ⟨key,
     if key then some (if live then (if dts < 63000 then 0 else dts % 2 ^ 33) else (((dts : Int) - 63000) % 2 ^ 33).toNat, 0) else none,
     ⟨0xe0, (pts + 63000) % 2 ^ 33, if dts = pts then none else some ((dts + 63000) % 2 ^ 33), data⟩⟩
  | .audio pts data => ⟨false, none, ⟨0xc0, (pts + 63000) % 2 ^ 33, none, data⟩⟩

def isVideo : Op → Bool
  | .video .. => true
  | .audio .. => false

theorem expUnit_wanted (live : Bool) (o : Op) : expUnit live o = wanted live o := by
  cases o with
  | video pts dts key data =>
    have h : pcrOf live dts % 2 ^ 33
        = if live then (if dts < 63000 then 0 else dts % 2 ^ 33) else (((dts : Int) - 63000) % 2 ^ 33).toNat := by
      unfold pcrOf delay
      cases live
      · simp only [Bool.false_eq_true, if_false]; omega
      · simp only [if_true]
        split <;> simp
    simp only [expUnit, wanted, Op.frame, Op.data, h, delay]
    split <;> rfl
  | audio pts data => simp [expUnit, wanted, Op.frame, Op.data, delay]

/-- C19, C20 end to end. For every sequence of audio and video frames, every state of the continuity counters and both
muxers: the packets written, put together, are demultiplexed by the specification into exactly the frames given, in order,
for each of the two streams, with continuity counters, payload starts, time stamps and data as they must be. -/
theorem C19_stream (live : Bool) (m : Mux) (ops : List Op) :
    Spec.demux 0x100 m.videoCc (m.run live ops).2.flatten
      = some ((ops.filter fun o => isVideo o && !o.data.isEmpty).map (wanted live)) ∧
    Spec.demux 0x101 m.audioCc (m.run live ops).2.flatten
      = some ((ops.filter fun o => !isVideo o && !o.data.isEmpty).map (wanted live)) := by
  obtain ⟨ps, h1, h2⟩ := run_read live ops m
  have hl := readAll_lengths _ _ h1
  have hw : expUnit live = wanted live := funext (expUnit_wanted live)
  have key : ∀ pid, pid = 0x100 ∨ pid = 0x101 → Spec.demux pid (m.cc pid) (m.run live ops).2.flatten
      = some ((ops.filter fun o => o.frame.pid == pid && !o.data.isEmpty).map (wanted live)) := by
    intro pid hp
    have hr := h2 pid hp
    unfold Spec.demux
    rw [flatten_length _ hl.2, if_pos (by omega), show 188 * (m.run live ops).2.length / 188 = (m.run live ops).2.length by omega,
      cut_flatten _ hl.2, h1]
    dsimp only
    rw [if_pos ⟨hr.cont, hr.start⟩, hr.read, hw]
  constructor
  · have := key 0x100 (Or.inl rfl)
    rw [show m.cc 0x100 = m.videoCc from rfl] at this
    rw [this]
    congr 3
    funext o; cases o <;> simp [Op.frame, isVideo]
  · have := key 0x101 (Or.inr rfl)
    rw [show m.cc 0x101 = m.audioCc from rfl] at this
    rw [this]
    congr 3
    funext o; cases o <;> simp [Op.frame, isVideo]

/-- C19. After any sequence each counter continues from the last packet of its stream: later sequences may be appended, as a
new segment does. -/
theorem C19_counters_continue (live : Bool) (m : Mux) (a b : List Op) :
    (m.run live (a ++ b)).2 = (m.run live a).2 ++ ((m.run live a).1.run live b).2 ∧
    (m.run live (a ++ b)).1 = ((m.run live a).1.run live b).1 := by
  induction a generalizing m with
  | nil => exact ⟨rfl, rfl⟩
  | cons o os ih =>
    have := ih (m.step live o).1
    refine ⟨?_, this.2⟩
    show (m.step live o).2 ++ ((m.step live o).1.run live (os ++ b)).2 = ((m.step live o).2 ++ _) ++ _
    rw [this.1, List.append_assoc]
    rfl

/-- C19. A single frame with any PID and stream id: whole packets, the PID, payload start on the first only, counters. -/
theorem C19_frame (live : Bool) (f : Frame) (cc : Nat) (data : Bytes) (hpid : f.pid < 8192) (hsid : f.sid < 256)
    (hd : data ≠ []) :
    ∃ p tl, Spec.readAll (writeFrame live f cc data).1 = some (p :: tl) ∧
      (∀ q ∈ p :: tl, q.pid = f.pid) ∧ p.pusi = true ∧ (∀ q ∈ tl, q.pusi = false) ∧
      Spec.continuous (cc % 16) (p :: tl) ∧ (writeFrame live f cc data).2 = cc + (p :: tl).length ∧
      (Spec.readPes (((p :: tl).map (·.payload)).flatten)).map (fun e => (e.sid, e.data)) = some (f.sid, data) := by
  obtain ⟨ps, h1, h2, h3⟩ := packets_read live f hpid _ data cc true rfl hd
  obtain ⟨pl, tl, hps, htl⟩ := h3.shape
  subst hps
  refine ⟨_, tl, h1, h3.pid, rfl, fun q hq => (htl q hq).1, h3.cont, h2, ?_⟩
  rw [h3.bytes]
  unfold prePes
  rw [if_pos rfl, readPes_header f data hsid]
  rfl

example : (⟨9000, 3000, 0x100, 0xe0, true⟩ : Frame).pid < 8192 ∧ ([1, 2, 3] : Bytes) ≠ [] := by decide
/-- A frame of two packets, the second one stuffed. -/
example : ((Mux.run false ⟨14, 3⟩ [.video 9000 3000 true (List.replicate 200 7), .audio 500 [1, 2]]).2.map List.length)
    = [188, 188, 188] := by decide +kernel

/-- C19. The live chain holds exactly the packets in order; no buffer is overfilled and each holds whole packets. -/
theorem C19_live_chain (live : Bool) (f : Frame) (cc : Nat) (data : Bytes) (hpid : f.pid < 8192) :
    (liveChain (writeFrame live f cc data).1).flatten = (writeFrame live f cc data).1.flatten ∧
    ∀ b ∈ liveChain (writeFrame live f cc data).1, b.length ≤ 1316 ∧ b.length % 188 = 0 := by
  have hl : ∀ x ∈ (writeFrame live f cc data).1, x.length = 188 := by
    by_cases hd : data = []
    · unfold writeFrame; rw [packets.eq_1, dif_pos hd]; simp
    · obtain ⟨ps, h1, _, _⟩ := packets_read live f hpid _ data cc true rfl hd
      exact (readAll_lengths _ _ h1).2
  generalize (writeFrame live f cc data).1 = pk at hl ⊢
  unfold liveChain
  by_cases h0 : pk = []
  · subst h0; simp
  rw [if_neg h0]
  have key : ∀ (pk bufs : List Bytes), (∀ x ∈ pk, x.length = 188) → (∀ b ∈ bufs, b.length ≤ 1316 ∧ b.length % 188 = 0) →
      (pk.foldl chainAppend bufs).flatten = bufs.flatten ++ pk.flatten ∧
      ∀ b ∈ pk.foldl chainAppend bufs, b.length ≤ 1316 ∧ b.length % 188 = 0 := by
    intro pk
    induction pk with
    | nil => intro bufs _ hb; exact ⟨by simp, hb⟩
    | cons p ps ih =>
      intro bufs hp hb
      have hp0 := hp p (by simp)
      have hstep : (chainAppend bufs p).flatten = bufs.flatten ++ p ∧
          ∀ b ∈ chainAppend bufs p, b.length ≤ 1316 ∧ b.length % 188 = 0 := by
        unfold chainAppend
        cases hg : bufs.getLast? with
        | none =>
          have : bufs = [] := List.getLast?_eq_none_iff.1 hg
          subst this
          simp [hp0]
        | some b =>
          obtain ⟨ys, hys⟩ := List.getLast?_eq_some_iff.1 hg
          subst hys
          dsimp only
          split
          · refine ⟨by simp, ?_⟩
            intro x hx
            rcases List.mem_append.1 hx with h | h
            · exact hb x h
            · simp at h; subst h; omega
          · rename_i hroom
            rw [List.dropLast_concat]
            refine ⟨by simp, ?_⟩
            intro x hx
            rcases List.mem_append.1 hx with h | h
            · exact hb x (by simp [h])
            · simp at h; subst h
              have := hb b (by simp)
              rw [List.length_append]; omega
      have := ih (chainAppend bufs p) (fun x hx => hp x (by simp [hx])) hstep.2
      refine ⟨?_, this.2⟩
      rw [List.foldl_cons, this.1, hstep.1]
      simp
  have := key pk [] hl (by simp)
  simpa using this

/-- C20. Every presentation or decoding time, all 64 bits: reading the five bytes back, with prefix and marker bits checked,
gives the time modulo 2^33. -/
theorem C20_pts (fb t : Nat) (h : fb < 16) : Spec.readTs fb (writePts fb t) = some (t % 2 ^ 33) := readTs_writePts fb t h

example : (2 : Nat) < 16 := by decide

/-- C20. Every program clock reference: base modulo 2^33 and extension 0, reserved bits set. -/
theorem C20_pcr (t : Nat) : Spec.readPcr (writePcr t) = some (t % 2 ^ 33, 0) := readPcr_writePcr t

/-- C20. The PES header carries both time stamps, 700 ms later, for every frame. -/
theorem C20_pes (f : Frame) (data : Bytes) (hsid : f.sid < 256) :
    (Spec.readPes (pesHeader f data.length ++ data)).map (fun e => (e.pts, e.dts))
      = some ((f.pts + 63000) % 2 ^ 33, if f.dts = f.pts then none else some ((f.dts + 63000) % 2 ^ 33)) := by
  rw [readPes_header f data hsid]; rfl

example : (⟨9000, 3000, 0x100, 0xe0, true⟩ : Frame).sid < 256 := by decide

/-- ISO 13818-1 2.4.3.7: "A value of 0 indicates that the PES packet length is neither specified nor bounded and is allowed
only in PES packets whose payload consists of bytes from a video elementary stream". -/
def lengthAllowed (sid : Nat) (header : Bytes) : Prop :=
  (header[4]?.map UInt8.toNat = some 0 ∧ header[5]?.map UInt8.toNat = some 0) → 0xe0 ≤ sid ∧ sid ≤ 0xef

/-- C44, for audio frames that fit the 16 bit length. -/
theorem C44_length_partial (o : Op) (h : isVideo o = true ∨ o.data.length ≤ 65527) :
    lengthAllowed o.frame.sid (pesHeader o.frame o.data.length) := by
  intro hz
  cases o with
  | video => simp [Op.frame]
  | audio pts data =>
    exfalso
    have hlen : data.length ≤ 65527 := by simpa [isVideo, Op.data] using h
    have e : pesSize (Op.audio pts data).frame (Op.audio pts data).data.length = data.length + 8 := by
      simp [pesSize, headerSize, hasDts, Op.frame, Op.data]
      omega
    have h1 := hz.1
    have h2 := hz.2
    unfold pesHeader at h1 h2
    rw [e] at h1 h2
    simp [Nat.shiftRight_eq_div_pow] at h1 h2
    omega

example : isVideo (.audio 0 [1, 2]) = true ∨ (Op.audio 0 [1, 2]).data.length ≤ 65527 := by decide

/-- C44 fails for longer audio: several AAC frames collected by the muxer exceeding 65527 bytes get length 0. -/
theorem C44_length_violation (pts : Nat) (data : Bytes) (h : data.length > 65527) :
    ¬ lengthAllowed (Op.audio pts data).frame.sid (pesHeader (Op.audio pts data).frame (Op.audio pts data).data.length) := by
  have e : pesSize (Op.audio pts data).frame (Op.audio pts data).data.length = 0 := by
    simp [pesSize, headerSize, hasDts, Op.frame, Op.data]
    omega
  intro hf
  have := hf (by unfold pesHeader; rw [e]; exact ⟨rfl, rfl⟩)
  simp [Op.frame] at this

end Verif.Ts
