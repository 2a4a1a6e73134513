import Verif.Rtmp.ChunkSeg
/- Buffer safety of the receive loop for handlers that never shrink the chunk size; shape of one turn. -/
namespace Verif.Chunk
variable {σ : Type}

/-- What a turn that finishes a chunk does to handler state and chunk size. -/
theorem payloadStage_next {h : σ → Msg → σ × HRc} {x x' : σ} {s s' : Sess} (hp : payloadStage h x s = .next x' s') :
    (x' = x ∧ s'.chunk = s.chunk) ∨
    ∃ m, (h x m = (x', .ok) ∧ s'.chunk = s.chunk) ∨ (∃ c, h x m = (x', .newChunk c) ∧ s'.chunk = c) := by
  by_cases h1 : s.buf.length - s.pos < min (remain (s.streams s.inCsid)) s.chunk
  · rw [payloadStage_more h1] at hp; cases hp
  · by_cases h2 : remain (s.streams s.inCsid) > s.chunk
    · rw [payloadStage_frag h1 h2] at hp
      cases hp
      exact Or.inl ⟨rfl, rfl⟩
    · rw [payloadStage_msg h1 h2] at hp
      right
      refine ⟨doneMsg s, ?_⟩
      rcases hh : h x (doneMsg s) with ⟨x2, _ | _ | c⟩
      · rw [hh] at hp; simp only [afterMsg] at hp; cases hp
      · rw [hh] at hp; simp only [afterMsg] at hp; cases hp; exact Or.inl ⟨rfl, rfl⟩
      · rw [hh] at hp; simp only [afterMsg] at hp; cases hp; exact Or.inr ⟨c, rfl, rfl⟩

theorem process_next {cfg : Cfg} {h : σ → Msg → σ × HRc} {x x' : σ} {s s' : Sess} (hi : BufInv s)
    (hp : process cfg h x s = .next x' s') :
    (x' = x ∧ s'.chunk = s.chunk) ∨
    ∃ m, (h x m = (x', .ok) ∧ s'.chunk = s.chunk) ∨ (∃ c, h x m = (x', .newChunk c) ∧ s'.chunk = c) := by
  by_cases hz : s.pos = 0
  · have hA := parseHeader_append cfg s [] hz
    cases hph : parseHeader cfg s with
    | more t => rw [process_more hz hph] at hp; cases hp
    | bad => rw [process_bad hz hph] at hp; cases hp
    | done t =>
      rw [hph] at hA
      rw [process_done hz hph] at hp
      rw [← hA.2.2.2.2]
      exact payloadStage_next hp
  · rw [process_pos hz] at hp
    exact payloadStage_next hp

/-- The handlers never shrink the chunk size: `cur` reads the current chunk size off the handler state. -/
def NonShrinking (h : σ → Msg → σ × HRc) (cur : σ → Nat) : Prop :=
  ∀ x m x', (h x m = (x', .ok) → cur x' = cur x) ∧ (∀ c, h x m = (x', .newChunk c) → cur x ≤ c ∧ cur x' = c)

theorem settle_safe (cfg : Cfg) (h : σ → Msg → σ × HRc) (cur : σ → Nat) (hns : NonShrinking h cur) (n : Nat) (x : σ) (s : Sess)
    (hi : BufInv s) (hc : cur x = s.chunk) (hb : s.buf.length ≤ s.chunk + MAX_HEADER) :
    settle cfg h n x s ≠ .ub ∧ ∀ x' s', settle cfg h n x s = .idle x' s' → cur x' = s'.chunk := by
  induction n generalizing x s with
  | zero =>
    simp only [settle]
    refine ⟨by simp, ?_⟩
    intro x' s' he; cases he; exact hc
  | succ n ih =>
    simp only [settle]
    by_cases hbe : s.buf = []
    · simp only [hbe, ↓reduceIte]
      refine ⟨by simp, ?_⟩
      intro x' s' he; cases he; exact hc
    · simp only [hbe, ↓reduceIte]
      have hp := process_append cfg h x s [] hi
      cases hpr : process cfg h x s with
      | more x' s' =>
        rw [hpr] at hp
        obtain ⟨rfl, _, _, _, h5, _⟩ := hp
        refine ⟨by simp, ?_⟩
        intro x2 s2 he; cases he; rw [h5]; exact hc
      | err x' => exact ⟨by simp, by intro _ _ he; cases he⟩
      | ub => rw [hpr] at hp; exact hp.elim
      | next x' s' =>
        rw [hpr] at hp
        obtain ⟨_, h2, h3⟩ := hp
        have hx : cur x' = s'.chunk ∧ s.chunk ≤ s'.chunk := by
          rcases process_next hi hpr with ⟨rfl, e⟩ | ⟨m, ⟨e1, e2⟩ | ⟨c, e1, e2⟩⟩
          · exact ⟨by rw [e]; exact hc, Nat.le_of_eq e.symm⟩
          · exact ⟨by rw [(hns x m x').1 e1, e2]; exact hc, Nat.le_of_eq e2.symm⟩
          · have := (hns x m x').2 c e1
            exact ⟨by rw [this.2, e2], by rw [e2, ← hc]; exact this.1⟩
        have hle : s'.buf.length ≤ s'.chunk + MAX_HEADER := by omega
        have hng : ¬ s'.buf.length > s'.chunk + MAX_HEADER := by omega
        simp only [if_neg hng]
        exact ih x' s' h3 hx.1 hle

theorem recvLoop_safe (cfg : Cfg) (h : σ → Msg → σ × HRc) (cur : σ → Nat) (hns : NonShrinking h cur) (n : Nat) (x : σ)
    (s : Sess) (segs : List Bytes) (hq : Quiet s) (hc : cur x = s.chunk) :
    recvLoop cfg h n x s segs ≠ .ub ∧ ∀ x', recvLoop cfg h n x s segs ≠ .stuck x' := by
  induction n generalizing x s segs with
  | zero => simp [recvLoop]
  | succ n ih =>
    cases segs with
    | nil => simp [recvLoop]
    | cons seg segs =>
      simp only [recvLoop]
      by_cases hs : seg = []
      · simp only [hs, ↓reduceIte]
        exact ih x s segs hq hc
      · have hroom : ¬ s.chunk + MAX_HEADER - s.buf.length = 0 := by have := hq.2; omega
        simp only [hs, ↓reduceIte, hroom]
        generalize hr : s.chunk + MAX_HEADER - s.buf.length = room at *
        have hadd := add_def s (seg.take room)
        rw [hadd]
        rw [show (s.buf ++ seg.take room).length = (s.add (seg.take room)).buf.length by rw [add_buf]]
        have hbi : BufInv (s.add (seg.take room)) := add_inv _ hq.1
        have hcap : (s.add (seg.take room)).buf.length ≤ (s.add (seg.take room)).chunk + MAX_HEADER := by
          rw [add_len, add_chunk]
          have : (seg.take room).length ≤ room := List.length_take_le _ _
          have := hq.2
          omega
        have hcc : cur x = (s.add (seg.take room)).chunk := by rw [add_chunk]; exact hc
        obtain ⟨hs1, hs2⟩ := settle_safe cfg h cur hns _ x _ hbi hcc hcap
        have hsa := settle_absorb cfg h (s.add (seg.take room)).buf.length x (s.add (seg.take room)) hs1
        have hpr := absorb_props cfg h (s.add (seg.take room)).buf.length x (s.add (seg.take room)) hbi (Nat.le_refl _)
        rw [← hsa] at hpr
        cases hst : settle cfg h (s.add (seg.take room)).buf.length x (s.add (seg.take room)) with
        | idle x' s' =>
          rw [hst] at hpr
          exact ih x' s' _ hpr.1 (hs2 x' s' hst)
        | err x' => simp
        | ub => exact absurd hst hs1
        | stuck x' => rw [hst] at hpr; exact hpr.elim

/-- Initial states are quiet. -/
theorem quiet_init (chunk : Nat) : Quiet (Sess.init chunk) := by
  refine ⟨⟨?_, ?_⟩, ?_⟩ <;> simp [Sess.init, MAX_HEADER]

theorem feed_init (cfg : Cfg) (h : σ → Msg → σ × HRc) (x : σ) (chunk : Nat) :
    feed cfg h x (Sess.init chunk) [] = .idle x (Sess.init chunk) := by
  simp [feed, Sess.init, Sess.add, absorb]

theorem recvAll_feed (cfg : Cfg) (h : σ → Msg → σ × HRc) (x : σ) (chunk : Nat) (segs : List Bytes)
    (hu : recvAll cfg h x (Sess.init chunk) segs ≠ .ub) :
    recvAll cfg h x (Sess.init chunk) segs = feed cfg h x (Sess.init chunk) segs.flatten := by
  refine recvLoop_feed cfg h _ x _ segs (quiet_init chunk) (feed_init cfg h x chunk) ?_ hu
  unfold recvFuel; omega

/-- Copied fragments fit the new buffers. -/
theorem copyFrags_fit (cap n : Nat) (bo : Bytes) (l : List Bytes) (hb : bo.length ≤ cap) :
    ∀ f ∈ copyFrags cap n bo l, f.length ≤ cap := by
  induction n generalizing bo l with
  | zero => simp [copyFrags, hb]
  | succ n ih =>
    cases l with
    | nil => simp [copyFrags, hb]
    | cons bi rest =>
      simp only [copyFrags]
      split
      · exact ih _ _ (by rw [List.length_append]; omega)
      · intro f hf
        rcases List.mem_cons.1 hf with rfl | hf
        · exact hb
        · exact ih [] _ (by simp) f hf

end Verif.Chunk
