import Verif.Rtmp.ChunkLemmas
/- Segmentation lemmas: processing does not depend on how bytes arrive. -/
namespace Verif.Chunk
variable {σ : Type}

/-! Sizes of the pieces of a header -/

theorem parseBasic_size {b r : Bytes} {f c : Nat} (h : parseBasic b = some (f, c, r)) : b.length ≤ r.length + 3 := by
  cases b with
  | nil => simp [parseBasic] at h
  | cons b0 b =>
    simp only [parseBasic] at h
    split at h
    · split at h
      · simp at h; obtain ⟨_, _, rfl⟩ := h; simp
      · simp at h
    · split at h
      · split at h
        · simp at h; obtain ⟨_, _, rfl⟩ := h; simp
        · simp at h
      · simp at h; obtain ⟨_, _, rfl⟩ := h; simp

theorem parseBasic_none {b : Bytes} (h : parseBasic b = none) : b.length ≤ 2 := by
  rcases b with _ | ⟨b0, _ | ⟨b1, _ | ⟨b2, b⟩⟩⟩
  · simp
  · simp
  · simp
  · simp only [parseBasic] at h
    repeat' (split at h)
    all_goals simp_all

theorem parseMsgHdr_size {fmt : Nat} {st : Stream} {r r2 : Bytes} {h : Hdr} {ts : Nat} {e : Bool}
    (hp : parseMsgHdr fmt st r = (h, some (ts, e, r2))) : r.length ≤ r2.length + 11 := by
  unfold parseMsgHdr at hp
  split at hp
  · split at hp
    · split at hp
      · split at hp
        · split at hp
          · split at hp
            · simp at hp; obtain ⟨_, _, _, rfl⟩ := hp; simp
            · simp at hp
          · simp at hp; obtain ⟨_, _, _, rfl⟩ := hp; simp
        · simp at hp
      · simp at hp; obtain ⟨_, _, _, rfl⟩ := hp; simp
    · simp at hp
  · simp at hp; obtain ⟨_, _, _, rfl⟩ := hp; simp

theorem parseMsgHdr_none {fmt : Nat} {st : Stream} {r : Bytes} {h : Hdr}
    (hp : parseMsgHdr fmt st r = (h, none)) : r.length ≤ 10 := by
  rcases r with _ | ⟨_, _ | ⟨_, _ | ⟨_, _ | ⟨_, _ | ⟨_, _ | ⟨_, _ | ⟨_, _ | ⟨_, _ | ⟨_, _ | ⟨_, _ | ⟨_, r⟩⟩⟩⟩⟩⟩⟩⟩⟩⟩⟩
  all_goals (try (simp; done))
  unfold parseMsgHdr at hp
  by_cases h2 : fmt ≤ 2
  · by_cases h1 : fmt ≤ 1
    · by_cases h0 : fmt = 0
      · simp [h0] at hp
      · simp [h1, h2, h0] at hp
    · simp [h1, h2] at hp
  · simp [h2] at hp

theorem parseExt_size {fmt le ts : Nat} {e : Bool} {r r3 : Bytes} {ts' le' : Nat} {e' : Bool}
    (hp : parseExt fmt le ts e r = some (ts', e', le', r3)) : r.length ≤ r3.length + 4 := by
  unfold parseExt at hp
  split at hp
  · split at hp
    · simp only at hp
      split at hp
      · simp at hp; obtain ⟨_, _, _, rfl⟩ := hp; simp
      · simp at hp; obtain ⟨_, _, _, rfl⟩ := hp; simp
    · simp at hp
  · simp at hp; obtain ⟨_, _, _, rfl⟩ := hp; simp

theorem parseExt_none {fmt le ts : Nat} {e : Bool} {r : Bytes}
    (hp : parseExt fmt le ts e r = none) : r.length ≤ 3 := by
  rcases r with _ | ⟨_, _ | ⟨_, _ | ⟨_, _ | ⟨_, r⟩⟩⟩⟩
  all_goals (try (simp; done))
  unfold parseExt at hp
  split at hp
  · simp only at hp
    split at hp <;> simp at hp
  · simp at hp

/-- An incomplete header has fewer than 18 bytes; a complete one has at most 18. -/
theorem parseHeader_size (cfg : Cfg) (s : Sess) :
    match parseHeader cfg s with
    | .more _ => s.buf.length < 18
    | .bad => True
    | .done s' => s'.pos ≤ 18 := by
  unfold parseHeader
  rcases hb : parseBasic s.buf with _ | ⟨fmt, csid, r1⟩
  · have := parseBasic_none hb; simp only; omega
  · have h1 := parseBasic_size hb
    by_cases hmax : csid ≥ cfg.maxStreams
    · simp only [if_pos hmax]
    · simp only [if_neg hmax]
      have hl := (link_buf s csid).1
      generalize link s csid = L at *
      rcases hm : parseMsgHdr fmt (L.streams L.inCsid) r1 with ⟨h, _ | ⟨ts, ext, r2⟩⟩
      · have := parseMsgHdr_none hm; simp only; omega
      · have h2 := parseMsgHdr_size hm
        simp only
        rcases he : parseExt fmt (L.streams L.inCsid).lastExt ts ext r2 with _ | ⟨ts', ext', le', r3⟩
        · have := parseExt_none he; simp only; omega
        · have h3 := parseExt_size he
          simp only
          by_cases hbig : (applyTime cfg fmt ts' ext' { L.streams L.inCsid with hdr := h, lastExt := le' }).hdr.mlen
              > cfg.maxMessage
          · simp only [if_pos hbig]
          · simp only [if_neg hbig, hl]; omega

/-- Structural invariant of the current buffer. -/
def BufInv (s : Sess) : Prop := s.pos ≤ s.buf.length ∧ s.pos ≤ 18

/-! The three cases of the payload stage -/

theorem payloadStage_more {h : σ → Msg → σ × HRc} {x : σ} {s : Sess}
    (h1 : s.buf.length - s.pos < min (remain (s.streams s.inCsid)) s.chunk) : payloadStage h x s = .more x s := by
  rw [payloadStage.eq_1, if_pos h1]

/-- The stream after a complete chunk of an unfinished message. -/
def fragStream (s : Sess) : Stream :=
  let st := s.streams s.inCsid
  { st with len := add32 st.len s.chunk, frags := st.frags ++ [(s.buf.drop s.pos).take s.chunk] }

theorem payloadStage_frag {h : σ → Msg → σ × HRc} {x : σ} {s : Sess}
    (h1 : ¬ s.buf.length - s.pos < min (remain (s.streams s.inCsid)) s.chunk)
    (h2 : remain (s.streams s.inCsid) > s.chunk) :
    payloadStage h x s = .next x { s.setStream s.inCsid (fragStream s) with
      inCsid := 0, buf := s.buf.drop (s.pos + s.chunk), pos := 0 } := by
  rw [payloadStage.eq_1, if_neg h1, if_pos h2]; rfl

/-- The message completed by the current buffer. -/
def doneMsg (s : Sess) : Msg :=
  let st := s.streams s.inCsid
  ⟨{ st.hdr with ts := add32 st.hdr.ts st.dtime }, st.frags.flatten ++ (s.buf.drop s.pos).take (remain st)⟩

/-- The session after that message was taken out. -/
def doneSess (s : Sess) : Sess :=
  let st := s.streams s.inCsid
  { s.setStream s.inCsid { st with hdr := (doneMsg s).hdr, len := 0, frags := [] } with
      inCsid := 0, buf := s.buf.drop (s.pos + remain st), pos := 0 }

/-- Reaction to the handlers' answer. -/
def afterMsg (s : Sess) : σ × HRc → Res σ
  | (x, .fail) => .err x
  | (x, .ok) => .next x s
  | (x, .newChunk c) => .next x (setChunkSize s c)

theorem payloadStage_msg {h : σ → Msg → σ × HRc} {x : σ} {s : Sess}
    (h1 : ¬ s.buf.length - s.pos < min (remain (s.streams s.inCsid)) s.chunk)
    (h2 : ¬ remain (s.streams s.inCsid) > s.chunk) :
    payloadStage h x s = afterMsg (doneSess s) (h x (doneMsg s)) := by
  rw [payloadStage.eq_1, if_neg h1, if_neg h2]
  show (match h x (doneMsg s) with
    | (x, HRc.fail) => Res.err x
    | (x, HRc.ok) => Res.next x (doneSess s)
    | (x, HRc.newChunk c) => Res.next x (setChunkSize (doneSess s) c)) = _
  rcases h x (doneMsg s) with ⟨x', _ | _ | c⟩ <;> rfl

attribute [local irreducible] payloadStage

theorem setChunkSize_add (s : Sess) (c : Nat) (ys : Bytes) : setChunkSize (s.add ys) c = (setChunkSize s c).add ys := rfl

theorem payloadStage_append (h : σ → Msg → σ × HRc) (x : σ) (s : Sess) (ys : Bytes) (hp : s.pos ≤ s.buf.length) :
    match payloadStage h x s with
    | .more x' s' => x' = x ∧ s' = s ∧ s.buf.length < s.pos + s.chunk
    | .err x' => payloadStage h x (s.add ys) = .err x'
    | .next x' s' => payloadStage h x (s.add ys) = .next x' (s'.add ys) ∧ s'.buf.length + s.pos ≤ s.buf.length ∧ s'.pos = 0
    | .ub => False := by
  have hst : (s.add ys).streams = s.streams := rfl
  have hic : (s.add ys).inCsid = s.inCsid := rfl
  have hch : (s.add ys).chunk = s.chunk := rfl
  have hps : (s.add ys).pos = s.pos := rfl
  have hbf : (s.add ys).buf = s.buf ++ ys := rfl
  by_cases h1 : s.buf.length - s.pos < min (remain (s.streams s.inCsid)) s.chunk
  · rw [payloadStage_more h1]
    exact ⟨rfl, rfl, by omega⟩
  · by_cases h2 : remain (s.streams s.inCsid) > s.chunk
    · have hle : s.pos + s.chunk ≤ s.buf.length := by omega
      have e1 : (s.buf ++ ys).drop s.pos = s.buf.drop s.pos ++ ys := List.drop_append_of_le_length hp
      have e2 : ((s.buf ++ ys).drop s.pos).take s.chunk = (s.buf.drop s.pos).take s.chunk := by
        rw [e1, List.take_append_of_le_length (by simp only [List.length_drop]; omega)]
      have e3 : (s.buf ++ ys).drop (s.pos + s.chunk) = s.buf.drop (s.pos + s.chunk) ++ ys :=
        List.drop_append_of_le_length hle
      have e4 : (s.buf.drop (s.pos + s.chunk)).length + s.pos ≤ s.buf.length := by
        simp only [List.length_drop]; omega
      have h1n : ¬ (s.buf ++ ys).length - s.pos < min (remain (s.streams s.inCsid)) s.chunk := by
        rw [List.length_append]; omega
      have h1' : ¬ (s.add ys).buf.length - (s.add ys).pos <
          min (remain ((s.add ys).streams (s.add ys).inCsid)) (s.add ys).chunk := by
        rw [hst, hic, hch, hps, hbf]; exact h1n
      have h2' : remain ((s.add ys).streams (s.add ys).inCsid) > (s.add ys).chunk := by rw [hst, hic, hch]; exact h2
      rw [payloadStage_frag h1 h2]
      simp only
      rw [payloadStage_frag h1' h2']
      refine ⟨?_, e4, trivial⟩
      have e4 : fragStream (s.add ys) = fragStream s := by
        simp only [fragStream, hst, hic, hch, hps, hbf, e2]
      rw [e4, hbf, hps, hch, e3]; rfl
    · have hle : s.pos + remain (s.streams s.inCsid) ≤ s.buf.length := by omega
      have e1 : (s.buf ++ ys).drop s.pos = s.buf.drop s.pos ++ ys := List.drop_append_of_le_length hp
      have e2 : ((s.buf ++ ys).drop s.pos).take (remain (s.streams s.inCsid)) =
          (s.buf.drop s.pos).take (remain (s.streams s.inCsid)) := by
        rw [e1, List.take_append_of_le_length (by simp only [List.length_drop]; omega)]
      have e3 : (s.buf ++ ys).drop (s.pos + remain (s.streams s.inCsid)) =
          s.buf.drop (s.pos + remain (s.streams s.inCsid)) ++ ys :=
        List.drop_append_of_le_length hle
      have e4 : doneMsg (s.add ys) = doneMsg s := by
        simp only [doneMsg, hst, hic, hps, hbf, e2]
      have e5 : doneSess (s.add ys) = (doneSess s).add ys := by
        simp only [doneSess, e4, hst, hic, hps, hbf, e3]; rfl
      have e6 : (doneSess s).buf.length + s.pos ≤ s.buf.length := by
        simp only [doneSess, List.length_drop]; omega
      have h1n : ¬ (s.buf ++ ys).length - s.pos < min (remain (s.streams s.inCsid)) s.chunk := by
        rw [List.length_append]; omega
      have h1' : ¬ (s.add ys).buf.length - (s.add ys).pos <
          min (remain ((s.add ys).streams (s.add ys).inCsid)) (s.add ys).chunk := by
        rw [hst, hic, hch, hps, hbf]; exact h1n
      have h2' : ¬ remain ((s.add ys).streams (s.add ys).inCsid) > (s.add ys).chunk := by rw [hst, hic, hch]; exact h2
      rw [payloadStage_msg h1 h2, payloadStage_msg h1' h2']
      rw [e4, e5]
      rcases h x (doneMsg s) with ⟨x', _ | _ | c⟩
      · rfl
      · exact ⟨rfl, e6, rfl⟩
      · exact ⟨rfl, e6, rfl⟩

theorem add_buf (s : Sess) (ys : Bytes) : (s.add ys).buf = s.buf ++ ys := rfl
theorem add_pos (s : Sess) (ys : Bytes) : (s.add ys).pos = s.pos := rfl
theorem add_chunk (s : Sess) (ys : Bytes) : (s.add ys).chunk = s.chunk := rfl
theorem add_def (s : Sess) (ys : Bytes) : ({ s with buf := s.buf ++ ys } : Sess) = s.add ys := rfl
theorem add_len (s : Sess) (ys : Bytes) : (s.add ys).buf.length = s.buf.length + ys.length := by
  rw [add_buf, List.length_append]
theorem add_inv {s : Sess} (ys : Bytes) (h : BufInv s) : BufInv (s.add ys) := by
  refine ⟨?_, h.2⟩
  rw [add_len, add_pos]; have := h.1; omega

attribute [local irreducible] Sess.add

theorem process_more {cfg : Cfg} {h : σ → Msg → σ × HRc} {x : σ} {s s' : Sess} (hz : s.pos = 0)
    (hp : parseHeader cfg s = .more s') : process cfg h x s = .more x s' := by
  rw [process.eq_1, if_pos hz, hp]

theorem process_bad {cfg : Cfg} {h : σ → Msg → σ × HRc} {x : σ} {s : Sess} (hz : s.pos = 0)
    (hp : parseHeader cfg s = .bad) : process cfg h x s = .err x := by
  rw [process.eq_1, if_pos hz, hp]

theorem process_done {cfg : Cfg} {h : σ → Msg → σ × HRc} {x : σ} {s s' : Sess} (hz : s.pos = 0)
    (hp : parseHeader cfg s = .done s') : process cfg h x s = payloadStage h x s' := by
  rw [process.eq_1, if_pos hz, hp]

theorem process_pos {cfg : Cfg} {h : σ → Msg → σ × HRc} {x : σ} {s : Sess} (hz : s.pos ≠ 0) :
    process cfg h x s = payloadStage h x s := by
  rw [process.eq_1, if_neg hz]

attribute [local irreducible] process

theorem process_append (cfg : Cfg) (h : σ → Msg → σ × HRc) (x : σ) (s : Sess) (ys : Bytes) (hi : BufInv s) :
    match process cfg h x s with
    | .more x' s' => x' = x ∧ process cfg h x (s'.add ys) = process cfg h x (s.add ys) ∧ s'.buf = s.buf ∧ BufInv s' ∧
        s'.chunk = s.chunk ∧ s.buf.length < s.chunk + MAX_HEADER
    | .err x' => process cfg h x (s.add ys) = .err x'
    | .next x' s' => process cfg h x (s.add ys) = .next x' (s'.add ys) ∧ s'.buf.length < s.buf.length ∧ BufInv s'
    | .ub => False := by
  by_cases hz : s.pos = 0
  · have hz' : (s.add ys).pos = 0 := by rw [add_pos]; exact hz
    have hA := parseHeader_append cfg s ys hz
    have hS := parseHeader_size cfg s
    cases hph : parseHeader cfg s with
    | more s' =>
      rw [hph] at hA hS
      simp only at hA hS
      obtain ⟨a1, a2, a3, a4⟩ := hA
      rw [process_more hz hph]
      refine ⟨rfl, ?_, a2, ⟨by rw [a3]; exact Nat.zero_le _, by rw [a3]; exact Nat.zero_le _⟩, a4, ?_⟩
      · have hz2 : (s'.add ys).pos = 0 := by rw [add_pos]; exact a3
        cases hq : parseHeader cfg (s.add ys) with
        | more t => rw [process_more hz' hq, process_more hz2 (a1.trans hq)]
        | bad => rw [process_bad hz' hq, process_bad hz2 (a1.trans hq)]
        | done t => rw [process_done hz' hq, process_done hz2 (a1.trans hq)]
      · show s.buf.length < s.chunk + 18
        clear a1
        omega
    | bad =>
      rw [hph] at hA
      rw [process_bad hz hph]
      exact process_bad hz' hA
    | done s' =>
      rw [hph] at hA hS
      simp only at hA hS
      obtain ⟨a1, a2, a3, a4, a5⟩ := hA
      have a2l := congrArg List.length a2
      have hle : s'.pos ≤ s'.buf.length := by rw [a2l]; exact a4
      have hP := payloadStage_append h x s' ys hle
      rw [process_done hz hph]
      cases hpp : payloadStage h x s' with
      | more x' s'' =>
        rw [hpp] at hP
        obtain ⟨rfl, rfl, b3⟩ := hP
        have hnz : (s''.add ys).pos ≠ 0 := by rw [add_pos]; exact Nat.pos_iff_ne_zero.1 a3
        refine ⟨rfl, ?_, a2, ⟨hle, hS⟩, a5, ?_⟩
        · rw [process_pos hnz, process_done hz' a1]
        · rw [← a2l, ← a5]; unfold MAX_HEADER; clear a1 hnz; omega
      | err x' =>
        rw [hpp] at hP
        show process cfg h x (s.add ys) = .err x'
        rw [process_done hz' a1]; exact hP
      | next x' s'' =>
        rw [hpp] at hP
        obtain ⟨b1, b2, b3⟩ := hP
        refine ⟨by rw [process_done hz' a1]; exact b1, ?_, ?_, ?_⟩
        · clear a1 b1; omega
        · rw [b3]; exact Nat.zero_le _
        · rw [b3]; exact Nat.zero_le _
      | ub => rw [hpp] at hP; exact hP
  · have hz' : ¬ (s.add ys).pos = 0 := by rw [add_pos]; exact hz
    have hP := payloadStage_append h x s ys hi.1
    rw [process_pos hz]
    cases hpp : payloadStage h x s with
    | more x' s'' =>
      rw [hpp] at hP
      obtain ⟨rfl, rfl, b3⟩ := hP
      refine ⟨rfl, rfl, rfl, hi, rfl, ?_⟩
      have := hi.2
      unfold MAX_HEADER; clear hz'; omega
    | err x' =>
      rw [hpp] at hP
      show process cfg h x (s.add ys) = .err x'
      rw [process_pos hz']; exact hP
    | next x' s'' =>
      rw [hpp] at hP
      obtain ⟨b1, b2, b3⟩ := hP
      refine ⟨by rw [process_pos hz']; exact b1, ?_, ?_, ?_⟩
      · clear b1 hz'; omega
      · rw [b3]; exact Nat.zero_le _
      · rw [b3]; exact Nat.zero_le _
    | ub => rw [hpp] at hP; exact hP

/-- Capacity-free version of `settle`. -/
def absorb (cfg : Cfg) (h : σ → Msg → σ × HRc) : Nat → σ → Sess → Out σ
  | 0, x, s => .idle x s
  | n + 1, x, s =>
    if s.buf = [] then .idle x s
    else
      match process cfg h x s with
      | .more x s => .idle x s
      | .err x => .err x
      | .ub => .ub
      | .next x s => absorb cfg h n x s

theorem absorb_fuel (cfg : Cfg) (h : σ → Msg → σ × HRc) (n m : Nat) (x : σ) (s : Sess) (hi : BufInv s)
    (hn : s.buf.length ≤ n) (hm : s.buf.length ≤ m) : absorb cfg h n x s = absorb cfg h m x s := by
  induction n generalizing m x s with
  | zero =>
    have : s.buf = [] := List.length_eq_zero_iff.1 (by omega)
    cases m <;> simp [absorb, this]
  | succ n ih =>
    cases m with
    | zero =>
      have : s.buf = [] := List.length_eq_zero_iff.1 (by omega)
      simp [absorb, this]
    | succ m =>
      simp only [absorb]
      by_cases hb : s.buf = []
      · simp [hb]
      · simp only [hb, ↓reduceIte]
        have hp := process_append cfg h x s [] hi
        cases hpr : process cfg h x s with
        | more x' s' => rfl
        | err x' => rfl
        | ub => rfl
        | next x' s' =>
          rw [hpr] at hp
          obtain ⟨_, h2, h3⟩ := hp
          exact ih m x' s' h3 (by omega) (by omega)

/-- Feed bytes to a connection state: everything that can be processed is. -/
def feed (cfg : Cfg) (h : σ → Msg → σ × HRc) (x : σ) (s : Sess) (ys : Bytes) : Out σ :=
  absorb cfg h (s.add ys).buf.length x (s.add ys)

theorem absorb_append (cfg : Cfg) (h : σ → Msg → σ × HRc) (n : Nat) (x : σ) (s : Sess) (ys : Bytes) (hi : BufInv s)
    (hn : s.buf.length ≤ n) :
    feed cfg h x s ys =
      match absorb cfg h n x s with
      | .idle x' s' => feed cfg h x' s' ys
      | r => r := by
  induction n generalizing x s with
  | zero =>
    simp [absorb]
  | succ n ih =>
    simp only [absorb]
    by_cases hb : s.buf = []
    · simp [hb]
    · simp only [hb, ↓reduceIte]
      have hp := process_append cfg h x s ys hi
      have hne : (s.add ys).buf ≠ [] := by simp [add_buf, hb]
      obtain ⟨L, hL⟩ : ∃ L, (s.add ys).buf.length = L + 1 :=
        ⟨(s.add ys).buf.length - 1, by have := List.length_pos_iff.2 hne; omega⟩
      have hfeed : feed cfg h x s ys =
          match process cfg h x (s.add ys) with
          | .more x s => .idle x s
          | .err x => .err x
          | .ub => .ub
          | .next x s => absorb cfg h L x s := by
        unfold feed
        rw [hL]
        simp only [absorb, hne, ↓reduceIte]
      cases hpr : process cfg h x s with
      | more x' s' =>
        rw [hpr] at hp
        obtain ⟨rfl, h2, h3, h4, h5, h6⟩ := hp
        simp only
        rw [hfeed]
        have hne' : (s'.add ys).buf ≠ [] := by simp [add_buf, h3, hb]
        have hL' : (s'.add ys).buf.length = L + 1 := by rw [← hL, add_len, add_len, h3]
        unfold feed
        rw [hL']
        simp only [absorb, hne', ↓reduceIte]
        rw [h2]
      | err x' => rw [hpr] at hp; simp only at hp; rw [hfeed, hp]
      | ub => rw [hpr] at hp; exact hp.elim
      | next x' s' =>
        rw [hpr] at hp
        obtain ⟨h1, h2, h3⟩ := hp
        rw [hfeed, h1]
        simp only
        rw [← ih x' s' h3 (by omega)]
        unfold feed
        refine absorb_fuel cfg h _ _ _ _ (add_inv ys h3) ?_ (Nat.le_refl _)
        rw [add_len] at hL ⊢
        omega

/-- A state in which nothing more can be done without new bytes. -/
def Quiet (s : Sess) : Prop :=
  BufInv s ∧ s.buf.length < s.chunk + MAX_HEADER

theorem absorb_props (cfg : Cfg) (h : σ → Msg → σ × HRc) (n : Nat) (x : σ) (s : Sess) (hi : BufInv s)
    (hn : s.buf.length ≤ n) :
    match absorb cfg h n x s with
    | .idle x' s' => Quiet s' ∧ feed cfg h x' s' [] = .idle x' s'
    | .err _ => True
    | .ub => False
    | .stuck _ => False := by
  induction n generalizing x s with
  | zero =>
    have hb : s.buf = [] := List.length_eq_zero_iff.1 (by omega)
    simp only [absorb]
    refine ⟨⟨hi, by rw [hb]; simp [MAX_HEADER]⟩, ?_⟩
    simp [feed, add_nil, hb, absorb]
  | succ n ih =>
    simp only [absorb]
    by_cases hb : s.buf = []
    · simp only [hb, ↓reduceIte]
      refine ⟨⟨hi, by rw [hb]; simp [MAX_HEADER]⟩, ?_⟩
      simp [feed, add_nil, hb, absorb]
    · simp only [hb, ↓reduceIte]
      have hp := process_append cfg h x s [] hi
      cases hpr : process cfg h x s with
      | more x' s' =>
        rw [hpr] at hp
        obtain ⟨rfl, h2, h3, h4, h5, h6⟩ := hp
        simp only
        refine ⟨⟨h4, by rw [h3, h5]; exact h6⟩, ?_⟩
        rw [add_nil, add_nil, hpr] at h2
        have hne' : s'.buf ≠ [] := by rw [h3]; exact hb
        obtain ⟨L, hL⟩ : ∃ L, s'.buf.length = L + 1 :=
          ⟨s'.buf.length - 1, by have := List.length_pos_iff.2 hne'; omega⟩
        simp only [feed, add_nil, hL, absorb, hne', ↓reduceIte, h2]
      | err x' => trivial
      | ub => rw [hpr] at hp; exact hp.elim
      | next x' s' =>
        rw [hpr] at hp
        obtain ⟨_, h2, h3⟩ := hp
        exact ih x' s' h3 (by omega)

theorem settle_absorb (cfg : Cfg) (h : σ → Msg → σ × HRc) (n : Nat) (x : σ) (s : Sess)
    (hu : settle cfg h n x s ≠ .ub) : settle cfg h n x s = absorb cfg h n x s := by
  induction n generalizing x s with
  | zero => rfl
  | succ n ih =>
    simp only [settle, absorb] at hu ⊢
    by_cases hb : s.buf = []
    · simp [hb]
    · simp only [hb, ↓reduceIte] at hu ⊢
      cases hpr : process cfg h x s with
      | more x' s' => rfl
      | err x' => rfl
      | ub => rfl
      | next x' s' =>
        rw [hpr] at hu
        simp only at hu ⊢
        by_cases hc : s'.buf.length > s'.chunk + MAX_HEADER
        · simp [hc] at hu
        · rw [if_neg hc] at hu ⊢
          exact ih x' s' hu

theorem feed_append (cfg : Cfg) (h : σ → Msg → σ × HRc) (x : σ) (s : Sess) (a b : Bytes) (hi : BufInv s) :
    feed cfg h x s (a ++ b) =
      match feed cfg h x s a with
      | .idle x' s' => feed cfg h x' s' b
      | r => r := by
  have hi' : BufInv (s.add a) := add_inv a hi
  have := absorb_append cfg h (s.add a).buf.length x (s.add a) b hi' (Nat.le_refl _)
  rw [show feed cfg h x s (a ++ b) = feed cfg h x (s.add a) b by simp [feed, add_add], this]
  rfl

theorem recvLoop_feed (cfg : Cfg) (h : σ → Msg → σ × HRc) (n : Nat) (x : σ) (s : Sess) (segs : List Bytes)
    (hq : Quiet s) (hidle : feed cfg h x s [] = .idle x s)
    (hn : segs.flatten.length + segs.length ≤ n) (hu : recvLoop cfg h n x s segs ≠ .ub) :
    recvLoop cfg h n x s segs = feed cfg h x s segs.flatten := by
  induction n generalizing x s segs with
  | zero =>
    have : segs = [] := List.length_eq_zero_iff.1 (by omega)
    subst this
    simpa [recvLoop] using hidle.symm
  | succ n ih =>
    cases segs with
    | nil => simpa [recvLoop] using hidle.symm
    | cons seg segs =>
      simp only [recvLoop] at hu ⊢
      simp only [List.flatten_cons, List.length_append, List.length_cons] at hn
      by_cases hs : seg = []
      · subst hs
        simp only [↓reduceIte] at hu ⊢
        simp only [List.length_nil] at hn
        simpa using ih x s segs hq hidle (by omega) hu
      · have hroom : ¬ s.chunk + MAX_HEADER - s.buf.length = 0 := by have := hq.2; omega
        simp only [hs, ↓reduceIte, hroom] at hu ⊢
        generalize hr : s.chunk + MAX_HEADER - s.buf.length = room at *
        have hadd := add_def s (seg.take room)
        have hset : settle cfg h (s.buf ++ seg.take room).length x (s.add (seg.take room)) =
            feed cfg h x s (seg.take room) := by
          rw [← add_buf]
          apply settle_absorb
          intro hc
          apply hu
          rw [hadd, ← add_buf, hc]
        rw [hadd] at hu ⊢
        rw [hset] at hu ⊢
        have hbi : BufInv (s.add (seg.take room)) := add_inv _ hq.1
        have hpr := absorb_props cfg h (s.add (seg.take room)).buf.length x (s.add (seg.take room)) hbi (Nat.le_refl _)
        have hfa := feed_append cfg h x s (seg.take room) (seg.drop room ++ segs.flatten) hq.1
        rw [← List.append_assoc, List.take_append_drop] at hfa
        rw [List.flatten_cons, hfa]
        change (match feed cfg h x s (seg.take room) with
          | .idle x' s' => Quiet s' ∧ feed cfg h x' s' [] = .idle x' s'
          | .err _ => True
          | .ub => False
          | .stuck _ => False) at hpr
        cases hf : feed cfg h x s (seg.take room) with
        | idle x' s' =>
          rw [hf] at hpr hu
          simp only at hu ⊢
          have hlen : 0 < seg.length := List.length_pos_iff.2 hs
          have := ih x' s' (seg.drop room :: segs) hpr.1 hpr.2
            (by simp only [List.flatten_cons, List.length_append, List.length_drop, List.length_cons]; omega) hu
          simpa using this
        | err x' => rfl
        | ub => rfl
        | stuck x' => rfl

end Verif.Chunk
