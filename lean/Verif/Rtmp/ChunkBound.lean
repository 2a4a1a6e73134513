import Verif.Rtmp.ChunkTrace
/- Lemmas for C04: how much the receiver accumulates. -/
namespace Verif.Chunk
variable {σ : Type}

/-- One action of the receiver: new bytes arrive, or the buffered bytes are processed one turn further. -/
inductive Step (cfg : Cfg) (h : σ → Msg → σ × HRc) : σ × Sess → σ × Sess → Prop
  | recv (x : σ) (s : Sess) (ys : Bytes) : Step cfg h (x, s) (x, s.add ys)
  | more (x x' : σ) (s s' : Sess) : process cfg h x s = .more x' s' → Step cfg h (x, s) (x', s')
  | next (x x' : σ) (s s' : Sess) : process cfg h x s = .next x' s' → Step cfg h (x, s) (x', s')

/-- The header at the start of the buffer gives an unfinished message a length below what was already received. -/
def ShrinksMid (cfg : Cfg) (s : Sess) : Prop :=
  s.pos = 0 ∧ ∃ s', parseHeader cfg s = .done s' ∧ (s'.streams s'.inCsid).hdr.mlen < (s'.streams s'.inCsid).len

/-- States reachable from `c0` through states which do not start with such a header. -/
inductive Reach (cfg : Cfg) (h : σ → Msg → σ × HRc) (c0 : σ × Sess) : σ × Sess → Prop
  | refl : Reach cfg h c0 c0
  | step {c c'} : Reach cfg h c0 c → ¬ ShrinksMid cfg c.2 → Step cfg h c c' → Reach cfg h c0 c'

/-- Invariant per stream. -/
structure StB (cfg : Cfg) (st : Stream) : Prop where
  a : st.frags.flatten.length ≤ st.len
  b : st.len ≤ cfg.maxMessage
  c : st.hdr.mlen < 2 ^ 24
  d : st.len < 2 ^ 24

structure Bounded (cfg : Cfg) (s : Sess) : Prop where
  st : ∀ i, StB cfg (s.streams i)
  cur : s.pos ≠ 0 → (s.streams s.inCsid).len ≤ (s.streams s.inCsid).hdr.mlen ∧ (s.streams s.inCsid).hdr.mlen ≤ cfg.maxMessage

theorem copyFrags_le (cap n : Nat) (bo : Bytes) (l : List Bytes) :
    (copyFrags cap n bo l).flatten.length ≤ bo.length + l.flatten.length := by
  induction n generalizing bo l with
  | zero => simp [copyFrags]
  | succ n ih =>
    cases l with
    | nil => simp [copyFrags]
    | cons bi rest =>
      simp only [copyFrags]
      split
      · have := ih (bo ++ bi) rest
        simp only [List.length_append, List.flatten_cons] at this ⊢
        omega
      · have := ih [] (bi.drop (cap - bo.length) :: rest)
        simp only [List.flatten_cons, List.length_append, List.length_drop, List.length_nil] at this ⊢
        omega

theorem parseMsgHdr_mlen (fmt : Nat) (st : Stream) (r : Bytes) (h : st.hdr.mlen < 2 ^ 24) :
    (parseMsgHdr fmt st r).1.mlen < 2 ^ 24 := by
  have hb : ∀ a b c : UInt8, beDec [a, b, c] < 2 ^ 24 := fun a b c => by
    have := beDec_lt [a, b, c]; simpa using this
  unfold parseMsgHdr
  by_cases h2 : fmt ≤ 2
  · rw [if_pos h2]
    rcases r with _ | ⟨t2, _ | ⟨t1, _ | ⟨t0, r⟩⟩⟩
    · exact h
    · exact h
    · exact h
    · simp only
      by_cases h1 : fmt ≤ 1
      · simp only [if_pos h1]
        rcases r with _ | ⟨m2, _ | ⟨m1, _ | ⟨m0, _ | ⟨ty, r⟩⟩⟩⟩
        · exact h
        · exact h
        · exact h
        · exact h
        · simp only
          by_cases h0 : fmt = 0
          · simp only [if_pos h0]
            rcases r with _ | ⟨s0, _ | ⟨s1, _ | ⟨s2, _ | ⟨s3, r⟩⟩⟩⟩ <;> exact hb _ _ _
          · simp only [if_neg h0]; exact hb _ _ _
      · simp only [if_neg h1]; exact h
  · rw [if_neg h2]; exact h

theorem applyTime_mlen (cfg : Cfg) (fmt ts : Nat) (ext : Bool) (st : Stream) :
    (applyTime cfg fmt ts ext st).hdr.mlen = st.hdr.mlen ∧ (applyTime cfg fmt ts ext st).len = st.len ∧
    (applyTime cfg fmt ts ext st).frags = st.frags := by
  unfold applyTime
  split
  · simp only; split <;> exact ⟨rfl, rfl, rfl⟩
  · exact ⟨rfl, rfl, rfl⟩

theorem bounded_set {cfg : Cfg} {s : Sess} {i : Nat} {st : Stream} (hb : ∀ j, StB cfg (s.streams j)) (hst : StB cfg st) :
    ∀ j, StB cfg ((s.setStream i st).streams j) := by
  intro j
  simp only [Sess.setStream]
  split
  · exact hst
  · exact hb j

theorem link_bounded {cfg : Cfg} {s : Sess} (c : Nat) (hb : ∀ j, StB cfg (s.streams j)) : ∀ j, StB cfg ((link s c).streams j) := by
  unfold link
  split
  · apply bounded_set
    · exact hb
    · exact ⟨(hb c).a, (hb c).b, (hb c).c, (hb c).d⟩
  · exact hb

theorem parseHeader_bounded {cfg : Cfg} {s : Sess} (hb : ∀ j, StB cfg (s.streams j)) :
    match parseHeader cfg s with
    | .more s' => ∀ j, StB cfg (s'.streams j)
    | .bad => True
    | .done s' => (∀ j, StB cfg (s'.streams j)) ∧ (s'.streams s'.inCsid).hdr.mlen ≤ cfg.maxMessage := by
  unfold parseHeader
  rcases hp : parseBasic s.buf with _ | ⟨fmt, csid, r1⟩
  · exact hb
  · by_cases hmax : csid ≥ cfg.maxStreams
    · simp only [if_pos hmax]
    · simp only [if_neg hmax]
      have hl := link_bounded (cfg := cfg) csid hb
      generalize link s csid = L at *
      have hml := parseMsgHdr_mlen fmt (L.streams L.inCsid) r1 (hl L.inCsid).c
      rcases hm : parseMsgHdr fmt (L.streams L.inCsid) r1 with ⟨h, _ | ⟨ts, ext, r2⟩⟩
      · rw [hm] at hml
        exact bounded_set hl ⟨(hl _).a, (hl _).b, hml, (hl _).d⟩
      · rw [hm] at hml
        simp only
        rcases he : parseExt fmt (L.streams L.inCsid).lastExt ts ext r2 with _ | ⟨ts', ext', le', r3⟩
        · exact bounded_set hl ⟨(hl _).a, (hl _).b, hml, (hl _).d⟩
        · simp only
          obtain ⟨e1, e2, e3⟩ := applyTime_mlen cfg fmt ts' ext' { L.streams L.inCsid with hdr := h, lastExt := le' }
          generalize applyTime cfg fmt ts' ext' { L.streams L.inCsid with hdr := h, lastExt := le' } = st at *
          by_cases hbig : st.hdr.mlen > cfg.maxMessage
          · simp only [if_pos hbig]
          · simp only [if_neg hbig]
            refine ⟨bounded_set hl ⟨?_, ?_, ?_, ?_⟩, ?_⟩
            · rw [e2, e3]; exact (hl _).a
            · rw [e2]; exact (hl _).b
            · rw [e1]; exact hml
            · rw [e2]; exact (hl _).d
            · show ((L.setStream L.inCsid st).streams L.inCsid).hdr.mlen ≤ _
              rw [setStream_same]; omega

theorem parseHeader_pos {cfg : Cfg} {s s' : Sess} (hz : s.pos = 0) (h : parseHeader cfg s = .more s') : s'.pos = 0 := by
  have := parseHeader_append cfg s [] hz
  rw [h] at this
  exact this.2.2.1

/-- The payload stage on a bounded state whose current message fits. -/
theorem payloadStage_bounded {cfg : Cfg} {h : σ → Msg → σ × HRc} {x : σ} {s : Sess} (P : σ → Prop)
    (hP : ∀ x m, P x → m.payload.length ≤ cfg.maxMessage → m.hdr.mlen ≤ cfg.maxMessage → P (h x m).1)
    (hx : P x) (hb : ∀ j, StB cfg (s.streams j))
    (hcur : (s.streams s.inCsid).len ≤ (s.streams s.inCsid).hdr.mlen ∧ (s.streams s.inCsid).hdr.mlen ≤ cfg.maxMessage) :
    match payloadStage h x s with
    | .more x' s' => P x' ∧ Bounded cfg s'
    | .err x' => P x'
    | .next x' s' => P x' ∧ Bounded cfg s'
    | .ub => False := by
  have hst := hb s.inCsid
  have hrem : remain (s.streams s.inCsid) = (s.streams s.inCsid).hdr.mlen - (s.streams s.inCsid).len := by
    refine remain_eq (by omega) ?_
    have := hst.c; omega
  by_cases h1 : s.buf.length - s.pos < min (remain (s.streams s.inCsid)) s.chunk
  · rw [payloadStage_more h1]
    exact ⟨hx, hb, fun _ => hcur⟩
  · by_cases h2 : remain (s.streams s.inCsid) > s.chunk
    · rw [payloadStage_frag h1 h2]
      refine ⟨hx, ?_, fun hh => absurd rfl hh⟩
      refine bounded_set hb ?_
      have hlt : add32 (s.streams s.inCsid).len s.chunk = (s.streams s.inCsid).len + s.chunk := by
        apply add32_lt; have := hst.c; omega
      rw [hrem] at h2
      refine ⟨?_, ?_, hst.c, ?_⟩
      · simp only [fragStream, hlt]
        have := hst.a
        simp only [List.flatten_append, List.length_append, List.flatten_cons, List.flatten_nil, List.append_nil, List.length_take]
        omega
      · simp only [fragStream, hlt]; omega
      · simp only [fragStream, hlt]; have := hst.c; omega
    · rw [payloadStage_msg h1 h2]
      have hpay : (doneMsg s).payload.length ≤ cfg.maxMessage := by
        simp only [doneMsg, List.length_append, List.length_take, hrem]
        have := hst.a; omega
      have hP' := hP x (doneMsg s) hx hpay hcur.2
      have hds : ∀ j, StB cfg ((doneSess s).streams j) := by
        refine bounded_set hb ⟨by simp, Nat.zero_le _, hst.c, by show 0 < 2 ^ 24; decide⟩
      rcases hh : h x (doneMsg s) with ⟨x', _ | _ | c⟩
      · rw [hh] at hP'; exact hP'
      · rw [hh] at hP'; exact ⟨hP', hds, fun hz => absurd rfl hz⟩
      · rw [hh] at hP'
        refine ⟨hP', ?_, fun hz => absurd rfl hz⟩
        intro j
        show StB cfg (if ((doneSess s).streams j).frags = [] then (doneSess s).streams j else _)
        split
        · exact hds j
        · refine ⟨?_, (hds j).b, (hds j).c, (hds j).d⟩
          have h3 := copyFrags_le (c + MAX_HEADER) (copyFuel ((doneSess s).streams j).frags) [] ((doneSess s).streams j).frags
          have h4 := (hds j).a
          simp only [List.length_nil, Nat.zero_add] at h3
          exact Nat.le_trans h3 h4

theorem step_bounded {cfg : Cfg} {h : σ → Msg → σ × HRc} (P : σ → Prop)
    (hP : ∀ x m, P x → m.payload.length ≤ cfg.maxMessage → m.hdr.mlen ≤ cfg.maxMessage → P (h x m).1)
    {c c' : σ × Sess} (hx : P c.1) (hb : Bounded cfg c.2) (hg : ¬ ShrinksMid cfg c.2) (hs : Step cfg h c c') :
    P c'.1 ∧ Bounded cfg c'.2 := by
  have key : ∀ x s, P x → Bounded cfg s → ¬ ShrinksMid cfg s →
      match process cfg h x s with
      | .more x' s' => P x' ∧ Bounded cfg s'
      | .err x' => P x'
      | .next x' s' => P x' ∧ Bounded cfg s'
      | .ub => False := by
    intro x s hx hb hg
    by_cases hz : s.pos = 0
    · have hph := parseHeader_bounded (cfg := cfg) hb.st
      cases hp : parseHeader cfg s with
      | more s' =>
        rw [process_more hz hp]
        rw [hp] at hph
        exact ⟨hx, hph, fun hne => absurd (parseHeader_pos hz hp) hne⟩
      | bad => rw [process_bad hz hp]; exact hx
      | done s' =>
        rw [process_done hz hp]
        rw [hp] at hph
        refine payloadStage_bounded P hP hx hph.1 ⟨?_, hph.2⟩
        apply Nat.le_of_not_lt
        intro hlt
        exact hg ⟨hz, s', hp, hlt⟩
    · rw [process_pos hz]
      exact payloadStage_bounded P hP hx hb.st (hb.cur hz)
  cases hs with
  | recv x s ys => exact ⟨hx, hb.st, hb.cur⟩
  | more x x' s s' hp =>
    have := key x s hx hb hg
    rw [hp] at this
    exact this
  | next x x' s s' hp =>
    have := key x s hx hb hg
    rw [hp] at this
    exact this

theorem bounded_init (cfg : Cfg) (chunk : Nat) : Bounded cfg (Sess.init chunk) := by
  refine ⟨fun i => ⟨?_, ?_, ?_, ?_⟩, fun h => absurd rfl h⟩ <;> simp [Sess.init]

/-- A complete header announcing too much. -/
theorem parseHeader_too_big {cfg : Cfg} {s : Sess} {fmt csid ts ts' le' : Nat} {ext ext' : Bool} {h : Hdr} {r1 r2 r3 : Bytes}
    (hz : s.inCsid = 0) (h1 : parseBasic s.buf = some (fmt, csid, r1)) (hmax : csid < cfg.maxStreams)
    (h2 : parseMsgHdr fmt { s.streams csid with hdr := { (s.streams csid).hdr with csid := csid } } r1 =
      (h, some (ts, ext, r2)))
    (h3 : parseExt fmt (s.streams csid).lastExt ts ext r2 = some (ts', ext', le', r3))
    (h4 : h.mlen > cfg.maxMessage) : parseHeader cfg s = .bad := by
  unfold parseHeader
  rw [h1]
  have hl : link s csid = { s with inCsid := csid }.setStream csid
      { s.streams csid with hdr := { (s.streams csid).hdr with csid := csid } } := by
    simp only [link, hz, ↓reduceIte]
  have e1 : (link s csid).inCsid = csid := by rw [hl]; rfl
  have e2 : (link s csid).streams csid = { s.streams csid with hdr := { (s.streams csid).hdr with csid := csid } } := by
    rw [hl]; exact setStream_same _ _ _
  simp only [if_neg (Nat.not_le.2 hmax), e1, e2, h2, h3]
  rw [if_pos]
  rw [(applyTime_mlen cfg fmt ts' ext' _).1]
  exact h4

end Verif.Chunk
