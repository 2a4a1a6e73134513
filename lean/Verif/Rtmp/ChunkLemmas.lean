import Verif.Rtmp.ChunkModel
namespace Verif.Chunk
variable {σ : Type}

/-- Append bytes to the input buffer. -/
def Sess.add (s : Sess) (ys : Bytes) : Sess := { s with buf := s.buf ++ ys }

theorem add_nil (s : Sess) : s.add [] = s := by simp [Sess.add]
theorem add_add (s : Sess) (a b : Bytes) : (s.add a).add b = s.add (a ++ b) := by simp [Sess.add]

theorem parseBasic_append {b r : Bytes} {f c : Nat} (ys : Bytes) (h : parseBasic b = some (f, c, r)) :
    parseBasic (b ++ ys) = some (f, c, r ++ ys) ∧ r.length < b.length ∧ 2 ≤ c ∧ f ≤ 3 := by
  cases b with
  | nil => simp [parseBasic] at h
  | cons b0 b =>
    have hf : b0.toNat / 64 ≤ 3 := by have := b0.toNat_lt; omega
    simp only [parseBasic, List.cons_append] at h ⊢
    by_cases h0 : b0.toNat % 64 = 0
    · simp only [h0, ↓reduceIte] at h ⊢
      cases b with
      | nil => simp at h
      | cons b1 b => simp at h; obtain ⟨rfl, rfl, rfl⟩ := h; simp; omega
    · simp only [h0, ↓reduceIte] at h ⊢
      by_cases h1 : b0.toNat % 64 = 1
      · simp only [h1, ↓reduceIte] at h ⊢
        rcases b with _ | ⟨b1, _ | ⟨b2, b⟩⟩
        · simp at h
        · simp at h
        · simp at h; obtain ⟨rfl, rfl, rfl⟩ := h; simp; omega
      · simp only [h1, ↓reduceIte] at h ⊢
        simp at h; obtain ⟨rfl, rfl, rfl⟩ := h; simp; omega

theorem parseMsgHdr_rehdr (fmt : Nat) (st : Stream) (r ys : Bytes) :
    parseMsgHdr fmt { st with hdr := (parseMsgHdr fmt st r).1 } (r ++ ys) = parseMsgHdr fmt st (r ++ ys) := by
  unfold parseMsgHdr
  by_cases h2 : fmt ≤ 2
  · simp only [h2, ↓reduceIte]
    rcases r with _ | ⟨t2, _ | ⟨t1, _ | ⟨t0, r⟩⟩⟩
    · rfl
    · rfl
    · rfl
    · simp only [List.cons_append]
      by_cases h1 : fmt ≤ 1
      · simp only [h1, ↓reduceIte]
        rcases r with _ | ⟨m2, _ | ⟨m1, _ | ⟨m0, _ | ⟨ty, r⟩⟩⟩⟩
        · rfl
        · rfl
        · rfl
        · rfl
        · simp only [List.cons_append]
          by_cases h0 : fmt = 0
          · simp only [h0, ↓reduceIte]
            rcases r with _ | ⟨s0, _ | ⟨s1, _ | ⟨s2, _ | ⟨s3, r⟩⟩⟩⟩ <;> rfl
          · simp only [h0, ↓reduceIte]
      · simp only [h1, ↓reduceIte]
  · simp only [h2, ↓reduceIte]

theorem parseMsgHdr_append {fmt : Nat} {st : Stream} {r r2 : Bytes} {h : Hdr} {ts : Nat} {e : Bool} (ys : Bytes)
    (hp : parseMsgHdr fmt st r = (h, some (ts, e, r2))) :
    parseMsgHdr fmt st (r ++ ys) = (h, some (ts, e, r2 ++ ys)) ∧ r2.length ≤ r.length := by
  unfold parseMsgHdr at hp ⊢
  by_cases h2 : fmt ≤ 2
  · simp only [h2, ↓reduceIte] at hp ⊢
    rcases r with _ | ⟨t2, _ | ⟨t1, _ | ⟨t0, r⟩⟩⟩
    · simp at hp
    · simp at hp
    · simp at hp
    · simp only [List.cons_append] at hp ⊢
      by_cases h1 : fmt ≤ 1
      · simp only [h1, ↓reduceIte] at hp ⊢
        rcases r with _ | ⟨m2, _ | ⟨m1, _ | ⟨m0, _ | ⟨ty, r⟩⟩⟩⟩
        · simp at hp
        · simp at hp
        · simp at hp
        · simp at hp
        · simp only [List.cons_append] at hp ⊢
          by_cases h0 : fmt = 0
          · simp only [h0, ↓reduceIte] at hp ⊢
            rcases r with _ | ⟨s0, _ | ⟨s1, _ | ⟨s2, _ | ⟨s3, r⟩⟩⟩⟩
            · simp at hp
            · simp at hp
            · simp at hp
            · simp at hp
            · simp only [Prod.mk.injEq, Option.some.injEq] at hp
              obtain ⟨rfl, rfl, rfl, rfl⟩ := hp
              simp; omega
          · simp only [h0, ↓reduceIte, Prod.mk.injEq, Option.some.injEq] at hp ⊢
            obtain ⟨rfl, rfl, rfl, rfl⟩ := hp
            simp; omega
      · simp only [h1, ↓reduceIte, Prod.mk.injEq, Option.some.injEq] at hp ⊢
        obtain ⟨rfl, rfl, rfl, rfl⟩ := hp
        simp; omega
  · simp only [h2, ↓reduceIte, Prod.mk.injEq, Option.some.injEq] at hp ⊢
    obtain ⟨rfl, rfl, rfl, rfl⟩ := hp
    simp

theorem parseMsgHdr_csid (fmt : Nat) (st : Stream) (r : Bytes) : (parseMsgHdr fmt st r).1.csid = st.hdr.csid := by
  unfold parseMsgHdr
  repeat' (first | rfl | split)

theorem parseExt_append {fmt le ts : Nat} {e : Bool} {r r3 : Bytes} {ts' le' : Nat} {e' : Bool} (ys : Bytes)
    (hp : parseExt fmt le ts e r = some (ts', e', le', r3)) :
    parseExt fmt le ts e (r ++ ys) = some (ts', e', le', r3 ++ ys) ∧ r3.length ≤ r.length := by
  unfold parseExt at hp ⊢
  cases e with
  | false =>
    simp only [Bool.false_eq_true, ↓reduceIte, Option.some.injEq, Prod.mk.injEq] at hp ⊢
    obtain ⟨rfl, rfl, rfl, rfl⟩ := hp
    simp
  | true =>
    simp only [↓reduceIte] at hp ⊢
    rcases r with _ | ⟨e3, _ | ⟨e2, _ | ⟨e1, _ | ⟨e0, r⟩⟩⟩⟩
    · simp at hp
    · simp at hp
    · simp at hp
    · simp at hp
    · simp only [List.cons_append] at hp ⊢
      by_cases hc : beDec [e3, e2, e1, e0] ≠ le ∧ fmt = 3
      · rw [if_pos hc] at hp ⊢
        simp only [Option.some.injEq, Prod.mk.injEq] at hp ⊢
        obtain ⟨rfl, rfl, rfl, rfl⟩ := hp
        simp
      · rw [if_neg hc] at hp ⊢
        simp only [Option.some.injEq, Prod.mk.injEq] at hp ⊢
        obtain ⟨rfl, rfl, rfl, rfl⟩ := hp
        simp; omega

theorem setStream_setStream (s : Sess) (i : Nat) (a b : Stream) : (s.setStream i a).setStream i b = s.setStream i b := by
  simp only [Sess.setStream]
  congr 1
  funext j
  by_cases h : j = i <;> simp [h]

theorem setStream_same (s : Sess) (i : Nat) (a : Stream) : (s.setStream i a).streams i = a := by simp [Sess.setStream]

theorem link_of_ne {s : Sess} (c : Nat) (h : s.inCsid ≠ 0) : link s c = s := by simp [link, h]

theorem link_inCsid_ne {s : Sess} {c : Nat} (hc : 2 ≤ c) : (link s c).inCsid ≠ 0 := by
  unfold link
  split
  · simp [Sess.setStream]; omega
  · assumption

theorem link_add (s : Sess) (c : Nat) (ys : Bytes) : link (s.add ys) c = (link s c).add ys := by
  unfold link Sess.add
  by_cases h : s.inCsid = 0 <;> simp [h, Sess.setStream]

theorem setStream_add (s : Sess) (i : Nat) (a : Stream) (ys : Bytes) :
    (s.setStream i a).add ys = (s.add ys).setStream i a := rfl

theorem link_buf (s : Sess) (c : Nat) : (link s c).buf = s.buf ∧ (link s c).pos = s.pos ∧ (link s c).chunk = s.chunk := by
  unfold link; split <;> simp [Sess.setStream]

/-- The header stage does not depend on whether the bytes came at once. -/
theorem parseHeader_append (cfg : Cfg) (s : Sess) (ys : Bytes) (hpos : s.pos = 0) :
    match parseHeader cfg s with
    | .done s' => parseHeader cfg (s.add ys) = .done (s'.add ys) ∧ s'.buf = s.buf ∧ 0 < s'.pos ∧ s'.pos ≤ s.buf.length ∧
        s'.chunk = s.chunk
    | .bad => parseHeader cfg (s.add ys) = .bad
    | .more s' => parseHeader cfg (s'.add ys) = parseHeader cfg (s.add ys) ∧ s'.buf = s.buf ∧ s'.pos = 0 ∧
        s'.chunk = s.chunk := by
  cases hb : parseBasic s.buf with
  | none =>
    have : parseHeader cfg s = .more s := by simp [parseHeader, hb]
    rw [this]; exact ⟨rfl, rfl, hpos, rfl⟩
  | some v =>
    obtain ⟨fmt, csid, r1⟩ := v
    obtain ⟨hb', hr1, hc2, hf⟩ := parseBasic_append ys hb
    by_cases hmax : csid ≥ cfg.maxStreams
    · have e1 : parseHeader cfg s = .bad := by simp [parseHeader, hb, hmax]
      rw [e1]
      simp [parseHeader, Sess.add, hb', hmax]
    · have hl := link_buf s csid
      have hne := link_inCsid_ne (s := s) hc2
      -- common form of the parse of any state with the same bytes
      have form : ∀ (t : Sess), t.buf = s.buf ++ ys → (link t csid) = t →
          parseHeader cfg t =
            match parseMsgHdr fmt (t.streams t.inCsid) (r1 ++ ys) with
            | (h, none) => .more (t.setStream t.inCsid { t.streams t.inCsid with hdr := h })
            | (h, some (ts, ext, r2)) =>
              match parseExt fmt (t.streams t.inCsid).lastExt ts ext r2 with
              | none => .more (t.setStream t.inCsid { t.streams t.inCsid with hdr := h })
              | some (ts, ext, lastExt, r3) =>
                let st := applyTime cfg fmt ts ext { t.streams t.inCsid with hdr := h, lastExt := lastExt }
                if st.hdr.mlen > cfg.maxMessage then .bad
                else .done { t.setStream t.inCsid st with pos := t.buf.length - r3.length } := by
        intro t ht hlk
        unfold parseHeader
        rw [show parseBasic t.buf = some (fmt, csid, r1 ++ ys) by rw [ht]; exact hb']
        simp only [if_neg hmax, hlk]
        rfl
      have formS : parseHeader cfg (s.add ys) = parseHeader cfg ((link s csid).add ys) := by
        have h1 : link ((link s csid).add ys) csid = (link s csid).add ys := link_of_ne _ hne
        have hbuf : ((link s csid).add ys).buf = s.buf ++ ys := by simp [Sess.add, hl.1]
        unfold parseHeader
        rw [hbuf, show (s.add ys).buf = s.buf ++ ys from rfl, hb']
        simp only [if_neg hmax, h1, link_add]
      have form0 : parseHeader cfg s =
            match parseMsgHdr fmt ((link s csid).streams (link s csid).inCsid) r1 with
            | (h, none) => .more ((link s csid).setStream (link s csid).inCsid
                { (link s csid).streams (link s csid).inCsid with hdr := h })
            | (h, some (ts, ext, r2)) =>
              match parseExt fmt ((link s csid).streams (link s csid).inCsid).lastExt ts ext r2 with
              | none => .more ((link s csid).setStream (link s csid).inCsid
                  { (link s csid).streams (link s csid).inCsid with hdr := h })
              | some (ts, ext, lastExt, r3) =>
                let st := applyTime cfg fmt ts ext
                  { (link s csid).streams (link s csid).inCsid with hdr := h, lastExt := lastExt }
                if st.hdr.mlen > cfg.maxMessage then .bad
                else .done { (link s csid).setStream (link s csid).inCsid st with
                  pos := (link s csid).buf.length - r3.length } := by
        unfold parseHeader
        rw [hb]
        simp only [if_neg hmax]
        rfl
      rw [form0, formS]
      generalize hL : link s csid = L at *
      have hLadd : ∀ ys, link (L.add ys) csid = L.add ys := fun ys => link_of_ne _ hne
      have fL := form (L.add ys) (by simp [Sess.add, hl.1]) (hLadd ys)
      simp only [show (L.add ys).inCsid = L.inCsid from rfl, show (L.add ys).streams = L.streams from rfl] at fL
      generalize hst : L.streams L.inCsid = st at *
      have hre := parseMsgHdr_rehdr fmt st r1 ys
      rcases hm : parseMsgHdr fmt st r1 with ⟨h, _ | ⟨ts, ext, r2⟩⟩
      · -- message header incomplete
        rw [hm] at hre
        simp only
        refine ⟨?_, hl.1, by rw [← hpos, ← hl.2.1]; rfl, hl.2.2⟩
        have f2 := form ((L.setStream L.inCsid { st with hdr := h }).add ys) (by simp [Sess.add, Sess.setStream, hl.1])
          (link_of_ne _ hne)
        rw [f2, fL]
        simp only [setStream_add, show ((L.add ys).setStream L.inCsid { st with hdr := h }).inCsid = L.inCsid from rfl,
          setStream_same, setStream_setStream, hre]
        rfl
      · obtain ⟨hm', hr2⟩ := parseMsgHdr_append ys hm
        rw [hm] at hre
        simp only
        rcases he : parseExt fmt st.lastExt ts ext r2 with _ | ⟨ts', ext', le', r3⟩
        · simp only
          refine ⟨?_, hl.1, by rw [← hpos, ← hl.2.1]; rfl, hl.2.2⟩
          have f2 := form ((L.setStream L.inCsid { st with hdr := h }).add ys) (by simp [Sess.add, Sess.setStream, hl.1])
            (link_of_ne _ hne)
          rw [f2, fL]
          simp only [setStream_add, show ((L.add ys).setStream L.inCsid { st with hdr := h }).inCsid = L.inCsid from rfl,
            setStream_same, setStream_setStream, hre]
          rfl
        · obtain ⟨he', hr3⟩ := parseExt_append ys he
          simp only
          rw [fL]
          simp only [hm', he']
          have hlen : r3.length < L.buf.length := by rw [hl.1]; omega
          have hsub : (L.add ys).buf.length - (r3 ++ ys).length = L.buf.length - r3.length := by
            simp only [Sess.add, List.length_append]; omega
          rw [hsub]
          by_cases hbig : (applyTime cfg fmt ts' ext' { st with hdr := h, lastExt := le' }).hdr.mlen > cfg.maxMessage
          · simp only [if_pos hbig]
          · simp only [if_neg hbig]
            refine ⟨rfl, hl.1, by omega, by rw [hl.1]; omega, hl.2.2⟩

end Verif.Chunk
