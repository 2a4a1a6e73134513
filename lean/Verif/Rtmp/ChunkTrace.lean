import Verif.Rtmp.ChunkSafe
import Verif.Rtmp.ChunkSpec
/- Simulation between the conforming sender of ChunkSpec and the receiver model. -/
namespace Verif.Chunk
open Verif.Chunk.Spec
variable {σ : Type}

theorem remain_eq {st : Stream} {n : Nat} (h : st.hdr.mlen = st.len + n) (hl : st.hdr.mlen < 2 ^ 32) : remain st = n := by
  unfold remain
  rw [h] at hl ⊢
  rw [show st.len + n + 2 ^ 32 - st.len = n + 2 ^ 32 by omega, Nat.add_mod_right, Nat.mod_eq_of_lt (by omega)]

theorem add32_lt {a b : Nat} (h : a + b < 2 ^ 32) : add32 a b = a + b := by
  unfold add32; exact Nat.mod_eq_of_lt h

theorem add32_zero {a : Nat} (h : a < 2 ^ 32) : add32 a 0 = a := add32_lt (by omega)

/-! Header encodings are parsed back -/

theorem parseBasic_enc (wide : Bool) (fmt csid : Nat) (r : Bytes) (hf : fmt ≤ 3) (h2 : 2 ≤ csid) (hc : csid < 65600) :
    parseBasic (encBasic wide fmt csid ++ r) = some (fmt, csid, r) := by
  unfold encBasic
  by_cases h64 : csid < 64
  · rw [if_pos h64]
    have e : (UInt8.ofNat (fmt * 64 + csid)).toNat = fmt * 64 + csid := by
      rw [UInt8.toNat_ofNat']; omega
    simp only [List.cons_append, List.nil_append, parseBasic, e]
    rw [if_neg (by omega), if_neg (by omega)]
    simp only [Option.some.injEq, Prod.mk.injEq, and_true]; omega
  · rw [if_neg h64]
    by_cases h3 : csid < 320 ∧ wide = false
    · rw [if_pos h3]
      have e : (UInt8.ofNat (fmt * 64)).toNat = fmt * 64 := by rw [UInt8.toNat_ofNat']; omega
      have e2 : (UInt8.ofNat (csid - 64)).toNat = csid - 64 := by rw [UInt8.toNat_ofNat']; omega
      simp only [List.cons_append, List.nil_append, parseBasic, e, e2]
      rw [if_pos (by omega)]
      simp only [Option.some.injEq, Prod.mk.injEq, and_true]; omega
    · rw [if_neg h3]
      have e : (UInt8.ofNat (fmt * 64 + 1)).toNat = fmt * 64 + 1 := by rw [UInt8.toNat_ofNat']; omega
      have e2 : (UInt8.ofNat (csid - 64)).toNat = (csid - 64) % 256 := by rw [UInt8.toNat_ofNat']
      have e3 : (UInt8.ofNat ((csid - 64) / 256)).toNat = (csid - 64) / 256 := by rw [UInt8.toNat_ofNat']; omega
      simp only [leEnc, List.cons_append, List.nil_append, parseBasic, e, e2, e3]
      rw [if_neg (by omega), if_pos (by omega)]
      simp only [Option.some.injEq, Prod.mk.injEq, and_true]; omega

theorem encBasic_pos (wide : Bool) (fmt csid : Nat) : 0 < (encBasic wide fmt csid).length := by
  unfold encBasic; split
  · simp
  · split <;> simp

theorem beEnc3 (n : Nat) : ∃ a b c, beEnc 3 n = [a, b, c] := ⟨_, _, _, rfl⟩
theorem beEnc4 (n : Nat) : ∃ a b c d, beEnc 4 n = [a, b, c, d] := ⟨_, _, _, _, rfl⟩
theorem leEnc4 (n : Nat) : ∃ a b c d, leEnc 4 n = [a, b, c, d] := ⟨_, _, _, _, rfl⟩

/-- Header structure after a header of format `fmt`. -/
def newHdr (h : Hdr) (fmt mlen type msid : Nat) : Hdr :=
  if fmt = 0 then { h with mlen := mlen, type := type, msid := msid }
  else if fmt ≤ 1 then { h with mlen := mlen, type := type }
  else h

theorem parseMsgHdr_enc (fmt t mlen type msid : Nat) (st : Stream) (r : Bytes)
    (hm : mlen < 2 ^ 24) (hty : type < 256) (hs : msid < 2 ^ 32) :
    parseMsgHdr fmt st ((if fmt ≤ 2 then beEnc 3 (min t 0xffffff) else []) ++
      (if fmt ≤ 1 then beEnc 3 mlen ++ [UInt8.ofNat type] else []) ++ (if fmt = 0 then leEnc 4 msid else []) ++ r) =
    (newHdr st.hdr fmt mlen type msid,
      some (if fmt ≤ 2 then min t 0xffffff else st.dtime, if fmt ≤ 2 then decide (t ≥ 0xffffff) else st.ext, r)) := by
  have ety : (UInt8.ofNat type).toNat = type := by rw [UInt8.toNat_ofNat']; omega
  have d1 : beDec (beEnc 3 (min t 0xffffff)) = min t 0xffffff := beDec_beEnc_of_lt (by omega)
  have d2 : beDec (beEnc 3 mlen) = mlen := beDec_beEnc_of_lt (by omega)
  have d3 : leDec (leEnc 4 msid) = msid := by rw [leDec_leEnc, Nat.mod_eq_of_lt (by omega)]
  have dext : ((min t 0xffffff) == 0xffffff) = decide (t ≥ 0xffffff) := by
    by_cases h : t ≥ 0xffffff
    · rw [Nat.min_eq_right h]; simp [h]
    · rw [Nat.min_eq_left (by omega)]; simp [h]; omega
  obtain ⟨a, b, c, e1⟩ := beEnc3 (min t 0xffffff)
  obtain ⟨a', b', c', e2⟩ := beEnc3 mlen
  obtain ⟨p, q, u, v, e3⟩ := leEnc4 msid
  rw [e1] at d1 ⊢
  rw [e2] at d2 ⊢
  rw [e3] at d3 ⊢
  unfold parseMsgHdr newHdr
  by_cases h0 : fmt = 0
  · subst h0
    simp [d1, d2, d3, ety, dext]
  · by_cases h1 : fmt ≤ 1
    · have h2 : fmt ≤ 2 := by omega
      simp [h0, h1, h2, d1, d2, ety, dext]
    · by_cases h2 : fmt ≤ 2
      · simp [h0, h1, h2, d1, dext]
      · simp [h0, h1, h2]

theorem parseExt_none_wire (fmt le ts : Nat) (r : Bytes) : parseExt fmt le ts false r = some (ts, false, le, r) := by
  simp [parseExt]

theorem parseExt_wire (fmt le ts v : Nat) (r : Bytes) (hv : v < 2 ^ 32) (h : fmt = 3 → v = le) :
    parseExt fmt le ts true (beEnc 4 v ++ r) = some (v, true, v, r) := by
  have d : beDec (beEnc 4 v) = v := beDec_beEnc_of_lt (by omega)
  obtain ⟨a, b, c, e, e1⟩ := beEnc4 v
  rw [e1] at d ⊢
  simp only [parseExt, ↓reduceIte, List.cons_append, List.nil_append, d]
  rw [if_neg]
  rintro ⟨h1, h2⟩
  exact h1 (h h2)

/-- The header stage on known bytes. -/
theorem parseHeader_known {cfg : Cfg} {s : Sess} {fmt csid ts ts' le' : Nat} {ext ext' : Bool} {h : Hdr} {r1 r2 r3 : Bytes}
    (hz : s.inCsid = 0) (h1 : parseBasic s.buf = some (fmt, csid, r1)) (hmax : csid < cfg.maxStreams)
    (h2 : parseMsgHdr fmt { s.streams csid with hdr := { (s.streams csid).hdr with csid := csid } } r1 =
      (h, some (ts, ext, r2)))
    (h3 : parseExt fmt (s.streams csid).lastExt ts ext r2 = some (ts', ext', le', r3))
    (h4 : (applyTime cfg fmt ts' ext' { s.streams csid with hdr := h, lastExt := le' }).hdr.mlen ≤ cfg.maxMessage) :
    parseHeader cfg s = .done { s.setStream csid
      (applyTime cfg fmt ts' ext' { s.streams csid with hdr := h, lastExt := le' }) with
      inCsid := csid, pos := s.buf.length - r3.length } := by
  unfold parseHeader
  rw [h1]
  have hl : link s csid = { s with inCsid := csid }.setStream csid
      { s.streams csid with hdr := { (s.streams csid).hdr with csid := csid } } := by
    simp only [link, hz, ↓reduceIte]
  have e1 : (link s csid).inCsid = csid := by rw [hl]; rfl
  have e2 : (link s csid).streams csid = { s.streams csid with hdr := { (s.streams csid).hdr with csid := csid } } := by
    rw [hl]; exact setStream_same _ _ _
  simp only [if_neg (Nat.not_le.2 hmax), e1, e2, h2, h3]
  rw [if_neg (Nat.not_lt.2 h4)]
  congr 1
  rw [hl, setStream_setStream]
  rfl

/-- Relation between the receiver's and the sender's record of a chunk stream, between two chunks. -/
structure SimSt (cfg : Cfg) (r : Stream) (t : SS) : Prop where
  mlen : r.hdr.mlen = t.mlen
  type : r.hdr.type = t.type
  msid : r.hdr.msid = t.msid
  ext : r.ext = (t.ext && cfg.publishTimeFix)
  lastExt : r.lastExt = t.extv
  len : r.len = t.sent.length
  frags : r.frags.flatten = t.sent
  dtime : r.dtime = t.delta
  idle : t.rest = [] → t.sent = [] ∧ r.frags = [] ∧ r.hdr.ts = t.ts
  busy : t.rest ≠ [] → t.sent ≠ [] ∧ add32 r.hdr.ts r.dtime = t.ts ∧ t.mlen = t.sent.length + t.rest.length
  small : t.mlen < 2 ^ 24
  tsmall : t.ts < 2 ^ 32
  max : t.rest ≠ [] → t.mlen ≤ cfg.maxMessage
  extd : t.fmt0 = false → t.ext = decide (t.delta ≥ 0xffffff) ∧ (t.ext = true → t.extv = t.delta)
  d0 : t.fmt0 = true → t.delta = 0
  extv : t.extv < 2 ^ 32

structure Sim (cfg : Cfg) (s : Sess) (d : Snd) : Prop where
  chunk : s.chunk = d.chunk
  pos1 : 1 ≤ d.chunk
  csid : s.inCsid = 0
  buf : s.buf = []
  pos : s.pos = 0
  st : ∀ i, SimSt cfg (s.streams i) (d.st i)

theorem sim_init (cfg : Cfg) (chunk : Nat) (hc : 1 ≤ chunk) : Sim cfg (Sess.init chunk) (Snd.init chunk) := by
  refine ⟨rfl, hc, rfl, rfl, rfl, fun i => ?_⟩
  constructor <;> simp [Sess.init, Snd.init]

/-- Relation after the header of a chunk was parsed. -/
structure Mid (cfg : Cfg) (csid : Nat) (r : Stream) (t : SS) : Prop where
  hcsid : r.hdr.csid = csid
  mlen : r.hdr.mlen = t.mlen
  type : r.hdr.type = t.type
  msid : r.hdr.msid = t.msid
  ext : r.ext = (t.ext && cfg.publishTimeFix)
  lastExt : r.lastExt = t.extv
  len : r.len = t.sent.length
  frags : r.frags.flatten = t.sent
  dtime : r.dtime = t.delta
  ts : add32 r.hdr.ts r.dtime = t.ts
  total : t.mlen = t.sent.length + t.rest.length
  small : t.mlen < 2 ^ 24
  tsmall : t.ts < 2 ^ 32
  max : t.mlen ≤ cfg.maxMessage
  extd : t.fmt0 = false → t.ext = decide (t.delta ≥ 0xffffff) ∧ (t.ext = true → t.extv = t.delta)
  d0 : t.fmt0 = true → t.delta = 0
  extv : t.extv < 2 ^ 32

/-- Data that fits one buffer survives the copy. -/
theorem copyFrags_small (cap n : Nat) (l : List Bytes) (bo : Bytes) (h : bo.length + l.flatten.length ≤ cap)
    (hn : l.length + l.flatten.length + 1 ≤ n) : copyFrags cap n bo l = [bo ++ l.flatten] := by
  induction n generalizing bo l with
  | zero => omega
  | succ n ih =>
    cases l with
    | nil => simp [copyFrags]
    | cons bi rest =>
      simp only [List.flatten_cons, List.length_append, List.length_cons] at h hn ⊢
      simp only [copyFrags]
      rw [if_pos (by omega), ih rest (bo ++ bi) (by rw [List.length_append]; omega) (by omega)]
      simp

attribute [local irreducible] payloadStage process Sess.add

/-- A chunk whose processing ends with an empty buffer. -/
theorem feed_one {cfg : Cfg} {h : σ → Msg → σ × HRc} {x : σ} {s : Sess} {ys : Bytes} (hb : s.buf = []) (hne : ys ≠ []) :
    (∀ x' s', process cfg h x (s.add ys) = .next x' s' → s'.buf = [] → feed cfg h x s ys = .idle x' s') ∧
    (∀ x', process cfg h x (s.add ys) = .err x' → feed cfg h x s ys = .err x') := by
  have hbuf : (s.add ys).buf = ys := by rw [add_buf, hb]; rfl
  obtain ⟨n, hn⟩ : ∃ n, ys.length = n + 1 := ⟨ys.length - 1, by have := List.length_pos_iff.2 hne; omega⟩
  constructor
  · intro x' s' hp hs
    simp only [feed, hbuf, hn, absorb, hne, ↓reduceIte, hp]
    cases n <;> simp [absorb, hs]
  · intro x' hp
    simp only [feed, hbuf, hn, absorb, hne, ↓reduceIte, hp]

/-- One chunk, once the header is known to be parsed right. -/
theorem chunk_step {cfg : Cfg} {h : σ → Msg → σ × HRc} {x : σ} {s : Sess} {d : Snd} {t : SS} {csid : Nat} {hb : Bytes}
    {r : Stream} (hs : Sim cfg s d) (hne : hb ≠ []) (hm : Mid cfg csid r t)
    (hp : parseHeader cfg (s.add (hb ++ t.rest.take d.chunk)) =
      .done { (s.add (hb ++ t.rest.take d.chunk)).setStream csid r with inCsid := csid, pos := hb.length })
    (hnc : t.rest.length ≤ d.chunk → ∀ x' c, h x ⟨⟨csid, t.ts, t.mlen, t.type, t.msid⟩, t.sent ++ t.rest⟩ = (x', .newChunk c) →
      1 ≤ c ∧ ∀ i, i ≠ csid → (d.st i).sent.length ≤ c + 18) :
    match (t.take csid d.chunk) with
    | (t', none) => ∃ s', feed cfg h x s (hb ++ t.rest.take d.chunk) = .idle x s' ∧ Sim cfg s' (d.set csid t')
    | (t', some m) =>
      match react (d.set csid t') (h x m) with
      | .live x' d' => ∃ s', feed cfg h x s (hb ++ t.rest.take d.chunk) = .idle x' s' ∧ Sim cfg s' d'
      | .closed x' => feed cfg h x s (hb ++ t.rest.take d.chunk) = .err x' := by
  have hz : (s.add (hb ++ t.rest.take d.chunk)).pos = 0 := by rw [add_pos, hs.pos]
  have hbuf : (s.add (hb ++ t.rest.take d.chunk)).buf = hb ++ t.rest.take d.chunk := by rw [add_buf, hs.buf]; rfl
  have hch : (s.add (hb ++ t.rest.take d.chunk)).chunk = d.chunk := by rw [add_chunk, hs.chunk]
  have hstr : (s.add (hb ++ t.rest.take d.chunk)).streams = s.streams := by
    simp [Sess.add]
  have hall : hb ++ t.rest.take d.chunk ≠ [] := by simp [hne]
  obtain ⟨hf1, hf2⟩ := feed_one (cfg := cfg) (h := h) (x := x) hs.buf hall
  have hproc := process_done (h := h) (x := x) hz hp
  rw [hproc] at hf1 hf2
  clear hproc hp
  generalize hS : ({ (s.add (hb ++ t.rest.take d.chunk)).setStream csid r with inCsid := csid, pos := hb.length } : Sess) = S at *
  have c1 : S.inCsid = csid := by rw [← hS]
  have c2 : S.pos = hb.length := by rw [← hS]
  have c3 : S.buf = hb ++ t.rest.take d.chunk := by rw [← hS]; exact hbuf
  have c4 : S.chunk = d.chunk := by rw [← hS]; exact hch
  have c5 : S.streams S.inCsid = r := by rw [c1, ← hS]; exact setStream_same _ _ _
  have c6 : ∀ i, i ≠ csid → S.streams i = s.streams i := by
    intro i hi
    rw [← hS]
    simp only [Sess.setStream, hi, ↓reduceIte, hstr]
  clear hS hz hbuf hch hstr hall
  have hrem : remain (S.streams S.inCsid) = t.rest.length := by
    rw [c5]
    refine remain_eq ?_ ?_
    · rw [hm.mlen, hm.len, hm.total]
    · rw [hm.mlen]; have := hm.small; omega
  have hdrop : S.buf.drop S.pos = t.rest.take d.chunk := by rw [c3, c2]; simp
  have hsize : S.buf.length - S.pos = min d.chunk t.rest.length := by
    rw [c3, c2]; simp
  have hc1 : ¬ S.buf.length - S.pos < min (remain (S.streams S.inCsid)) S.chunk := by
    rw [hsize, hrem, c4]; omega
  unfold SS.take
  by_cases hle : t.rest.length ≤ d.chunk
  · rw [if_pos hle]
    have hc2 : ¬ remain (S.streams S.inCsid) > S.chunk := by rw [hrem, c4]; omega
    rw [payloadStage_msg hc1 hc2] at hf1 hf2
    have htk : t.rest.take d.chunk = t.rest := List.take_of_length_le hle
    have hmsg : doneMsg S = ⟨⟨csid, t.ts, t.mlen, t.type, t.msid⟩, t.sent ++ t.rest⟩ := by
      simp only [doneMsg]
      rw [hrem, hdrop, c5, htk, hm.ts, hm.frags, List.take_length]
      rw [← hm.hcsid, ← hm.mlen, ← hm.type, ← hm.msid]
    have hsim : ∀ c, Sim cfg { doneSess S with chunk := c } { (d.set csid { t with sent := [], rest := [] }) with chunk := c } ∨ c = 0 := by
      intro c
      by_cases hc : c = 0
      · exact Or.inr hc
      refine Or.inl ⟨rfl, by show 1 ≤ c; omega, rfl, ?_, rfl, ?_⟩
      · show S.buf.drop (S.pos + remain (S.streams S.inCsid)) = []
        rw [hrem, ← List.drop_drop, hdrop]
        rw [htk]; simp
      · intro i
        by_cases hi : i = csid
        · subst hi
          have e1 : ({ doneSess S with chunk := c } : Sess).streams i =
              { r with hdr := (doneMsg S).hdr, len := 0, frags := [] } := by
            show (doneSess S).streams i = _
            rw [← c5, ← c1]
            exact setStream_same _ _ _
          have e2 : ({ (d.set i { t with sent := [], rest := [] }) with chunk := c } : Snd).st i =
              { t with sent := [], rest := [] } := by simp [Snd.set]
          rw [e1, e2, hmsg]
          exact {
            mlen := rfl
            type := rfl
            msid := rfl
            ext := hm.ext
            lastExt := hm.lastExt
            len := rfl
            frags := rfl
            dtime := hm.dtime
            idle := fun _ => ⟨rfl, rfl, rfl⟩
            busy := fun hh => absurd rfl hh
            small := hm.small
            tsmall := hm.tsmall
            max := fun hh => absurd rfl hh
            extd := hm.extd
            d0 := hm.d0
            extv := hm.extv }
        · have e1 : ({ doneSess S with chunk := c } : Sess).streams i = s.streams i := by
            rw [← c6 i hi]
            show (if i = S.inCsid then _ else S.streams i) = _
            rw [if_neg (by rw [c1]; exact hi)]
          have e2 : ({ (d.set csid { t with sent := [], rest := [] }) with chunk := c } : Snd).st i = d.st i := by
            simp [Snd.set, hi]
          rw [e1, e2]
          exact hs.st i
    rw [hmsg] at hf1 hf2
    simp only
    have hchunk : (doneSess S).chunk = d.chunk := c4
    rcases hh : h x ⟨⟨csid, t.ts, t.mlen, t.type, t.msid⟩, t.sent ++ t.rest⟩ with ⟨x', _ | _ | c⟩
    · rw [hh] at hf2
      exact hf2 x' rfl
    · rw [hh] at hf1
      rcases hsim d.chunk with hsim | h0
      · refine ⟨doneSess S, hf1 x' _ rfl ?_, ?_⟩
        · exact hsim.buf
        · have e1 : ({ doneSess S with chunk := d.chunk } : Sess) = doneSess S := by rw [← hchunk]
          rw [e1] at hsim
          exact hsim
      · have := hs.pos1; omega
    · rw [hh] at hf1
      obtain ⟨hc, hpend⟩ := hnc hle x' c hh
      rcases hsim c with hsim | h0
      · refine ⟨setChunkSize (doneSess S) c, hf1 x' _ rfl hsim.buf, ?_⟩
        refine ⟨rfl, hc, rfl, hsim.buf, rfl, fun i => ?_⟩
        have hi := hsim.st i
        show SimSt cfg (if ((doneSess S).streams i).frags = [] then (doneSess S).streams i else _) _
        by_cases hfr : ((doneSess S).streams i).frags = []
        · rw [if_pos hfr]
          exact hi
        · rw [if_neg hfr]
          have hne : i ≠ csid := by
            intro e
            subst e
            apply hfr
            show ((if i = S.inCsid then _ else S.streams i) : Stream).frags = []
            rw [if_pos c1.symm]
          have hlen : ((doneSess S).streams i).frags.flatten.length ≤ c + MAX_HEADER := by
            have hfl := hi.frags
            have e2 : ({ (d.set csid { t with sent := [], rest := [] }) with chunk := c } : Snd).st i = d.st i := by
              simp [Snd.set, hne]
            rw [e2] at hfl
            rw [hfl]
            exact hpend i hne
          have hcopy := copyFrags_small (c + MAX_HEADER) _ ((doneSess S).streams i).frags [] (by simpa using hlen)
            (Nat.le_refl (copyFuel ((doneSess S).streams i).frags))
          rw [hcopy]
          exact {
            mlen := hi.mlen
            type := hi.type
            msid := hi.msid
            ext := hi.ext
            lastExt := hi.lastExt
            len := hi.len
            frags := by simpa using hi.frags
            dtime := hi.dtime
            idle := fun hh => absurd (hi.idle hh).2.1 hfr
            busy := hi.busy
            small := hi.small
            tsmall := hi.tsmall
            max := hi.max
            extd := hi.extd
            d0 := hi.d0
            extv := hi.extv }
      · omega
  · rw [if_neg hle]
    have hc2 : remain (S.streams S.inCsid) > S.chunk := by rw [hrem, c4]; omega
    rw [payloadStage_frag hc1 hc2] at hf1
    refine ⟨_, hf1 x _ rfl ?_, ?_⟩
    · show S.buf.drop (S.pos + S.chunk) = []
      rw [← List.drop_drop, hdrop, c4]; simp
    · refine ⟨c4, hs.pos1, rfl, ?_, rfl, fun i => ?_⟩
      · show S.buf.drop (S.pos + S.chunk) = []
        rw [← List.drop_drop, hdrop, c4]; simp
      · by_cases hi : i = csid
        · subst hi
          have e2 : (d.set i { t with sent := t.sent ++ t.rest.take d.chunk, rest := t.rest.drop d.chunk }).st i =
              { t with sent := t.sent ++ t.rest.take d.chunk, rest := t.rest.drop d.chunk } := by simp [Snd.set]
          rw [e2]
          show SimSt cfg (if i = S.inCsid then fragStream S else _) _
          rw [if_pos c1.symm]
          have e1 : fragStream S =
              { r with len := add32 r.len d.chunk, frags := r.frags ++ [t.rest.take d.chunk] } := by
            unfold fragStream
            rw [c5, hdrop, c4, List.take_take, Nat.min_self]
          rw [e1]
          have hp1 := hs.pos1
          have htot := hm.total
          have hsm := hm.small
          have hl : add32 r.len d.chunk = r.len + d.chunk := by
            apply add32_lt; rw [hm.len]; omega
          have hlt : (t.rest.take d.chunk).length = d.chunk := by simp; omega
          exact {
            mlen := hm.mlen
            type := hm.type
            msid := hm.msid
            ext := hm.ext
            lastExt := hm.lastExt
            len := by
              show add32 r.len d.chunk = _
              rw [hl, hm.len, List.length_append, hlt]
            frags := by simp [hm.frags]
            dtime := hm.dtime
            idle := fun hh => by
              exfalso
              have := congrArg List.length hh
              simp at this
              omega
            busy := fun _ => ⟨by
                intro hh
                have := congrArg List.length hh
                rw [List.length_append, hlt] at this
                simp at this
                omega, hm.ts, by
                show t.mlen = (t.sent ++ t.rest.take d.chunk).length + (t.rest.drop d.chunk).length
                rw [List.length_append, hlt, List.length_drop]; omega⟩
            small := hm.small
            tsmall := hm.tsmall
            max := fun _ => hm.max
            extd := hm.extd
            d0 := hm.d0
            extv := hm.extv }
        · have e2 : (d.set csid { t with sent := t.sent ++ t.rest.take d.chunk, rest := t.rest.drop d.chunk }).st i = d.st i := by
            simp [Snd.set, hi]
          rw [e2]
          show SimSt cfg (if i = S.inCsid then fragStream S else S.streams i) _
          rw [if_neg (by rw [c1]; exact hi), c6 i hi]
          exact hs.st i

theorem start_ext {cfg : Cfg} {r : Stream} {t0 : SS} {fmt t type msid : Nat} {payload data : Bytes} (hs : SimSt cfg r t0)
    (hf : fmt ≤ 3) (ht : t < 2 ^ 32)
    (h3 : fmt = 3 → t = t0.delta ∧ (t0.fmt0 = true → t0.ext = false)) :
    ∃ e', parseExt fmt r.lastExt (if fmt ≤ 2 then min t 0xffffff else r.dtime)
        (if fmt ≤ 2 then decide (t ≥ 0xffffff) else r.ext)
        ((if t ≥ 0xffffff ∧ (fmt ≤ 2 ∨ cfg.publishTimeFix = true) then beEnc 4 t else []) ++ data) =
      some (t, e', (startSS t0 fmt t type msid payload).extv, data) ∧
      (e' && cfg.publishTimeFix) = (decide (t ≥ 0xffffff) && cfg.publishTimeFix) := by
  by_cases h2 : fmt ≤ 2
  · by_cases hb : t ≥ 0xffffff
    · refine ⟨true, ?_, by simp [hb]⟩
      rw [if_pos h2, if_pos h2, if_pos ⟨hb, Or.inl h2⟩]
      rw [show decide (t ≥ 0xffffff) = true by simp [hb], parseExt_wire _ _ _ _ _ ht (by omega)]
      simp [startSS, hb]
    · refine ⟨false, ?_, by simp [hb]⟩
      rw [if_pos h2, if_pos h2, if_neg (by omega)]
      rw [show decide (t ≥ 0xffffff) = false by simp [hb], parseExt_none_wire]
      simp only [startSS, if_neg hb, hs.lastExt, List.nil_append]
      rw [Nat.min_eq_left (by omega)]
  · have hf3 : fmt = 3 := by omega
    obtain ⟨h3a, h3b⟩ := h3 hf3
    rw [if_neg h2, if_neg h2, hs.dtime, ← h3a, hs.ext, hs.lastExt]
    cases hfm : t0.fmt0 with
    | true =>
      have hd := hs.d0 hfm
      have hb : ¬ t ≥ 0xffffff := by omega
      refine ⟨false, ?_, by simp [hb]⟩
      rw [if_neg (by omega), h3b hfm, Bool.false_and, parseExt_none_wire]
      simp only [startSS, if_neg hb, List.nil_append]
    | false =>
      obtain ⟨h4, h5⟩ := hs.extd hfm
      rw [← h3a] at h4 h5
      by_cases hb : t ≥ 0xffffff
      · have h6 : t0.ext = true := by rw [h4]; simp [hb]
        cases hfix : cfg.publishTimeFix with
        | true =>
          refine ⟨true, ?_, by simp [hb]⟩
          rw [if_pos ⟨hb, Or.inr rfl⟩, h6, Bool.and_self, h5 h6, parseExt_wire _ _ _ _ _ ht (fun _ => rfl)]
          simp [startSS, hb]
        | false =>
          refine ⟨false, ?_, by simp⟩
          rw [if_neg (by simp [h2]), h6, Bool.and_false, h5 h6, parseExt_none_wire]
          simp [startSS, hb]
      · refine ⟨false, ?_, by simp [hb]⟩
        have h6 : t0.ext = false := by rw [h4]; simp [hb]
        rw [if_neg (by omega), h6, Bool.false_and, parseExt_none_wire]
        simp only [startSS, if_neg hb, List.nil_append]

theorem newHdr_csid (h : Hdr) (fmt mlen type msid : Nat) : (newHdr h fmt mlen type msid).csid = h.csid := by
  unfold newHdr; split
  · rfl
  · split <;> rfl

theorem newHdr_ts (h : Hdr) (fmt mlen type msid : Nat) : (newHdr h fmt mlen type msid).ts = h.ts := by
  unfold newHdr; split
  · rfl
  · split <;> rfl

theorem newHdr_fields (h : Hdr) (fmt mlen type msid : Nat) (h1 : fmt ≠ 0 → msid = h.msid)
    (h2 : 2 ≤ fmt → type = h.type ∧ mlen = h.mlen) :
    (newHdr h fmt mlen type msid).mlen = mlen ∧ (newHdr h fmt mlen type msid).type = type ∧
    (newHdr h fmt mlen type msid).msid = msid := by
  unfold newHdr
  by_cases h0 : fmt = 0
  · simp [h0]
  · rw [if_neg h0]
    by_cases h3 : fmt ≤ 1
    · rw [if_pos h3]; exact ⟨rfl, rfl, (h1 h0).symm⟩
    · rw [if_neg h3]
      obtain ⟨a, b⟩ := h2 (by omega)
      exact ⟨b.symm, a.symm, (h1 h0).symm⟩

/-- One chunk of a conforming sender. -/
theorem ev_step {cfg : Cfg} {h : σ → Msg → σ × HRc} {x : σ} {s : Sess} {d : Snd} {e : Ev} (hs : Sim cfg s d)
    (hv : e.valid cfg d)
    (hnc : match e.next d with
      | (d', some m) => (match (h x m).2 with
        | .newChunk c => 1 ≤ c ∧ ∀ i, (d'.st i).sent.length ≤ c + 18
        | _ => True)
      | (_, none) => True) :
    match e.effect h x d with
    | .live x' d' => ∃ s', feed cfg h x s (e.bytes cfg.publishTimeFix d) = .idle x' s' ∧ Sim cfg s' d'
    | .closed x' => feed cfg h x s (e.bytes cfg.publishTimeFix d) = .err x' := by
  -- common part
  have main : ∀ (hb : Bytes) (r : Stream), e.bytes cfg.publishTimeFix d = hb ++ (e.cur d).rest.take d.chunk → hb ≠ [] →
      Mid cfg e.csid r (e.cur d) →
      parseHeader cfg (s.add (hb ++ (e.cur d).rest.take d.chunk)) =
        .done { (s.add (hb ++ (e.cur d).rest.take d.chunk)).setStream e.csid r with inCsid := e.csid, pos := hb.length } →
      match e.effect h x d with
      | .live x' d' => ∃ s', feed cfg h x s (e.bytes cfg.publishTimeFix d) = .idle x' s' ∧ Sim cfg s' d'
      | .closed x' => feed cfg h x s (e.bytes cfg.publishTimeFix d) = .err x' := by
    intro hb r hbytes hne hm hp
    have hcs := chunk_step (h := h) (x := x) hs hne hm hp (by
      intro hle x' c hh
      unfold Ev.next SS.take at hnc
      rw [if_pos hle] at hnc
      simp only [hh] at hnc
      refine ⟨hnc.1, fun i hi => ?_⟩
      have := hnc.2 i
      simpa [Snd.set, hi] using this)
    rw [hbytes]
    unfold Ev.effect Ev.next
    rcases htk : (e.cur d).take e.csid d.chunk with ⟨t', _ | m⟩
    · rw [htk] at hcs; exact hcs
    · rw [htk] at hcs; exact hcs
  have hbuf : ∀ ys, (s.add ys).buf = ys := fun ys => by rw [add_buf, hs.buf]; rfl
  have hcs : ∀ ys, (s.add ys).inCsid = 0 := fun ys => by rw [← hs.csid]; simp [Sess.add]
  have hst : ∀ ys, (s.add ys).streams = s.streams := fun ys => by simp [Sess.add]
  cases e with
  | start csid wide fmt t type msid payload =>
    obtain ⟨v1, v2, v3, v4, v5, v6, v7, v8, v9, v10, v11, v12, v13⟩ := hv
    have hi := hs.st csid
    obtain ⟨hsent, hfr, hts⟩ := hi.idle v5
    have hlen0 : (s.streams csid).len = 0 := by rw [hi.len, hsent]; rfl
    obtain ⟨e', hE, hE2⟩ := start_ext (type := type) (msid := msid) (payload := payload)
      (data := payload.take d.chunk) hi v4 v10 v13
    have hF := newHdr_fields { (s.streams csid).hdr with csid := csid } fmt payload.length type msid
      (fun h0 => by rw [(v11 h0).2]; exact hi.msid.symm)
      (fun h2 => ⟨by rw [(v12 h2).1]; exact hi.type.symm, by rw [(v12 h2).2]; exact hi.mlen.symm⟩)
    generalize hH : newHdr { (s.streams csid).hdr with csid := csid } fmt payload.length type msid = H at *
    have hHc : H.csid = csid := by rw [← hH, newHdr_csid]
    have hHt : H.ts = (d.st csid).ts := by rw [← hH, newHdr_ts]; exact hts
    have hmlen : (applyTime cfg fmt t e' { s.streams csid with
        hdr := H
        lastExt := (startSS (d.st csid) fmt t type msid payload).extv }).hdr.mlen = payload.length := by
      unfold applyTime
      simp only [hlen0, ↓reduceIte]
      split <;> exact hF.1
    refine main (encBasic wide fmt csid ++ encMsgHdr cfg.publishTimeFix fmt t payload.length type msid)
      (applyTime cfg fmt t e' { s.streams csid with
        hdr := H
        lastExt := (startSS (d.st csid) fmt t type msid payload).extv }) rfl ?_ ?_ ?_
    · intro hh
      have := congrArg List.length hh
      have h1 := encBasic_pos wide fmt csid
      simp at this
      simp [this.1] at h1
    · show Mid cfg csid _ (startSS (d.st csid) fmt t type msid payload)
      have ets : t + 0 < 2 ^ 32 := by omega
      by_cases h0 : fmt = 0
      · have ea : applyTime cfg fmt t e' { s.streams csid with
            hdr := H
            lastExt := (startSS (d.st csid) fmt t type msid payload).extv } =
            { s.streams csid with
              hdr := { H with ts := t }
              lastExt := (startSS (d.st csid) fmt t type msid payload).extv
              ext := e' && cfg.publishTimeFix
              dtime := 0 } := by
          unfold applyTime
          simp only [hlen0, ↓reduceIte, h0, ne_eq, not_true_eq_false]
        rw [ea]
        exact {
          hcsid := hHc
          mlen := hF.1
          type := hF.2.1
          msid := hF.2.2
          ext := by rw [hE2]; rfl
          lastExt := rfl
          len := hlen0
          frags := by rw [hfr]; rfl
          dtime := by simp [startSS, h0]
          ts := by simp only [startSS, startTs, h0, ↓reduceIte]; exact add32_zero v10
          total := by simp [startSS]
          small := v6
          tsmall := by simpa [startSS, startTs, h0] using v10
          max := v7
          extd := by simp [startSS, h0]
          d0 := by simp [startSS, h0]
          extv := by
            simp only [startSS]
            split
            · exact v10
            · exact hi.extv }
      · have ea : applyTime cfg fmt t e' { s.streams csid with
            hdr := H
            lastExt := (startSS (d.st csid) fmt t type msid payload).extv } =
            { s.streams csid with
              hdr := H
              lastExt := (startSS (d.st csid) fmt t type msid payload).extv
              ext := e' && cfg.publishTimeFix
              dtime := t } := by
          unfold applyTime
          simp only [hlen0, ↓reduceIte, h0, ne_eq, not_false_eq_true]
        rw [ea]
        exact {
          hcsid := hHc
          mlen := hF.1
          type := hF.2.1
          msid := hF.2.2
          ext := by rw [hE2]; rfl
          lastExt := rfl
          len := hlen0
          frags := by rw [hfr]; rfl
          dtime := by simp [startSS, h0]
          ts := by
            simp only [startSS, startTs, h0, ↓reduceIte, hHt]
            unfold add32; rfl
          total := by simp [startSS]
          small := v6
          tsmall := by
            simp only [startSS, startTs, h0, ↓reduceIte]
            exact Nat.mod_lt _ (by decide)
          max := v7
          extd := by
            intro _
            refine ⟨by simp [startSS, h0], ?_⟩
            intro hx
            have hb : t ≥ 0xffffff := by simpa [startSS] using hx
            simp [startSS, h0, hb]
          d0 := by simp [startSS, h0]
          extv := by
            simp only [startSS]
            split
            · exact v10
            · exact hi.extv }
    · show parseHeader cfg (s.add (encBasic wide fmt csid ++ encMsgHdr cfg.publishTimeFix fmt t payload.length type msid ++
          payload.take d.chunk)) = _
      have := parseHeader_known (cfg := cfg) (s := s.add (encBasic wide fmt csid ++
          encMsgHdr cfg.publishTimeFix fmt t payload.length type msid ++ payload.take d.chunk))
          (fmt := fmt) (csid := csid) (ts' := t) (ext' := e') (h := H)
          (ts := if fmt ≤ 2 then min t 0xffffff else (s.streams csid).dtime)
          (ext := if fmt ≤ 2 then decide (t ≥ 0xffffff) else (s.streams csid).ext)
          (le' := (startSS (d.st csid) fmt t type msid payload).extv)
          (r1 := encMsgHdr cfg.publishTimeFix fmt t payload.length type msid ++ payload.take d.chunk)
          (r2 := (if t ≥ 0xffffff ∧ (fmt ≤ 2 ∨ cfg.publishTimeFix = true) then beEnc 4 t else []) ++ payload.take d.chunk)
          (r3 := payload.take d.chunk) (hcs _)
          (by rw [hbuf, List.append_assoc]; exact parseBasic_enc wide fmt csid _ v4 v1 v2) v3
          (by
            rw [hst]
            have := parseMsgHdr_enc fmt t payload.length type msid
              { s.streams csid with hdr := { (s.streams csid).hdr with csid := csid } }
              ((if t ≥ 0xffffff ∧ (fmt ≤ 2 ∨ cfg.publishTimeFix = true) then beEnc 4 t else []) ++ payload.take d.chunk)
              v6 v8 v9
            simp only [hH] at this
            rw [← this]
            unfold encMsgHdr
            simp only [List.append_assoc])
          (by rw [hst]; exact hE)
          (by rw [hst, hmlen]; exact v7)
      rw [this, hbuf, hst]
      rw [List.length_append (bs := List.take _ _), Nat.add_sub_cancel]
      rfl
  | cont csid wide =>
    obtain ⟨v1, v2, v3, v4⟩ := hv
    have hi := hs.st csid
    obtain ⟨hsent, hts, htot⟩ := hi.busy v4
    have hlen : ¬ (s.streams csid).len = 0 := by
      rw [hi.len]; have := List.length_pos_iff.2 hsent; omega
    refine main (encBasic wide 3 csid ++ (if (d.st csid).ext && cfg.publishTimeFix then beEnc 4 (d.st csid).extv else []))
      { s.streams csid with hdr := { (s.streams csid).hdr with csid := csid } } rfl ?_ ?_ ?_
    · intro hh
      have := congrArg List.length hh
      have h1 := encBasic_pos wide 3 csid
      simp at this
      simp [this.1] at h1
    · show Mid cfg csid _ (d.st csid)
      exact {
        hcsid := rfl
        mlen := hi.mlen
        type := hi.type
        msid := hi.msid
        ext := hi.ext
        lastExt := hi.lastExt
        len := hi.len
        frags := hi.frags
        dtime := hi.dtime
        ts := hts
        total := htot
        small := hi.small
        tsmall := hi.tsmall
        max := hi.max v4
        extd := hi.extd
        d0 := hi.d0
        extv := hi.extv }
    · show parseHeader cfg (s.add (encBasic wide 3 csid ++
        (if (d.st csid).ext && cfg.publishTimeFix then beEnc 4 (d.st csid).extv else []) ++
          (d.st csid).rest.take d.chunk)) = _
      obtain ⟨ts', e', hE⟩ : ∃ ts' e', parseExt 3 (s.streams csid).lastExt (s.streams csid).dtime (s.streams csid).ext
          ((if (d.st csid).ext && cfg.publishTimeFix then beEnc 4 (d.st csid).extv else []) ++
            (d.st csid).rest.take d.chunk) =
          some (ts', e', (s.streams csid).lastExt, (d.st csid).rest.take d.chunk) := by
        rw [hi.ext, hi.lastExt]
        cases hx : ((d.st csid).ext && cfg.publishTimeFix) with
        | true => exact ⟨_, _, by simp only [↓reduceIte]; exact parseExt_wire 3 _ _ _ _ hi.extv (fun _ => rfl)⟩
        | false => exact ⟨_, _, by simp only [Bool.false_eq_true, ↓reduceIte, List.nil_append]; exact parseExt_none_wire _ _ _ _⟩
      have hat : applyTime cfg 3 ts' e' { s.streams csid with
            hdr := { (s.streams csid).hdr with csid := csid }
            lastExt := (s.streams csid).lastExt } =
          { s.streams csid with hdr := { (s.streams csid).hdr with csid := csid } } := by
        unfold applyTime
        rw [if_neg hlen]
      have := parseHeader_known (cfg := cfg) (s := s.add (encBasic wide 3 csid ++
          (if (d.st csid).ext && cfg.publishTimeFix then beEnc 4 (d.st csid).extv else []) ++
          (d.st csid).rest.take d.chunk))
          (fmt := 3) (csid := csid) (ts' := ts') (ext' := e') (h := { (s.streams csid).hdr with csid := csid })
          (ts := (s.streams csid).dtime) (ext := (s.streams csid).ext) (le' := (s.streams csid).lastExt)
          (r1 := (if (d.st csid).ext && cfg.publishTimeFix then beEnc 4 (d.st csid).extv else []) ++
            (d.st csid).rest.take d.chunk)
          (r2 := (if (d.st csid).ext && cfg.publishTimeFix then beEnc 4 (d.st csid).extv else []) ++
            (d.st csid).rest.take d.chunk)
          (r3 := (d.st csid).rest.take d.chunk) (hcs _)
          (by rw [hbuf, List.append_assoc]; exact parseBasic_enc wide 3 csid _ (by omega) v1 v2) v3
          (by rw [hst]; simp [parseMsgHdr])
          (by rw [hst]; exact hE)
          (by rw [hst, hat]; show (s.streams csid).hdr.mlen ≤ _; rw [hi.mlen]; exact hi.max v4)
      rw [this, hbuf, hst, hat]
      rw [List.length_append (bs := List.take _ _), Nat.add_sub_cancel]
      rfl

/-- All chunks of a conforming sender. -/
theorem trace_feed {cfg : Cfg} {h : σ → Msg → σ × HRc} (es : List Ev) {x : σ} {s : Sess} {d : Snd} (hs : Sim cfg s d)
    (hv : Valid cfg h x d es) (hp : SmallPending h x d es) :
    match (trace cfg.publishTimeFix h x d es).2 with
    | .live x' d' => ∃ s', feed cfg h x s (trace cfg.publishTimeFix h x d es).1 = .idle x' s' ∧ Sim cfg s' d'
    | .closed x' => feed cfg h x s (trace cfg.publishTimeFix h x d es).1 = .err x' := by
  induction es generalizing x s d with
  | nil =>
    refine ⟨s, ?_, hs⟩
    simp [trace, feed, add_nil, hs.buf, absorb]
  | cons e es ih =>
    obtain ⟨v1, v2⟩ := hv
    obtain ⟨p1, p2⟩ := hp
    have hstep := ev_step hs v1 p1
    simp only [trace]
    cases hef : e.effect h x d with
    | live x' d' =>
      rw [hef] at hstep v2 p2
      obtain ⟨s', hf, hs'⟩ := hstep
      have := ih hs' v2 p2
      have hbi : BufInv s := ⟨by rw [hs.pos]; exact Nat.zero_le _, by rw [hs.pos]; exact Nat.zero_le _⟩
      simp only
      rw [feed_append cfg h x s _ _ hbi, hf]
      exact this
    | closed x' =>
      rw [hef] at hstep
      exact hstep

end Verif.Chunk
