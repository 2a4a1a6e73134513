import Verif.TsIn.DemuxLemmas
/-
Lemmas about packets, the split of the input, and safety for C69 (`ReadProps`).
-/
namespace Verif.TsIn
open Verif

/-! ### Heads -/

theorem take6 {l : Bytes} {v : Nat} (h : Spec.readPcr l = some v) : ∃ b0 b1 b2 b3 b4 b5, l = [b0, b1, b2, b3, b4, b5] ∧
    v = (((((b0.toNat * 256 + b1.toNat) * 256 + b2.toNat) * 256 + b3.toNat) * 2 + b4.toNat / 128)) * 300 + (b4.toNat % 2 * 256 + b5.toNat) := by
  unfold Spec.readPcr at h
  split at h
  · rename_i b0 b1 b2 b3 b4 b5
    simp only [Option.some.injEq] at h
    exact ⟨b0, b1, b2, b3, b4, b5, rfl, by rw [← h]; omega⟩
  · cases h

theorem header_ok {b : Bytes} {p : Spec.Pkt} (h : Spec.readPkt b = some p) : ∃ n, readHeader b = .ok (hdr p, n) ∧ b.drop n = p.payload := by
  unfold Spec.readPkt at h
  split at h
  case h_2 => cases h
  rename_i s a q c rest
  split at h
  case isFalse => cases h
  rename_i hc
  obtain ⟨hl, rfl, -, -⟩ := hc
  dsimp only at h
  split at h
  · rename_i h1
    simp only [Option.some.injEq] at h
    subst h
    refine ⟨4, ?_, rfl⟩
    simp only [readHeader, List.getElem?_cons_zero, List.getElem?_cons_succ]
    rw [if_neg (by simp), if_neg (by omega), if_neg (by omega)]
    rfl
  · rename_i h1
    split at h
    case h_1 => cases h
    rename_i l r
    split at h
    case isFalse => cases h
    rename_i h2
    simp only [Option.map_eq_some_iff] at h
    obtain ⟨⟨rai, pcr⟩, ha, rfl⟩ := h
    dsimp only
    have hr : r.length = 183 := by simp at hl; omega
    refine ⟨if c.toNat / 16 % 4 % 2 = 1 then 4 + l.toNat + 1 else 188, ?_, ?_⟩
    · simp only [readHeader, List.getElem?_cons_zero, List.getElem?_cons_succ]
      rw [if_neg (by simp), if_neg (by omega), if_pos (by omega)]
      simp only [readAdaptation, List.getElem?_cons_zero, List.getElem?_cons_succ]
      rw [if_neg (by omega), hl, if_neg (by split <;> omega)]
      unfold Spec.readAdaptation at ha
      split at ha
      · rename_i e
        have h0 : l.toNat = 0 := by
          have := congrArg List.length e
          simp at this
          rcases this with this | this
          · omega
          · rw [this] at hr; simp at hr
        rw [if_pos h0]
        simp only [Option.some.injEq, Prod.mk.injEq] at ha
        obtain ⟨rfl, rfl⟩ := ha
        rfl
      · rename_i fl r' e
        have h0 : l.toNat ≠ 0 := by intro x; rw [x] at e; simp at e
        obtain ⟨fl', r'', rfl⟩ : ∃ x y, r = x :: y := by
          cases r with
          | nil => simp at hr
          | cons x y => exact ⟨x, y, rfl⟩
        obtain ⟨m, hm⟩ : ∃ m, l.toNat = m + 1 := ⟨l.toNat - 1, by omega⟩
        rw [hm, List.take_succ_cons] at e
        simp only [List.cons.injEq] at e
        obtain ⟨rfl, e⟩ := e
        rw [if_neg h0]
        simp only [List.getElem?_cons_zero]
        dsimp only at ha
        split at ha
        · rename_i h4
          simp only [Option.map_eq_some_iff, Prod.mk.injEq] at ha
          obtain ⟨v, hv, rfl, rfl⟩ := ha
          rw [if_pos h4]
          obtain ⟨b0, b1, b2, b3, b4, b5, g1, g2⟩ := take6 hv
          rw [← e, List.take_take] at g1
          have h6 : min 6 m = 6 := by
            have := congrArg List.length g1
            simp at this
            omega
          rw [h6] at g1
          have hr2 : r'' = [b0, b1, b2, b3, b4, b5] ++ r''.drop 6 := by rw [← g1, List.take_append_drop]
          rw [hr2]
          simp only [pcrAt, List.cons_append, List.nil_append, List.getElem?_cons_zero, List.getElem?_cons_succ]
          rw [← g2]
          rfl
        · rename_i h4
          simp only [Option.some.injEq, Prod.mk.injEq] at ha
          obtain ⟨rfl, rfl⟩ := ha
          rw [if_neg h4]
          rfl
    · split
      · rw [show 4 + l.toNat + 1 = l.toNat + 1 + 1 + 1 + 1 + 1 by omega]
        simp only [List.drop_succ_cons]
      · have : l.toNat = 183 := by omega
        rw [this, List.drop_of_length_le (by omega), List.drop_of_length_le (by omega)]

/-! ### Packets -/

/-- A packet after its head (`readPacket`). -/
def step (s : St) (h : Header) (b : Bytes) : Res St :=
  if h.pid = 0 then readPat s h b
  else
    match toProg h b s.progs with
    | some r => r.bind fun y => .ok { s with progs := y.1, events := s.events ++ y.2 }
    | none => .ok s

theorem readPacket_ok {b : Bytes} {p : Spec.Pkt} (s : St) (h : Spec.readPkt b = some p) : readPacket s b = step s (hdr p) p.payload := by
  obtain ⟨n, h1, h2⟩ := header_ok h
  unfold readPacket
  rw [h1]
  simp only [bind_ok, h2]
  rfl

/-- Packets in turn. -/
def packets (s : St) : List Bytes → Res St
  | [] => .ok s
  | b :: l => (readPacket s b).bind fun s => packets s l

def steps (s : St) : List Spec.Pkt → Res St
  | [] => .ok s
  | p :: l => (step s (hdr p) p.payload).bind fun s => steps s l

theorem packets_ok {bs : List Bytes} {ps : List Spec.Pkt} (s : St) (h : Spec.readAll bs = some ps) : packets s bs = steps s ps := by
  induction bs generalizing s ps with
  | nil =>
    simp only [Spec.readAll, Option.some.injEq] at h
    subst h
    rfl
  | cons b bs ih =>
    simp only [Spec.readAll, Option.bind_eq_some_iff, Option.map_eq_some_iff] at h
    obtain ⟨p, h1, ps', h2, rfl⟩ := h
    simp only [packets, steps]
    rw [readPacket_ok s h1]
    congr 1
    funext s'
    exact ih s' h2

theorem steps_append (s : St) (a b : List Spec.Pkt) : steps s (a ++ b) = (steps s a).bind fun s => steps s b := by
  induction a generalizing s with
  | nil => rfl
  | cons p a ih =>
    simp only [List.cons_append, steps]
    cases step s (hdr p) p.payload with
    | ub => rfl
    | error => rfl
    | ok s' => exact ih s'

/-! ### The input in parts -/

theorem readPat_buf {s s' : St} {h : Header} {b : Bytes} (g : readPat s h b = .ok s') : s'.buf = s.buf := by
  unfold readPat at g
  split at g
  · cases g; rfl
  · dsimp only at g
    split at g
    · cases g; rfl
    · cases g
    · cases g
    · cases g; rfl

theorem readPacket_buf {s s' : St} {b : Bytes} (h : readPacket s b = .ok s') : s'.buf = s.buf := by
  unfold readPacket at h
  cases e : readHeader b with
  | ub => rw [e] at h; cases h
  | error => rw [e] at h; cases h
  | ok x =>
    rw [e] at h
    simp only [bind_ok] at h
    split at h
    · exact readPat_buf h
    · split at h
      · rename_i r hr
        cases r with
        | ub => cases h
        | error => cases h
        | ok y => simp only [bind_ok, Res.ok.injEq] at h; subst h; rfl
      · cases h; rfl

theorem packets_buf (l : List Bytes) (s s' : St) (h : packets s l = .ok s') : s'.buf = s.buf := by
  induction l generalizing s with
  | nil => cases h; rfl
  | cons b l ih =>
    simp only [packets] at h
    cases e : readPacket s b with
    | ub => rw [e] at h; cases h
    | error => rw [e] at h; cases h
    | ok s1 => rw [e] at h; rw [ih s1 h, readPacket_buf e]

/-- A part that does not fill the packet is kept. -/
theorem feed_short (s : St) (a : Bytes) (h : s.buf.length + a.length < 188) : feed s a = .ok { s with buf := s.buf ++ a } := by
  by_cases ha : a = []
  · subst ha; rw [feed]; simp
  · have hl := List.length_pos_iff.2 ha
    rw [feed, dif_neg ha, dif_pos (by omega)]
    have hn : min (188 - s.buf.length) a.length = a.length := by omega
    simp only [hn, List.take_length, List.drop_length, List.length_append]
    rw [if_neg (by omega), feed, dif_pos rfl]

/-- A part that fills the packet. -/
theorem feed_full (s : St) (a : Bytes) (h : s.buf.length < 188) (hn : 188 - s.buf.length ≤ a.length) :
    feed s a = (readPacket { s with buf := [] } (s.buf ++ a.take (188 - s.buf.length))).bind fun s' => feed s' (a.drop (188 - s.buf.length)) := by
  have ha : a ≠ [] := by intro x; subst x; simp at hn; omega
  rw [feed, dif_neg ha, dif_pos h]
  have : min (188 - s.buf.length) a.length = 188 - s.buf.length := by omega
  simp only [this, List.length_append, List.length_take]
  rw [if_pos (by omega)]

theorem feed_append (n : Nat) (s : St) (a b : Bytes) (ha : a.length ≤ n) (h : s.buf.length < 188) :
    feed s (a ++ b) = (feed s a).bind fun s => feed s b := by
  induction n generalizing s a with
  | zero =>
    have : a = [] := List.length_eq_zero_iff.1 (by omega)
    subst this
    rw [feed_short s [] (by simpa using h)]
    simp
  | succ n ih =>
    by_cases hs : s.buf.length + a.length < 188
    · rw [feed_short s a hs]
      simp only [bind_ok]
      by_cases hb : s.buf.length + a.length + b.length < 188
      · rw [feed_short s (a ++ b) (by simp; omega), feed_short _ b (by simp; omega)]
        simp
      · rw [feed_full s (a ++ b) h (by simp; omega), feed_full _ b (by simpa using hs) (by simp; omega)]
        simp only [List.length_append]
        rw [List.take_append, List.drop_append, List.take_of_length_le (by omega), List.drop_of_length_le (by omega), Nat.sub_sub, List.nil_append,
          List.append_assoc]
    · rw [feed_full s (a ++ b) h (by simp; omega), feed_full s a h (by omega), List.take_append_of_le_length (by omega), List.drop_append_of_le_length (by omega)]
      cases e : readPacket { s with buf := [] } (s.buf ++ a.take (188 - s.buf.length)) with
      | ub => rfl
      | error => rfl
      | ok s' =>
        simp only [bind_ok]
        exact ih s' _ (by simp; omega) (by rw [readPacket_buf e]; simp)

theorem feed_buf (n : Nat) (s s' : St) (a : Bytes) (ha : a.length ≤ n) (h : s.buf.length < 188) (g : feed s a = .ok s') : s'.buf.length < 188 := by
  induction n generalizing s a with
  | zero =>
    have : a = [] := List.length_eq_zero_iff.1 (by omega)
    subst this
    rw [feed_short s [] (by simpa using h)] at g
    cases g
    simpa using h
  | succ n ih =>
    by_cases hs : s.buf.length + a.length < 188
    · rw [feed_short s a hs] at g
      cases g
      simpa using hs
    · rw [feed_full s a h (by omega)] at g
      cases e : readPacket { s with buf := [] } (s.buf ++ a.take (188 - s.buf.length)) with
      | ub => rw [e] at g; cases g
      | error => rw [e] at g; cases g
      | ok s1 =>
        rw [e] at g
        exact ih s1 _ (by simp; omega) (by rw [readPacket_buf e]; simp) g

theorem read_flatten (s : St) (ds : List Bytes) (h : s.buf.length < 188) : read s ds = feed s ds.flatten := by
  induction ds generalizing s with
  | nil => rw [List.flatten_nil, feed_short s [] (by simpa using h)]; simp [read]
  | cons d ds ih =>
    simp only [read, List.flatten_cons]
    rw [feed_append d.length s d _ (by omega) h]
    cases e : feed s d with
    | ub => rfl
    | error => rfl
    | ok s' => exact ih s' (feed_buf d.length s s' d (by omega) h e)

/-- Whole packets. -/
theorem feed_packets (s : St) (bs : List Bytes) (hb : s.buf = []) (hbs : ∀ b ∈ bs, b.length = 188) : feed s bs.flatten = packets s bs := by
  induction bs generalizing s with
  | nil => rw [List.flatten_nil, feed_short s [] (by simp [hb])]; simp [packets]
  | cons b bs ih =>
    have hl := hbs b (by simp)
    have h188 : 188 - s.buf.length = 188 := by simp [hb]
    rw [List.flatten_cons, feed_full s _ (by simp [hb]) (by rw [h188]; simp [hl]), h188, List.take_append_of_le_length (by omega),
      List.drop_append_of_le_length (by omega), List.take_of_length_le (by omega), List.drop_of_length_le (by omega)]
    have hs : ({ s with buf := [] } : St) = s := by rw [← hb]
    rw [hb, hs]
    simp only [List.nil_append, packets]
    cases e : readPacket s b with
    | ub => rfl
    | error => rfl
    | ok s' => exact ih s' (by rw [readPacket_buf e, hb]) (fun x hx => hbs x (by simp [hx]))

theorem readPkt_length {b : Bytes} {p : Spec.Pkt} (h : Spec.readPkt b = some p) : b.length = 188 := by
  unfold Spec.readPkt at h
  split at h
  · split at h
    · rename_i hc; exact hc.1
    · cases h
  · cases h

theorem readAll_length {bs : List Bytes} {ps : List Spec.Pkt} (h : Spec.readAll bs = some ps) : ∀ b ∈ bs, b.length = 188 := by
  induction bs generalizing ps with
  | nil => simp
  | cons b bs ih =>
    simp only [Spec.readAll, Option.bind_eq_some_iff, Option.map_eq_some_iff] at h
    obtain ⟨p, h1, ps', h2, rfl⟩ := h
    intro x hx
    simp only [List.mem_cons] at hx
    rcases hx with rfl | hx
    · exact readPkt_length h1
    · exact ih h2 x hx

/-- Input in any parts that together are packets. -/
theorem read_packets {bs : List Bytes} {ps : List Spec.Pkt} (s : St) (ds : List Bytes) (hb : s.buf = []) (hd : ds.flatten = bs.flatten) (h : Spec.readAll bs = some ps) :
    read s ds = steps s ps := by
  rw [read_flatten s ds (by simp [hb]), hd, feed_packets s bs hb (readAll_length h), packets_ok s h]

/-! ### Safety -/

theorem getElem_some {b : Bytes} (h : b.length = 188) {i : Nat} (hi : i < 188) : b[i]? = some (b[i]'(by omega)) := List.getElem?_eq_getElem (by omega)

theorem header_safe {b : Bytes} (h : b.length = 188) : readHeader b ≠ .ub := by
  unfold readHeader
  rw [getElem_some h (i := 0) (by omega), getElem_some h (i := 1) (by omega), getElem_some h (i := 2) (by omega), getElem_some h (i := 3) (by omega)]
  dsimp only
  split
  · simp
  split
  · simp
  split
  · unfold readAdaptation pcrAt
    rw [getElem_some h (i := 4) (by omega), getElem_some h (i := 5) (by omega), getElem_some h (i := 6) (by omega), getElem_some h (i := 7) (by omega),
      getElem_some h (i := 8) (by omega), getElem_some h (i := 9) (by omega), getElem_some h (i := 10) (by omega), getElem_some h (i := 11) (by omega)]
    dsimp only
    split
    · simp
    rename_i h1
    rw [if_neg (by split <;> omega)]
    split
    · simp
    split <;> simp
  · simp

theorem section_full {least len : Nat} {c c' : List Bytes} (h : readSection least c = .full (len, c')) : least ≤ len ∧ len ≤ c'.flatten.length := by
  unfold readSection at h
  split at h
  · cases h
  split at h
  · cases h
  split at h
  · cases h
  rename_i l c3 _
  split at h
  · cases h
  split at h
  · cases h
  split at h
  · cases h
  · rename_i h1 h2 x hx
    simp only [Table.full.injEq, Prod.mk.injEq] at h
    obtain ⟨rfl, rfl⟩ := h
    exact ⟨by omega, (rd_some hx).1⟩

theorem section_safe (least : Nat) (c : List Bytes) : readSection least c ≠ .ub := by
  unfold readSection
  split
  · simp
  split
  · simp
  split
  · simp
  split
  · simp
  split
  · simp
  split <;> simp

theorem rd16_le {c : List Bytes} (h : 2 ≤ c.flatten.length) : ∃ v c', rd16 c = some (v, c') ∧ c'.flatten = c.flatten.drop 2 := by
  obtain ⟨c', h1, h2⟩ := rd_ok h
  exact ⟨_, c', by unfold rd16; rw [h1]; rfl, h2⟩

theorem rd8_le {c : List Bytes} (h : 1 ≤ c.flatten.length) : ∃ v c', rd8 c = some (v, c') ∧ c'.flatten = c.flatten.drop 1 := by
  obtain ⟨c', h1, h2⟩ := rd_ok h
  exact ⟨_, c', by unfold rd8; rw [h1]; rfl, h2⟩

theorem readProgs_some (n : Nat) (c : List Bytes) (h : 4 * n ≤ c.flatten.length) : readProgs n c ≠ none := by
  induction n generalizing c with
  | zero => simp [readProgs]
  | succ n ih =>
    obtain ⟨v, c1, h1, h2⟩ := rd16_le (c := c) (by omega)
    obtain ⟨w, c2, h3, h4⟩ := rd16_le (c := c1) (by rw [h2]; simp only [List.length_drop]; omega)
    simp only [readProgs, h1, h3]
    have := ih c2 (by rw [h4, h2]; simp only [List.length_drop]; omega)
    simp [this]

theorem pat_safe (c : List Bytes) : patOf c ≠ .ub := by
  unfold patOf
  split
  · simp
  · simp
  · rename_i h; exact absurd h (section_safe 9 c)
  · rename_i len c1 h
    obtain ⟨h1, h2⟩ := section_full h
    obtain ⟨c2, h3, h4⟩ := rd_ok (n := 5) (c := c1) (by omega)
    rw [h3]
    dsimp only
    have := readProgs_some ((len - 9) / 4) c2 (by rw [h4]; simp only [List.length_drop]; omega)
    split
    · rename_i g; exact absurd g this
    · simp

theorem rd8_16 {c c1 : List Bytes} {x : Bytes} (h : rd 3 c = some (x, c1)) (d : List Bytes) (hd : d.flatten = c.flatten) :
    ∃ v w d1 d2, rd8 d = some (v, d1) ∧ rd16 d1 = some (w, d2) ∧ d2.flatten = c1.flatten := by
  obtain ⟨h1, -, h3⟩ := rd_some h
  obtain ⟨v, d1, g1, g2⟩ := rd8_le (c := d) (by rw [hd]; omega)
  obtain ⟨w, d2, g3, g4⟩ := rd16_le (c := d1) (by rw [g2, hd]; simp only [List.length_drop]; omega)
  exact ⟨v, w, d1, d2, g1, g3, by rw [g4, g2, hd, h3, List.drop_drop]⟩

theorem rd_same {n : Nat} {c c1 : List Bytes} {x : Bytes} (h : rd n c = some (x, c1)) (d : List Bytes) (hd : d.flatten = c.flatten) :
    ∃ d1, rd n d = some (x, d1) ∧ d1.flatten = c1.flatten := by
  obtain ⟨h1, h2, h3⟩ := rd_some h
  obtain ⟨d1, g1, g2⟩ := rd_ok (n := n) (c := d) (by rw [hd]; omega)
  exact ⟨d1, by rw [g1, hd, h2], by rw [g2, hd, h3]⟩

theorem rd16_same {v : Nat} {c c1 : List Bytes} (h : rd16 c = some (v, c1)) (d : List Bytes) (hd : d.flatten = c.flatten) :
    ∃ d1, rd16 d = some (v, d1) ∧ d1.flatten = c1.flatten := by
  unfold rd16 at h
  simp only [Option.map_eq_some_iff, Prod.mk.injEq] at h
  obtain ⟨⟨x, c2⟩, h1, h2, h3⟩ := h
  dsimp only at h2 h3
  subst h3
  obtain ⟨d1, g1, g2⟩ := rd_same h1 d hd
  exact ⟨d1, by unfold rd16; rw [g1]; simp [h2], g2⟩

/-- The streams that were counted are there. -/
theorem count_read (len : Nat) (c : List Bytes) (n : Nat) (h : countEs len c = some n) (d : List Bytes) (hd : d.flatten = c.flatten) : readEss n d ≠ none := by
  induction len using Nat.strongRecOn generalizing c n d with
  | _ len ih =>
  rw [countEs] at h
  split at h
  · simp only [Option.some.injEq] at h
    subst h
    simp [readEss]
  · rename_i hl
    split at h
    · cases h
    · rename_i x c1 h1
      split at h
      · cases h
      · rename_i elen c2 h2
        split at h
        · cases h
        · rename_i y c3 h3
          split at h
          · cases h
          · rename_i hle
            simp only [Option.map_eq_some_iff] at h
            obtain ⟨m, hm, rfl⟩ := h
            obtain ⟨v, w, d1, d2, g1, g2, g3⟩ := rd8_16 h1 d hd
            obtain ⟨d3, g4, g5⟩ := rd16_same h2 d2 g3
            obtain ⟨d4, g6, g7⟩ := rd_same h3 d3 g5
            simp only [readEss, g1, g2, g4, g6]
            have := ih _ (by omega) c3 m hm d4 g7
            simp [this]

theorem pmt_safe (c : List Bytes) : pmtOf c ≠ .ub := by
  unfold pmtOf
  split
  · simp
  · simp
  · rename_i h; exact absurd h (section_safe 13 c)
  · rename_i len c1 h
    obtain ⟨h1, h2⟩ := section_full h
    obtain ⟨c2, h3, h4⟩ := rd_ok (n := 5) (c := c1) (by omega)
    rw [h3]
    dsimp only
    obtain ⟨v, c3, h5, h6⟩ := rd16_le (c := c2) (by rw [h4]; simp only [List.length_drop]; omega)
    rw [h5]
    dsimp only
    obtain ⟨w, c4, h7, h8⟩ := rd16_le (c := c3) (by rw [h6, h4]; simp only [List.length_drop]; omega)
    rw [h7]
    dsimp only
    split
    · simp
    · rename_i x c5 h9
      split
      · simp
      · split
        · simp
        · rename_i n hn
          have := count_read _ _ _ hn c5 rfl
          split
          · rename_i g; exact absurd g this
          · simp

theorem finishEs_safe (es : Es) (flush : Bool) : finishEs es flush ≠ .ub := by
  unfold finishEs
  split <;> simp

theorem bind_safe {α β : Type} {r : Res α} {f : α → Res β} (h : r ≠ .ub) (hf : ∀ a, r = .ok a → f a ≠ .ub) : r.bind f ≠ .ub := by
  cases r with
  | ub => exact absurd rfl h
  | error => simp
  | ok a => exact hf a rfl

theorem readPes_safe (prog : Prog) (es : Es) (h : Header) (b : Bytes) : readPes prog es h b ≠ .ub := by
  rw [readPes_eq]
  refine bind_safe ?_ (by simp)
  unfold esStep
  refine bind_safe ?_ ?_
  · split
    · exact finishEs_safe _ _
    · simp
  · intro x _
    exact bind_safe (finishEs_safe _ _) (by simp)

theorem readPmt_safe (prog : Prog) (h : Header) (b : Bytes) : readPmt prog h b ≠ .ub := by
  unfold readPmt
  split
  · simp
  · dsimp only
    split
    · simp
    · simp
    · rename_i e; exact absurd e (pmt_safe _)
    · simp

theorem toEs_safe (prog : Prog) (h : Header) (b : Bytes) (l : List Es) : toEs prog h b l ≠ some .ub := by
  induction l with
  | nil => simp [toEs]
  | cons e l ih =>
    simp only [toEs]
    split
    · intro g
      simp only [Option.some.injEq] at g
      exact bind_safe (readPes_safe prog e h b) (by simp) g
    · intro g
      simp only [Option.map_eq_some_iff] at g
      obtain ⟨r, h1, h2⟩ := g
      exact bind_safe (fun x => ih (by rw [h1, x])) (by simp) h2

theorem toProg_safe (h : Header) (b : Bytes) (l : List Prog) : toProg h b l ≠ some .ub := by
  induction l with
  | nil => simp [toProg]
  | cons p l ih =>
    simp only [toProg]
    split
    · intro g
      simp only [Option.some.injEq] at g
      exact bind_safe (readPmt_safe p h b) (by simp) g
    · split
      · rename_i r hr
        intro g
        simp only [Option.some.injEq] at g
        exact bind_safe (fun x => toEs_safe p h b p.es (by rw [hr, x])) (by simp) g
      · intro g
        simp only [Option.map_eq_some_iff] at g
        obtain ⟨r, h1, h2⟩ := g
        exact bind_safe (fun x => ih (by rw [h1, x])) (by simp) h2

theorem readPacket_safe (s : St) (b : Bytes) (h : b.length = 188) : readPacket s b ≠ .ub := by
  unfold readPacket
  refine bind_safe (header_safe h) ?_
  intro x _
  dsimp only
  split
  · unfold readPat
    split
    · simp
    · dsimp only
      split
      · simp
      · simp
      · rename_i e; exact absurd e (pat_safe _)
      · simp
  · split
    · rename_i r hr
      exact bind_safe (fun y => toProg_safe _ _ _ (by rw [hr, y])) (by simp)
    · simp

theorem feed_safe (n : Nat) (s : St) (a : Bytes) (ha : a.length ≤ n) (h : s.buf.length < 188) : feed s a ≠ .ub := by
  induction n generalizing s a with
  | zero =>
    have : a = [] := List.length_eq_zero_iff.1 (by omega)
    subst this
    rw [feed_short s [] (by simpa using h)]
    simp
  | succ n ih =>
    by_cases hs : s.buf.length + a.length < 188
    · rw [feed_short s a hs]
      simp
    · rw [feed_full s a h (by omega)]
      refine bind_safe (readPacket_safe _ _ (by simp; omega)) ?_
      intro s1 e
      exact ih s1 _ (by simp; omega) (by rw [readPacket_buf e]; simp)

end Verif.TsIn
