import Verif.Rtmp.SendModel
import Verif.Rtmp.SendSpec
import Verif.Rtmp.ChunkTrace
namespace Verif.Send
open Verif Verif.Chunk Verif.Chunk.Spec

theorem Packed.flatten {c : Nat} {out : List Bytes} {bs : Bytes} (h : Packed c out bs) : out.flatten = bs := by
  induction h with
  | last b => simp
  | cons b r bs _ _ _ ih => simp [ih]

theorem Packed.sum {c : Nat} {out : List Bytes} {bs : Bytes} (h : Packed c out bs) : (out.map List.length).sum = bs.length := by
  rw [← h.flatten, List.length_flatten]

theorem Packed.ne_nil {c : Nat} {out : List Bytes} {bs : Bytes} (h : Packed c out bs) : out ≠ [] := by
  cases h <;> simp

/-- Add more bytes at the end. -/
theorem Packed.snoc {c : Nat} {done : List Bytes} {b : Bytes} {bs x : Bytes} (hc : 1 ≤ c) (h : Packed c (done ++ [b]) bs)
    (hx : b.length + x.length ≤ c) : Packed c (done ++ [b ++ x]) (bs ++ x) := by
  induction done generalizing bs with
  | nil =>
    cases h with
    | last _ h1 => exact Packed.last _ (by rw [List.length_append]; exact hx)
    | cons _ _ _ _ _ h3 => exact absurd rfl h3.ne_nil
  | cons d ds ih =>
    generalize hl : d :: ds ++ [b] = l at h
    cases h with
    | last _ h1 => simp at hl
    | cons b' r bs' h1 h2 h3 =>
      simp only [List.cons_append, List.cons.injEq] at hl
      obtain ⟨rfl, rfl⟩ := hl
      have := ih h3
      rw [List.append_assoc]
      exact Packed.cons _ _ _ h1 (by simp [h2]) this

/-- A full last buffer and a new one. -/
theorem Packed.push {c : Nat} {done : List Bytes} {b : Bytes} {bs x : Bytes} (h : Packed c (done ++ [b]) bs)
    (hb : b.length = c) (hx : x.length ≤ c) (hne : x ≠ []) : Packed c (done ++ [b] ++ [x]) (bs ++ x) := by
  induction done generalizing bs with
  | nil =>
    cases h with
    | last _ h1 => exact Packed.cons _ _ _ hb hne (Packed.last _ hx)
    | cons _ _ _ _ _ h3 => exact absurd rfl h3.ne_nil
  | cons d ds ih =>
    generalize hl : d :: ds ++ [b] = l at h
    cases h with
    | last _ h1 => simp at hl
    | cons b' r bs' h1 h2 h3 =>
      simp only [List.cons_append, List.cons.injEq] at hl
      obtain ⟨rfl, rfl⟩ := hl
      have := ih h3
      rw [List.append_assoc _ bs' x]
      exact Packed.cons _ _ _ h1 (by simp [h2]) this

theorem fill_spec (cap : Nat) (cur p : Bytes) (cls : List Bytes) (hc : cur.length ≤ cap) :
    match fill cap cur p cls with
    | (b, none) => b = cur ++ p ++ cls.flatten ∧ b.length ≤ cap
    | (b, some (p', cls')) => ∃ x, b = cur ++ x ∧ x ++ p' ++ cls'.flatten = p ++ cls.flatten ∧ b.length = cap ∧ p' ≠ [] := by
  induction cls generalizing cur p with
  | nil =>
    unfold fill
    by_cases h : cap - cur.length ≥ p.length
    · rw [if_pos h]
      refine ⟨by simp, ?_⟩
      rw [List.length_append]; omega
    · rw [if_neg h]
      refine ⟨_, rfl, by simp, ?_, ?_⟩
      · simp; omega
      · intro hh; have := congrArg List.length hh; simp at this; omega
  | cons q qs ih =>
    unfold fill
    by_cases h : cap - cur.length ≥ p.length
    · rw [if_pos h]
      simp only
      have := ih (cur ++ p) q (by rw [List.length_append]; omega)
      rcases hf : fill cap (cur ++ p) q qs with ⟨b, _ | ⟨p', cls'⟩⟩
      · rw [hf] at this
        refine ⟨?_, this.2⟩
        rw [this.1]; simp
      · rw [hf] at this
        obtain ⟨x, h1, h2, h3, h4⟩ := this
        refine ⟨p ++ x, by rw [h1]; simp, ?_, h3, h4⟩
        simp only [List.flatten_cons, ← h2, List.append_assoc]
    · rw [if_neg h]
      refine ⟨_, rfl, by simp, ?_, ?_⟩
      · simp; omega
      · intro hh; have := congrArg List.length hh; simp at this; omega

/-- State of the destination: nothing, or a packed list of buffers. -/
def DstOk (cap : Nat) (done : List Bytes) (cur : Option Bytes) (bs : Bytes) : Prop :=
  match cur with
  | none => done = [] ∧ bs = []
  | some b => Packed cap (done ++ [b]) bs ∧ b.length ≤ cap

theorem appendLoop_spec (cap : Nat) (hc : 1 ≤ cap) (n : Nat) (done : List Bytes) (cur : Option Bytes) (p : Bytes)
    (cls : List Bytes) (bs : Bytes) (hd : DstOk cap done cur bs)
    (hfull : (∃ b, cur = some b ∧ b.length = cap) → p ++ cls.flatten ≠ [])
    (hn : p.length + cls.flatten.length + (if (∃ b, cur = some b ∧ b.length = cap) then 1 else 2) ≤ n) :
    ∃ out, appendLoop cap n done cur p cls = some out ∧ Packed cap out (bs ++ (p ++ cls.flatten)) := by
  induction n generalizing done cur p cls bs with
  | zero => split at hn <;> omega
  | succ n ih =>
    cases cur with
    | none =>
      obtain ⟨rfl, rfl⟩ := hd
      have hf := fill_spec cap [] p cls (by simp)
      simp only [appendLoop, Option.getD_none]
      rcases hff : fill cap [] p cls with ⟨b, _ | ⟨p', cls'⟩⟩
      · rw [hff] at hf
        refine ⟨_, rfl, ?_⟩
        simp only [List.nil_append]
        rw [hf.1]
        simp only [List.nil_append] at hf ⊢
        exact Packed.last _ (by rw [← hf.1]; exact hf.2)
      · rw [hff] at hf
        obtain ⟨x, h1, h2, h3, h4⟩ := hf
        simp only [List.nil_append] at h1
        subst h1
        have hlen := congrArg List.length h2
        simp only [List.length_append] at hlen
        simp only [reduceCtorEq, false_and, exists_false, ↓reduceIte] at hn
        obtain ⟨out, h5, h6⟩ := ih [] (some b) p' cls' b ⟨Packed.last _ (by omega), by omega⟩ (fun _ => by simp [h4])
          (by rw [if_pos ⟨b, rfl, h3⟩]; omega)
        refine ⟨out, h5, ?_⟩
        rw [← h2, List.nil_append, List.append_assoc]; exact h6
    | some b =>
      obtain ⟨hp, hb⟩ := hd
      by_cases hful : b.length = cap
      · have hne := hfull ⟨b, rfl, hful⟩
        have hf := fill_spec cap [] p cls (by simp)
        simp only [appendLoop, hful, ↓reduceIte, Option.getD_none]
        rw [if_pos ⟨b, rfl, hful⟩] at hn
        rcases hff : fill cap [] p cls with ⟨b2, _ | ⟨p', cls'⟩⟩
        · rw [hff] at hf
          refine ⟨_, rfl, ?_⟩
          rw [hf.1]
          simp only [List.nil_append] at hf ⊢
          exact hp.push hful (by rw [← hf.1]; exact hf.2) hne
        · rw [hff] at hf
          obtain ⟨x, h1, h2, h3, h4⟩ := hf
          simp only [List.nil_append] at h1
          subst h1
          have hlen := congrArg List.length h2
          simp only [List.length_append] at hlen
          obtain ⟨out, h5, h6⟩ := ih (done ++ [b]) (some b2) p' cls' (bs ++ b2)
            ⟨hp.push hful (by omega) (by intro hh; rw [hh] at h3; simp at h3; omega), by omega⟩ (fun _ => by simp [h4])
            (by rw [if_pos ⟨b2, rfl, h3⟩]; omega)
          refine ⟨out, h5, ?_⟩
          rw [← h2]
          simpa [List.append_assoc] using h6
      · have hf := fill_spec cap b p cls hb
        simp only [appendLoop, hful, ↓reduceIte, Option.getD_some]
        have hnf : ¬ ∃ b', some b = some b' ∧ b'.length = cap := by
          rintro ⟨b', e, h⟩
          cases e
          exact hful h
        rw [if_neg hnf] at hn
        rcases hff : fill cap b p cls with ⟨b2, _ | ⟨p', cls'⟩⟩
        · rw [hff] at hf
          refine ⟨_, rfl, ?_⟩
          rw [hf.1, List.append_assoc]
          have h2 := hf.2
          rw [hf.1] at h2
          exact hp.snoc hc (by simp only [List.length_append] at h2 ⊢; omega)
        · rw [hff] at hf
          obtain ⟨x, h1, h2, h3, h4⟩ := hf
          subst h1
          have hlen := congrArg List.length h2
          simp only [List.length_append] at hlen h3
          obtain ⟨out, h5, h6⟩ := ih done (some (b ++ x)) p' cls' (bs ++ x)
            ⟨hp.snoc hc (by omega), by rw [List.length_append]; omega⟩ (fun _ => by simp [h4])
            (by rw [if_pos ⟨b ++ x, rfl, by rw [List.length_append]; exact h3⟩]; omega)
          refine ⟨out, h5, ?_⟩
          rw [← h2]
          simpa [List.append_assoc] using h6

theorem Packed.unique {c : Nat} (hc : 1 ≤ c) {a b : List Bytes} {bs : Bytes} (ha : Packed c a bs) (hb : Packed c b bs) : a = b := by
  induction ha generalizing b with
  | last x hx =>
    cases hb with
    | last => rfl
    | cons y r bs' h1 h2 h3 =>
      exfalso
      rw [List.length_append] at hx
      have := List.length_pos_iff.2 h2
      omega
  | cons y r bs' h1 h2 h3 ih =>
    generalize hg : y ++ bs' = g at hb
    cases hb with
    | last _ h4 =>
      exfalso
      rw [← hg, List.length_append] at h4
      have := List.length_pos_iff.2 h2
      omega
    | cons y2 r2 bs2 h4 h5 h6 =>
      obtain ⟨e1, e2⟩ := List.append_inj hg (by omega)
      subst e1
      subst e2
      rw [ih h6]

/-! C02: serialised frames are traces of the specification -/

theorem outBasic_eq {fmt csid : Nat} (h2 : 2 ≤ csid) (hc : csid < 65600) : outBasic fmt csid = encBasic false fmt csid := by
  unfold outBasic encBasic
  by_cases h : csid < 64
  · rw [if_pos ⟨h2, by omega⟩, if_pos h, Nat.mod_eq_of_lt h]
  · rw [if_neg (by omega), if_neg h]
    by_cases h3 : csid < 320
    · rw [if_pos ⟨by omega, h3⟩, if_pos ⟨h3, rfl⟩]
    · rw [if_neg (by omega), if_neg (by omega)]
      rw [show (csid + 2 ^ 32 - 64) % 2 ^ 32 = csid - 64 by omega]
      rfl

variable {σ : Type}

/-- The chunks of one message. -/
def events (m : Msg) (out : List Bytes) : List Ev :=
  .start m.hdr.csid false 0 m.hdr.ts m.hdr.type m.hdr.msid m.payload ::
    List.replicate (out.length - 1) (.cont m.hdr.csid false)

/-- Serialised continuation chunks. -/
def contBytes (rep : Bool) (csid : Nat) (t : SS) (out : List Bytes) : Bytes :=
  out.flatMap (fun b => encBasic false 3 csid ++ (if t.ext && rep then beEnc 4 t.extv else []) ++ b)

theorem trace_append (rep : Bool) (h : σ → Msg → σ × HRc) (a b : List Ev) (x : σ) (d : Snd) {x' : σ} {d' : Snd} {bs : Bytes}
    (ha : trace rep h x d a = (bs, .live x' d')) :
    trace rep h x d (a ++ b) = (bs ++ (trace rep h x' d' b).1, (trace rep h x' d' b).2) := by
  induction a generalizing x d bs with
  | nil => simp only [trace, Prod.mk.injEq, Exp.live.injEq] at ha; obtain ⟨rfl, rfl, rfl⟩ := ha; simp
  | cons e es ih =>
    simp only [trace, List.cons_append] at ha ⊢
    cases hef : e.effect h x d with
    | live x1 d1 =>
      rw [hef] at ha
      simp only [Prod.mk.injEq] at ha ⊢
      obtain ⟨h1, h2⟩ := ha
      have := ih x1 d1 (bs := (trace rep h x1 d1 es).1) (by rw [← h2])
      rw [this]
      refine ⟨?_, rfl⟩
      simp [← h1]
    | closed x1 => rw [hef] at ha; simp at ha

theorem valid_append (cfg : Cfg) (rep : Bool) (h : σ → Msg → σ × HRc) (a b : List Ev) (x : σ) (d : Snd) {x' : σ} {d' : Snd}
    {bs : Bytes} (ha : trace rep h x d a = (bs, .live x' d')) (hva : Valid cfg h x d a) (hvb : Valid cfg h x' d' b) :
    Valid cfg h x d (a ++ b) := by
  induction a generalizing x d bs with
  | nil => simp only [trace, Prod.mk.injEq, Exp.live.injEq] at ha; obtain ⟨rfl, rfl, rfl⟩ := ha; exact hvb
  | cons e es ih =>
    simp only [trace, List.cons_append, Valid] at ha hva ⊢
    refine ⟨hva.1, ?_⟩
    have hv2 := hva.2
    cases hef : e.effect h x d with
    | live x1 d1 =>
      rw [hef] at ha hv2
      simp only [Prod.mk.injEq] at ha
      exact ih x1 d1 (bs := (trace rep h x1 d1 es).1) (by rw [← ha.2]) hv2
    | closed x1 => trivial

theorem smallPending_of_ok (h : σ → Msg → σ × HRc) (hok : ∀ x m c, (h x m).2 ≠ .newChunk c) (es : List Ev) (x : σ) (d : Snd) :
    SmallPending h x d es := by
  induction es generalizing x d with
  | nil => trivial
  | cons e es ih =>
    refine ⟨?_, ?_⟩
    · rcases e.next d with ⟨d', _ | m⟩
      · trivial
      · simp only
        cases hh : (h x m).2 with
        | newChunk c => exact absurd hh (hok x m c)
        | fail => trivial
        | ok => trivial
    · cases e.effect h x d with
      | live x' d' => exact ih x' d'
      | closed _ => trivial

theorem set_set (d : Snd) (i : Nat) (a b : SS) : (d.set i a).set i b = d.set i b := by
  simp only [Snd.set]
  congr 1
  funext j
  by_cases h : j = i <;> simp [h]

theorem set_same (d : Snd) (i : Nat) (a : SS) : (d.set i a).st i = a := by simp [Snd.set]

theorem conts_trace (cfg : Cfg) (rep : Bool) (f : σ → Msg → σ) (csid : Nat) (h2 : 2 ≤ csid) (hc : csid < 65600)
    (hm : csid < cfg.maxStreams) (d0 : Snd) (hpos : 1 ≤ d0.chunk) (x : σ) (t : SS) (out : List Bytes) (bs : Bytes) (hp : Packed d0.chunk out bs)
    (hbs : bs ≠ []) (ht : t.rest = bs) :
    trace rep (fun x m => (f x m, HRc.ok)) x (d0.set csid t) (List.replicate out.length (.cont csid false)) =
      (contBytes rep csid t out, .live (f x ⟨⟨csid, t.ts, t.mlen, t.type, t.msid⟩, t.sent ++ t.rest⟩)
        (d0.set csid { t with sent := [], rest := [] })) ∧
    Valid cfg (fun x m => (f x m, HRc.ok)) x (d0.set csid t) (List.replicate out.length (.cont csid false)) := by
  induction hp generalizing t x with
  | last b hb =>
    subst ht
    have hef : Ev.effect (fun x m => (f x m, HRc.ok)) x (d0.set csid t) (.cont csid false) =
        .live (f x ⟨⟨csid, t.ts, t.mlen, t.type, t.msid⟩, t.sent ++ t.rest⟩) (d0.set csid { t with sent := [], rest := [] }) := by
      simp only [Ev.effect, Ev.next, Ev.cur, Ev.csid, set_same, SS.take]
      rw [if_pos (by exact hb)]
      simp only [react, set_set]
    refine ⟨?_, ?_⟩
    · simp only [List.length_cons, List.length_nil, Nat.zero_add, List.replicate, trace, hef, List.append_nil, Ev.bytes, set_same, contBytes,
        List.flatMap_cons, List.flatMap_nil]
      rw [show (d0.set csid t).chunk = d0.chunk from rfl, List.take_of_length_le hb]
    · simp only [List.length_cons, List.length_nil, Nat.zero_add, List.replicate, Valid, hef, and_true]
      exact ⟨h2, hc, hm, by rw [set_same]; exact hbs⟩
  | cons b r bs' h1 h3 h4 ih =>
    have hlen : ¬ t.rest.length ≤ d0.chunk := by
      rw [ht, List.length_append]
      have := List.length_pos_iff.2 h3
      omega
    have htk : t.rest.take d0.chunk = b := by rw [ht, ← h1]; simp
    have hdr : t.rest.drop d0.chunk = bs' := by rw [ht, ← h1]; simp
    have hef : Ev.effect (fun x m => (f x m, HRc.ok)) x (d0.set csid t) (.cont csid false) =
        .live x (d0.set csid { t with sent := t.sent ++ b, rest := bs' }) := by
      simp only [Ev.effect, Ev.next, Ev.cur, Ev.csid, set_same, SS.take]
      rw [if_neg (by exact hlen)]
      simp only [set_set]
      rw [show (d0.set csid t).chunk = d0.chunk from rfl, htk, hdr]
    obtain ⟨i1, i2⟩ := ih x { t with sent := t.sent ++ b, rest := bs' } h3 rfl
    refine ⟨?_, ?_⟩
    · simp only [List.length_cons, List.replicate_succ, trace, hef, i1, Ev.bytes, set_same]
      rw [show (d0.set csid t).chunk = d0.chunk from rfl, htk]
      simp only [contBytes, List.flatMap_cons, Prod.mk.injEq, true_and]
      rw [ht]
      simp
    · simp only [List.length_cons, List.replicate_succ, Valid, hef]
      refine ⟨⟨h2, hc, hm, ?_⟩, i2⟩
      rw [set_same, ht]; simp [h3]

/-- No message is unfinished. -/
def Rested (d : Snd) : Prop := ∀ i, (d.st i).rest = []

theorem msg_trace (cfg : Cfg) (play rep : Bool) (f : σ → Msg → σ) (m : Msg) (d : Snd) (hpos : 1 ≤ d.chunk) (x : σ)
    (out : List Bytes) (hm : OkMsg cfg m) (hr : Rested d) (hp : Packed d.chunk out m.payload)
    (hfix : play = rep ∨ m.hdr.ts < 0xffffff) :
    ∃ d', prepareOut cfg.maxStreams play m.hdr out = some (trace rep (fun x m => (f x m, HRc.ok)) x d (events m out)).1 ∧
      (trace rep (fun x m => (f x m, HRc.ok)) x d (events m out)).2 = .live (f x m) d' ∧
      Valid cfg (fun x m => (f x m, HRc.ok)) x d (events m out) ∧ Rested d' ∧ d'.chunk = d.chunk := by
  obtain ⟨hdr, payload⟩ := m
  obtain ⟨csid, ts, mlen, type, msid⟩ := hdr
  obtain ⟨c2, cb, cm, h1, h2, h3, h4, h5, h6⟩ := hm
  simp only at c2 cb cm h1 h2 h3 h4 h5 h6 hp hfix
  subst h4
  have hv : Ev.valid cfg d (.start csid false 0 ts type msid payload) :=
    ⟨c2, cb, cm, by omega, hr csid, h5, h6, h2, h3, h1, fun h => absurd rfl h, fun h => absurd h (by omega), fun h => absurd h (by omega)⟩
  have hrest' : ∀ t : SS, t.rest = [] → Rested (d.set csid t) := by
    intro t ht i
    simp only [Snd.set]
    split
    · exact ht
    · exact hr i
  have hmsum : (out.map List.length).sum % 2 ^ 32 = payload.length := by
    rw [hp.sum]; exact Nat.mod_eq_of_lt (by omega)
  have hmin : (if ts ≥ 0xffffff then 0xffffff else ts) = min ts 0xffffff := by
    split
    · rw [Nat.min_eq_right (by assumption)]
    · rw [Nat.min_eq_left (by omega)]
  have hhead : encMsgHdr rep 0 ts payload.length type msid =
      beEnc 3 (min ts 0xffffff) ++ beEnc 3 payload.length ++ [UInt8.ofNat type] ++ leEnc 4 msid ++
      (if ts ≥ 0xffffff then beEnc 4 ts else []) := by
    unfold encMsgHdr
    simp
  have hth : (if ts ≥ 0xffffff ∧ play = true then beEnc 4 ts else []) =
      (if (decide (ts ≥ 0xffffff) && rep) = true then beEnc 4 ts else []) := by
    rcases hfix with rfl | hlt
    · simp
    · rw [if_neg (by omega), if_neg (by simp; omega)]
  have hpo : prepareOut cfg.maxStreams play ⟨csid, ts, payload.length, type, msid⟩ out =
      match out.dropWhile (· = []) with
      | [] => some (encBasic false 0 csid ++ encMsgHdr rep 0 ts payload.length type msid)
      | b :: bs => some (encBasic false 0 csid ++ encMsgHdr rep 0 ts payload.length type msid ++ b ++
          bs.flatMap (fun b => encBasic false 3 csid ++ (if (decide (ts ≥ 0xffffff) && rep) = true then beEnc 4 ts else []) ++ b)) := by
    unfold prepareOut
    simp only [if_neg (Nat.not_le.2 cm), hmsum, hmin, hth, outBasic_eq c2 cb, hhead]
    cases out.dropWhile (· = []) <;> simp only [List.append_assoc]
  rw [hpo]
  generalize hpay : payload = P at hp
  cases hp with
  | last b hb =>
    subst hpay
    have hef : Ev.effect (fun x m => (f x m, HRc.ok)) x d (.start csid false 0 ts type msid payload) =
        .live (f x ⟨⟨csid, ts, payload.length, type, msid⟩, payload⟩)
          (d.set csid { startSS (d.st csid) 0 ts type msid payload with sent := [], rest := [] }) := by
      have htake : (startSS (d.st csid) 0 ts type msid payload).take csid d.chunk =
          ({ startSS (d.st csid) 0 ts type msid payload with sent := [], rest := [] },
            some ⟨⟨csid, ts, payload.length, type, msid⟩, payload⟩) := by
        rw [SS.take.eq_1, if_pos (by exact hb)]; rfl
      simp only [Ev.effect, Ev.next, Ev.cur, Ev.csid, htake, react]
    refine ⟨d.set csid { startSS (d.st csid) 0 ts type msid payload with sent := [], rest := [] }, ?_, ?_, ?_, ?_, rfl⟩
    · simp only [events, List.length_cons, List.length_nil, Nat.zero_add, Nat.sub_self, List.replicate, trace, hef, List.append_nil, Ev.bytes]
      rw [List.take_of_length_le hb]
      by_cases he : payload = []
      · simp [he]
      · simp [he]
    · simp only [events, List.length_cons, List.length_nil, Nat.zero_add, Nat.sub_self, List.replicate, trace, hef]
    · simp only [events, List.length_cons, List.length_nil, Nat.zero_add, Nat.sub_self, List.replicate, Valid, hef, and_true]
      exact hv
    · exact hrest' _ rfl
  | cons b r bs' g1 g2 g3 =>
    have hlen : ¬ payload.length ≤ d.chunk := by
      rw [hpay, List.length_append]
      have := List.length_pos_iff.2 g2
      omega
    have htk : payload.take d.chunk = b := by rw [hpay, ← g1]; simp
    have hdp : payload.drop d.chunk = bs' := by rw [hpay, ← g1]; simp
    have hef : Ev.effect (fun x m => (f x m, HRc.ok)) x d (.start csid false 0 ts type msid payload) =
        .live x (d.set csid { startSS (d.st csid) 0 ts type msid payload with sent := b, rest := bs' }) := by
      have htake : (startSS (d.st csid) 0 ts type msid payload).take csid d.chunk =
          ({ startSS (d.st csid) 0 ts type msid payload with sent := b, rest := bs' }, none) := by
        rw [SS.take.eq_1, if_neg (by exact hlen)]
        rw [show (startSS (d.st csid) 0 ts type msid payload).rest = payload from rfl,
          show (startSS (d.st csid) 0 ts type msid payload).sent = [] from rfl, htk, hdp]
        rfl
      simp only [Ev.effect, Ev.next, Ev.cur, Ev.csid, htake]
    obtain ⟨i1, i2⟩ := conts_trace cfg rep f csid c2 cb cm d hpos x
      { startSS (d.st csid) 0 ts type msid payload with sent := b, rest := bs' } r bs' g3 g2 rfl
    refine ⟨_, ?_, ?_, ?_, hrest' { startSS (d.st csid) 0 ts type msid payload with sent := [], rest := [] } rfl, rfl⟩
    · subst hpay
      simp only [events, List.length_cons, Nat.add_sub_cancel, trace, hef, i1, Ev.bytes]
      have hbne : b ≠ [] := by intro hh; rw [hh] at g1; simp at g1; omega
      rw [htk, List.dropWhile_cons]
      simp only [hbne, decide_false, Bool.false_eq_true, ↓reduceIte, contBytes, Option.some.injEq]
      congr 1
      unfold startSS
      by_cases hx : ts ≥ 0xffffff
      · simp only [hx, decide_true, ↓reduceIte]
      · simp only [hx, decide_false, Bool.false_and, Bool.false_eq_true, ↓reduceIte]
    · subst hpay
      simp only [events, List.length_cons, Nat.add_sub_cancel, trace, hef, i1]
      rfl
    · subst hpay
      simp only [events, List.length_cons, Nat.add_sub_cancel, Valid, hef]
      exact ⟨hv, i2⟩

end Verif.Send
