import Verif.Rtmp.FlvParse
import Verif.Rtmp.FlvOut
/-
C47: HTTP-FLV output is a well-formed FLV stream of the queued media frames.
C48: the FLV parser of the pull relay. C49: relaying over HTTP-FLV.
Format: FlvSpec.
-/
namespace Verif.Flv
open Verif Verif.Queue

/-! ### C47 -/

/-- Audio, video and metadata messages (types of the RTMP specification; 15 and 18: data messages in AMF3 and AMF0). -/
def isMedia (f : Frame) : Bool := f.type = 8 ∨ f.type = 9 ∨ f.type = 15 ∨ f.type = 18

/-- The tag a frame stands for. -/
def Frame.tag (f : Frame) : Tag := ⟨f.type, f.ts, 0, f.bufs.flatten⟩

/-- Values of the C types, and a payload that FLV can express. -/
structure Frame.Ok (f : Frame) : Prop where
  hType : f.type < 256
  hTs : f.ts < 2 ^ 32
  hLen : f.bufs.flatten.length < 2 ^ 24

/-- FLV bytes of the media frames of a list. -/
def mediaBytes (fs : List Frame) : Bytes := (fs.filter isMedia).flatMap fun f => f.tag.bytes

theorem sum_length (l : List Bytes) : (l.map List.length).sum = l.flatten.length := by simp [List.length_flatten]

theorem tagChain_tag (f : Frame) (h : f.Ok) : (tagChain f).flatten = f.tag.bytes := by
  have h1 := h.hTs
  have e : ∀ n, byteAt n 0 = UInt8.ofNat (n / 256 ^ 0) := fun n => rfl
  have ets : ∀ i, i < 3 → UInt8.ofNat (f.ts % 2 ^ 24 / 256 ^ i) = UInt8.ofNat (f.ts / 256 ^ i) := by
    intro i hi
    apply UInt8.toNat_inj.1
    rw [UInt8.toNat_ofNat', UInt8.toNat_ofNat']
    match i, hi with
    | 0, _ => omega
    | 1, _ => omega
    | 2, _ => omega
  simp only [tagChain, sum_length, Tag.bytes, Tag.head, Tag.back, Frame.tag, beEnc, byteAt, List.flatten_append, List.flatten_cons, List.flatten_nil,
    List.append_nil, List.nil_append, List.cons_append, ets 0 (by omega), ets 1 (by omega), ets 2 (by omega)]
  simp [Nat.add_comm 11]

theorem wanted_media (f : Frame) : wanted f.type = isMedia f := by
  simp only [wanted, isMedia]
  by_cases h1 : f.type = 8 <;> by_cases h2 : f.type = 9 <;> by_cases h3 : f.type = 15 <;> by_cases h4 : f.type = 18 <;> simp_all

theorem yes_media (fs : List Frame) : yes fs = fs.filter isMedia := by
  unfold yes
  congr 1
  funext f
  exact wanted_media f

theorem tagsOf_media {fs : List Frame} (h : ∀ f ∈ fs, f.Ok) : tagsOf fs = mediaBytes fs := by
  show (yes fs).flatMap _ = _
  rw [yes_media, mediaBytes]
  have : ∀ l : List Frame, (∀ f ∈ l, f.Ok) → (l.flatMap fun f => (tagChain f).flatten) = l.flatMap fun f => f.tag.bytes := by
    intro l
    induction l with
    | nil => intro _; rfl
    | cons f l ih =>
      intro h
      rw [List.flatMap_cons, List.flatMap_cons, tagChain_tag f (h f (by simp)), ih (fun g hg => h g (by simp [hg]))]
  exact this _ (fun f hf => h f (List.mem_filter.1 hf).1)

theorem chooseHeader_some {a v : Nat} {x y : Bool} {h : Bytes} (e : chooseHeader a v x y = some h) : ∃ fl, h = fileHeader fl 9 := by
  have : ∀ fl, flvHeader fl = fileHeader fl 9 := fun _ => rfl
  unfold chooseHeader at e
  repeat' split at e
  all_goals first | (cases e; exact ⟨_, this _⟩) | cases e

/-- Invariant of runs: `hdr` is empty or the header chosen. -/
structure Ok (cfg : Cfg) (x : Run) : Prop where
  inv : ∃ a b q hdr body, Inv x a b q hdr body ∧
    (x.s.headerSent = true → x.s.dead = false → ∃ u v, chooseHeader cfg.audio cfg.video u v = some hdr)

theorem write_ok (cfg : Cfg) (u v : Bool) (ks : List Nat) {x : Run} (h : Ok cfg x) :
    ∃ s', writeHandler cfg u v ks x.s = some s' ∧ Ok cfg ⟨s', x.accepted⟩ := by
  obtain ⟨a, b, q, hdr, body, hi, hh⟩ := h.inv
  unfold writeHandler
  by_cases hd : x.s.dead = true
  · rw [if_pos hd]; exact ⟨_, rfl, h⟩
  · rw [if_neg hd]
    obtain ⟨s', e, g1, g2, g3, a', b', q', hi', hp, hle, hlt⟩ := inv_prepare hi cfg.merge
    rw [e, Option.bind_some]
    have hok : Ok cfg ⟨s', x.accepted⟩ := ⟨a', b', q', hdr, body, hi', by rw [g1, g2]; exact hh⟩
    by_cases ho : s'.out = []
    · rw [if_pos ho]; exact ⟨_, rfl, hok⟩
    · rw [if_neg ho]
      have hdead : s'.dead = false := by rw [g2]; simpa using hd
      by_cases hs : s'.headerSent = true
      · have e2 : sendHeader cfg u v s' = s' := by simp [sendHeader, hs]
        simp only [e2, hdead, Bool.false_eq_true, if_false]
        obtain ⟨s'', f1, f2, f3, ⟨a2, b2, q2, body2, f4⟩, _⟩ := inv_writeLoop cfg.merge ks (x := ⟨s', x.accepted⟩) hi' hs hdead
        refine ⟨s'', f1, a2, b2, q2, hdr, body2, f4, ?_⟩
        intro _ _
        exact hh (by rw [← g1]; exact hs) (by simpa using hd)
      · have hs' : s'.headerSent = false := by simpa using hs
        obtain ⟨rfl, rfl⟩ := hi'.noHdr (Or.inl hs')
        cases ec : chooseHeader cfg.audio cfg.video u v with
        | none =>
          have e2 : sendHeader cfg u v s' = { s' with headerSent := true, dead := true } := by simp [sendHeader, hs', ec]
          simp only [e2, if_pos]
          refine ⟨_, rfl, a', b', q', [], [], ?_, by simp⟩
          exact ⟨hi'.acc, hi'.ring, hi'.held, hi'.rel, hi'.relYes, hi'.bytes, hi'.sent, hi'.wire, fun _ => ⟨rfl, rfl⟩⟩
        | some hd' =>
          have e2 : sendHeader cfg u v s' = { s' with headerSent := true, wire := s'.wire ++ hd' } := by simp [sendHeader, hs', ec]
          simp only [e2, hdead, Bool.false_eq_true, if_false]
          have hw : s'.wire = [] := by rw [hi'.wire]; rfl
          have hi2 : Inv ⟨{ s' with headerSent := true, wire := s'.wire ++ hd' }, x.accepted⟩ a' b' q' hd' [] :=
            ⟨hi'.acc, hi'.ring, hi'.held, hi'.rel, hi'.relYes, hi'.bytes, hi'.sent, by simp [hw], by simp [hdead]⟩
          obtain ⟨s'', f1, f2, f3, ⟨a2, b2, q2, body2, f4⟩, _⟩ := inv_writeLoop cfg.merge ks hi2 rfl hdead
          refine ⟨s'', ?_, a2, b2, q2, hd', body2, f4, fun _ _ => ⟨u, v, ec⟩⟩
          simpa [hdead] using f1

theorem step_ok (cfg : Cfg) {x : Run} (h : Ok cfg x) (o : Op) : ∃ x', step cfg x o = some x' ∧ Ok cfg x' := by
  cases o with
  | send f p =>
    obtain ⟨a, b, q, hdr, body, hi, hh⟩ := h.inv
    have hcount := hi.ring.count_eq
    simp only [step, sendMessage]
    by_cases hc : nmsg x.s.ring + capPrio p * x.s.ring.size / 4 ≥ x.s.ring.size
    · simp only [if_pos hc]
      exact ⟨_, rfl, h⟩
    · simp only [if_neg hc]
      have hroom : q.length + 1 < x.s.ring.size := by
        have : nmsg x.s.ring = q.length + 1 := by
          show x.s.ring.count + 1 = _
          rw [hcount]
        omega
      refine ⟨_, rfl, a, b, q ++ [f], hdr, body, ?_, hh⟩
      exact ⟨by show x.accepted ++ [f] = _; rw [hi.acc]; simp, hi.ring.push f hroom, hi.held, hi.rel, hi.relYes, hi.bytes, hi.sent, hi.wire, hi.noHdr⟩
  | write u v ks =>
    obtain ⟨s', e, h'⟩ := write_ok cfg u v ks h
    exact ⟨⟨s', x.accepted⟩, by simp [step, e], h'⟩

theorem init_ok (cfg : Cfg) (size : Nat) (hs : 0 < size) : Ok cfg ⟨Out.init size, []⟩ :=
  ⟨[], [], [], [], [], ⟨rfl, holds_init size hs, rfl, List.Perm.refl _, rfl, rfl, ⟨[], rfl⟩, rfl, fun _ => ⟨rfl, rfl⟩⟩, by simp [Out.init]⟩

theorem run_ok (cfg : Cfg) : ∀ (ops : List Op) {x : Run}, Ok cfg x → ∃ x', run cfg x ops = some x' ∧ Ok cfg x' := by
  intro ops
  induction ops with
  | nil => intro x h; exact ⟨x, rfl, h⟩
  | cons o ops ih =>
    intro x h
    obtain ⟨x', e, h'⟩ := step_ok cfg h o
    obtain ⟨x'', e', h''⟩ := ih h'
    exact ⟨x'', by simp [run, e, e'], h''⟩

/-- Frames in the operations of a history. -/
def framesOf : List Op → List Frame
  | [] => []
  | .send f _ :: os => f :: framesOf os
  | .write _ _ _ :: os => framesOf os

theorem accepted_sub (cfg : Cfg) : ∀ (ops : List Op) {x x' : Run}, run cfg x ops = some x' → ∀ f ∈ x'.accepted, f ∈ x.accepted ∨ f ∈ framesOf ops := by
  intro ops
  induction ops with
  | nil => intro x x' e f hf; cases e; exact Or.inl hf
  | cons o ops ih =>
    intro x x' e f hf
    simp only [run] at e
    cases es : step cfg x o with
    | none => rw [es] at e; cases e
    | some y =>
      rw [es, Option.bind_some] at e
      rcases ih e f hf with h | h
      · cases o with
        | send g p =>
          simp only [step] at es
          split at es <;> cases es
          · rcases List.mem_append.1 h with h | h
            · exact Or.inl h
            · right; simp at h; simp [framesOf, h]
          · exact Or.inl h
        | write u v ks =>
          simp only [step] at es
          cases ew : writeHandler cfg u v ks x.s with
          | none => rw [ew] at es; cases es
          | some s' => rw [ew] at es; cases es; exact Or.inl h
      · right
        cases o <;> simp [framesOf, h]

/-- C47 (stream): whatever is queued and however the client reads, the response body is empty or an FLV header followed by a prefix of the FLV
tags of the accepted media frames, in order; what is missing are the bytes of the pending chain and the queued frames. No
undefined behaviour occurs. -/
theorem C47_stream (cfg : Cfg) (size : Nat) (hs : 0 < size) (ops : List Op) (hok : ∀ f ∈ framesOf ops, f.Ok) :
    ∃ x, run cfg ⟨Out.init size, []⟩ ops = some x ∧
      (x.s.wire = [] ∨ ∃ flags body q, x.s.wire = fileHeader flags 9 ++ body ∧ q <:+ x.accepted ∧ x.s.ring.count = q.length ∧
        body ++ x.s.out ++ mediaBytes q = mediaBytes x.accepted) := by
  obtain ⟨x, e, h⟩ := run_ok cfg ops (init_ok cfg size hs)
  refine ⟨x, e, ?_⟩
  have hacc : ∀ f ∈ x.accepted, f.Ok := by
    intro f hf
    rcases accepted_sub cfg ops e f hf with h | h
    · simp at h
    · exact hok f h
  obtain ⟨a, b, q, hdr, body, hi, hh⟩ := h.inv
  by_cases hc : x.s.headerSent = false ∨ x.s.dead = true
  · left
    obtain ⟨rfl, rfl⟩ := hi.noHdr hc
    rw [hi.wire]; rfl
  · right
    have h1 : x.s.headerSent = true := by
      cases h : x.s.headerSent with
      | true => rfl
      | false => exact absurd (Or.inl h) hc
    have h2 : x.s.dead = false := by
      cases h : x.s.dead with
      | true => exact absurd (Or.inr h) hc
      | false => rfl
    obtain ⟨u, v, hu⟩ := hh h1 h2
    obtain ⟨fl, rfl⟩ := chooseHeader_some hu
    refine ⟨fl, body, q, hi.wire, ⟨a ++ b, hi.acc.symm⟩, hi.ring.count_eq, ?_⟩
    rw [hi.bytes, hi.acc, ← tagsOf_media, ← tagsOf_media, ← tagsOf_append]
    · intro f hf; rw [← hi.acc] at hf; exact hacc f hf
    · intro f hf; exact hacc f (by rw [hi.acc]; simp [hf])

/-- C47 (release): every accepted frame is released, held or queued, exactly once; a released media frame is completely on the wire. -/
theorem C47_released (cfg : Cfg) (size : Nat) (hs : 0 < size) (ops : List Op) (hok : ∀ f ∈ framesOf ops, f.Ok) (x : Run)
    (hx : run cfg ⟨Out.init size, []⟩ ops = some x) :
    (∃ q, x.s.ring.count = q.length ∧ (x.s.released ++ x.s.held ++ q).Perm x.accepted) ∧
    ∃ hdr t, x.s.wire = hdr ++ mediaBytes x.s.released ++ t := by
  obtain ⟨x', e, h⟩ := run_ok cfg ops (init_ok cfg size hs)
  rw [hx] at e
  cases e
  obtain ⟨a, b, q, hdr, body, hi, hh⟩ := h.inv
  have hacc : ∀ f ∈ x.accepted, f.Ok := by
    intro f hf
    rcases accepted_sub cfg ops hx f hf with h | h
    · simp at h
    · exact hok f h
  refine ⟨⟨q, hi.ring.count_eq, ?_⟩, hdr, ?_⟩
  · rw [hi.acc, hi.held]
    refine List.Perm.append_right _ ?_
    refine (List.Perm.append_right _ hi.rel).trans ?_
    rw [List.append_assoc]
    exact List.Perm.append_left _ (no_split b).symm
  · obtain ⟨t, ht⟩ := hi.sent
    refine ⟨t, ?_⟩
    rw [hi.wire, ht, List.append_assoc]
    congr 2
    rw [tagsOf_media (by intro f hf; exact hacc f (by rw [hi.acc]; simp [hf]))]
    have := hi.relYes
    rw [yes_media, yes_media] at this
    rw [mediaBytes, mediaBytes, this]

/-- C47 (delivery): when the client reads everything, a single write event puts all accepted media frames on the wire. -/
theorem C47_drained (cfg : Cfg) (size : Nat) (hs : 0 < size) (hm : 1 ≤ cfg.merge) (hcfg : cfg.audio = 1 ∧ cfg.video = 1) (ops : List Op)
    (hok : ∀ f ∈ framesOf ops, f.Ok) (x : Run) (hx : run cfg ⟨Out.init size, []⟩ ops = some x) (hdead : x.s.dead = false) (u v : Bool) (n k : Nat)
    (hn : x.accepted.length < n) (hk : (mediaBytes x.accepted).length ≤ k) :
    ∃ x', step cfg x (.write u v (List.replicate n k)) = some x' ∧ x'.s.ring.count = 0 ∧ x'.s.out = [] ∧
      (x'.s.wire = fileHeader 5 9 ++ mediaBytes x.accepted ∨ (x'.s.wire = [] ∧ mediaBytes x.accepted = [])) := by
  obtain ⟨x', e, h⟩ := run_ok cfg ops (init_ok cfg size hs)
  rw [hx] at e
  cases e
  have hacc : ∀ f ∈ x.accepted, f.Ok := by
    intro f hf
    rcases accepted_sub cfg ops hx f hf with h | h
    · simp at h
    · exact hok f h
  have hch : ∀ u v, chooseHeader cfg.audio cfg.video u v = some (fileHeader 5 9) := by
    intro u v
    rw [hcfg.1, hcfg.2]; rfl
  obtain ⟨a, b, q, hdr, body, hi, hh⟩ := h.inv
  obtain ⟨s', e, g1, g2, g3, a', b', q', hi', hp, hle, hlt⟩ := inv_prepare hi cfg.merge
  have hd' : s'.dead = false := by rw [g2]; exact hdead
  have hq : q'.length ≤ x.accepted.length := by
    rw [hi'.acc, List.length_append]; omega
  have htk : ∀ k' ∈ List.replicate n k, ∀ l, l = tagsOf x.accepted → l.length ≤ k' := by
    intro k' hk' l hl
    rw [List.eq_of_mem_replicate hk', hl, tagsOf_media hacc]; exact hk
  have fin : ∀ (s'' : Out) (a2 b2 : List Frame) (hd body2 : Bytes), Inv ⟨s'', x.accepted⟩ a2 b2 [] hd body2 → s''.out = [] →
      s''.ring.count = 0 ∧ s''.wire = hd ++ mediaBytes x.accepted := by
    intro s'' a2 b2 hd body2 f4 f5
    refine ⟨f4.ring.count_eq, ?_⟩
    rw [f4.wire]
    have h1 := f4.bytes
    simp only [f5, List.append_nil] at h1
    have h2 := f4.acc
    simp only [List.append_nil] at h2
    rw [h1, ← h2, tagsOf_media hacc]
  simp only [step, writeHandler, hdead, Bool.false_eq_true, if_false, e, Option.bind_some]
  by_cases ho : s'.out = []
  · simp only [ho, if_pos, Option.map_some]
    have := hp hm ho
    subst this
    obtain ⟨f1, f2⟩ := fin s' a' b' hdr body hi' ho
    refine ⟨_, rfl, f1, ho, ?_⟩
    by_cases hc : s'.headerSent = true
    · left
      obtain ⟨u', v', hu⟩ := hh (by rw [← g1]; exact hc) hdead
      rw [hch] at hu
      cases hu
      exact f2
    · right
      obtain ⟨rfl, rfl⟩ := hi'.noHdr (Or.inl (by simpa using hc))
      have hw : s'.wire = [] := by rw [hi'.wire]; rfl
      exact ⟨hw, by rw [hw] at f2; simpa using f2.symm⟩
  · simp only [ho, if_false]
    by_cases hc : s'.headerSent = true
    · have e2 : sendHeader cfg u v s' = s' := by simp [sendHeader, hc]
      simp only [e2, hd', Bool.false_eq_true, if_false]
      obtain ⟨s'', f1, f2, f3, _, f4⟩ := inv_writeLoop cfg.merge (List.replicate n k) (x := ⟨s', x.accepted⟩) hi' hc hd'
      obtain ⟨f5, a2, b2, body2, f6⟩ := f4 hm (fun e => absurd e ho) (by simp; omega) htk
      obtain ⟨f7, f8⟩ := fin s'' a2 b2 hdr body2 f6 f5
      obtain ⟨u', v', hu⟩ := hh (by rw [← g1]; exact hc) hdead
      rw [hch] at hu
      cases hu
      exact ⟨⟨s'', x.accepted⟩, by rw [f1]; rfl, f7, f5, Or.inl f8⟩
    · have hs' : s'.headerSent = false := by simpa using hc
      obtain ⟨rfl, rfl⟩ := hi'.noHdr (Or.inl hs')
      have e2 : sendHeader cfg u v s' = { s' with headerSent := true, wire := s'.wire ++ fileHeader 5 9 } := by simp [sendHeader, hs', hch]
      simp only [e2, hd', Bool.false_eq_true, if_false]
      have hw : s'.wire = [] := by rw [hi'.wire]; rfl
      have hi2 : Inv ⟨{ s' with headerSent := true, wire := s'.wire ++ fileHeader 5 9 }, x.accepted⟩ a' b' q' (fileHeader 5 9) [] :=
        ⟨hi'.acc, hi'.ring, hi'.held, hi'.rel, hi'.relYes, hi'.bytes, hi'.sent, by simp [hw], by simp [hd']⟩
      obtain ⟨s'', f1, f2, f3, _, f4⟩ := inv_writeLoop cfg.merge (List.replicate n k) hi2 rfl hd'
      obtain ⟨f5, a2, b2, body2, f6⟩ := f4 hm (fun e => absurd e ho) (by simp; omega) htk
      obtain ⟨f7, f8⟩ := fin s'' a2 b2 _ body2 f6 f5
      have f1' : writeLoop cfg.merge (List.replicate n k) { s' with headerSent := true, wire := s'.wire ++ fileHeader 5 9, dead := false } = some s'' := by
        rw [← f1, hd']
      exact ⟨⟨s'', x.accepted⟩, by simp [f1'], f7, f5, Or.inl f8⟩

/-- Tags of a type the header announces (data tags need no announcement). -/
def announced (flags : UInt8) (f : Frame) : Bool :=
  if f.type = 8 then announcesAudio flags else if f.type = 9 then announcesVideo flags else true

/-- C47 (flags), partial: with the default configuration both kinds are announced. -/
theorem C47_flags_partial (cfg : Cfg) (hcfg : cfg.audio = 1 ∧ cfg.video = 1) (size : Nat) (hs : 0 < size) (ops : List Op) (x : Run)
    (hx : run cfg ⟨Out.init size, []⟩ ops = some x) :
    x.s.wire = [] ∨ ∃ flags body, x.s.wire = fileHeader flags 9 ++ body ∧ ∀ f ∈ x.accepted, announced flags f = true := by
  obtain ⟨x', e, h⟩ := run_ok cfg ops (init_ok cfg size hs)
  rw [hx] at e
  cases e
  obtain ⟨a, b, q, hdr, body, hi, hh⟩ := h.inv
  by_cases hc : x.s.headerSent = false ∨ x.s.dead = true
  · left
    obtain ⟨rfl, rfl⟩ := hi.noHdr hc
    rw [hi.wire]; rfl
  · right
    have h1 : x.s.headerSent = true := by
      cases h : x.s.headerSent with
      | true => rfl
      | false => exact absurd (Or.inl h) hc
    have h2 : x.s.dead = false := by
      cases h : x.s.dead with
      | true => exact absurd (Or.inr h) hc
      | false => rfl
    obtain ⟨u, v, hu⟩ := hh h1 h2
    rw [hcfg.1, hcfg.2] at hu
    cases hu
    refine ⟨5, body, hi.wire, ?_⟩
    intro f _
    unfold announced
    split
    · rfl
    · split <;> rfl

/-- With `audio=1 video=0` the header announces audio only, and video tags are sent all the same. -/
theorem C47_flags_violation : ∃ (cfg : Cfg) (ops : List Op) (x : Run) (f : Frame), f.Ok ∧
    run cfg ⟨Out.init 8, []⟩ ops = some x ∧ x.s.wire = fileHeader 4 9 ++ f.tag.bytes ∧ announced 4 f = false :=
  ⟨⟨1, 0, 4⟩, [.send ⟨9, 40, [[1, 2, 3]]⟩ 0, .write true true [100]], _, ⟨9, 40, [[1, 2, 3]]⟩,
    ⟨by decide, by decide, by decide⟩, rfl, by decide, by decide⟩

/-- Example for C47: a frame is refused or skipped, others are sent over two partial writes. -/
def exOps : List Op :=
  [.send ⟨9, 40, [[1, 2], [3]]⟩ 0, .send ⟨4, 0, [[0]]⟩ 0, .send ⟨8, 2 ^ 24 + 41, [[4]]⟩ 0, .write true true [7], .write true true [100]]

example : (∀ f ∈ framesOf exOps, f.Ok) ∧ (run ⟨1, 1, 4⟩ ⟨Out.init 8, []⟩ exOps).map (fun x => x.s.wire) =
    some (fileHeader 5 9 ++ [9, 0, 0, 3, 0, 0, 40, 0, 0, 0, 0, 1, 2, 3, 0, 0, 0, 14, 8, 0, 0, 1, 0, 0, 41, 1, 0, 0, 0, 4, 0, 0, 0, 12]) := by
  refine ⟨?_, by decide⟩
  intro f hf
  simp only [exOps, framesOf, List.mem_cons, List.not_mem_nil, or_false] at hf
  rcases hf with rfl | rfl | rfl <;> exact ⟨by decide, by decide, by decide⟩

/-! ### C48 -/

/-- A message that carries a tag, in buffers of `c` bytes. -/
structure Delivered (c : Nat) (m : Msg) (t : Tag) : Prop where
  hType : m.type = t.type
  hTs : m.ts = t.ts
  hSid : m.msid = t.sid
  hLen : m.mlen = t.data.length
  hBufs : Pieces c m.bufs t.data

theorem delivered_msg (c : Nat) (hc : 0 < c) (t : Tag) : Delivered c (t.msg c) t := ⟨rfl, rfl, rfl, rfl, cut_isPieces c hc t.data⟩

theorem delivered_map (c : Nat) (hc : 0 < c) (ts : List Tag) : Each (Delivered c) (ts.map (Tag.msg c)) ts := by
  induction ts with
  | nil => exact .nil
  | cons t ts ih => exact .cons (delivered_msg c hc t) ih

theorem init_wf : Wf { inp := [] } := ⟨fun _ => rfl, fun h => by simp at h, fun h => by simp at h⟩

theorem sim_init (c : Nat) (hc : 0 < c) (fails : List Msg → Bool) (bs : List Bytes) :
    Sim c (recvBufs c fails P.init [] bs) (bytes c fails (.idle { inp := [] } []) bs.flatten) :=
  recvBufs_sim c hc fails bs { inp := [] } [] init_wf

theorem sim_idle {c : Nat} {r : Res (List Bytes)} {a : P Bytes} {log : List Msg} (h : Sim c r (.idle a log)) : ∃ p, r = .idle p log := by
  cases r with
  | idle p l => obtain ⟨rfl, _⟩ := h; exact ⟨p, rfl⟩
  | _ => exact h.elim

/-- C48 (exactness): however the response body is cut into buffers, the tags are delivered in order, each once, with their type, timestamp,
stream id and payload. -/
theorem C48_exact (c : Nat) (hc : 0 < c) (flags : UInt8) (off : Nat) (ts : List Tag) (h : ∀ t ∈ ts, t.Ok) (bs : List Bytes)
    (hb : bs.flatten = fileHeader flags off ++ ts.flatMap Tag.bytes) :
    ∃ p log, recvBufs c noFail P.init [] bs = .idle p log ∧ Each (Delivered c) log ts := by
  have hs := sim_init c hc noFail bs
  obtain ⟨p', _, h2⟩ := run_stream c flags off ts h
  rw [hb, h2] at hs
  obtain ⟨p, e⟩ := sim_idle hs
  exact ⟨p, _, e, delivered_map c hc ts⟩

/-- C48 (promptness): a tag with a payload is delivered as soon as the payload is complete, before its back pointer arrives. -/
theorem C48_prompt (c : Nat) (hc : 0 < c) (flags : UInt8) (off : Nat) (ts : List Tag) (h : ∀ t ∈ ts, t.Ok) (t : Tag) (ht : t.Ok) (hne : t.data ≠ [])
    (bs : List Bytes) (hb : bs.flatten = fileHeader flags off ++ ts.flatMap Tag.bytes ++ (t.head ++ t.data)) :
    ∃ p log, recvBufs c noFail P.init [] bs = .idle p log ∧ Each (Delivered c) log (ts ++ [t]) := by
  have hs := sim_init c hc noFail bs
  obtain ⟨p', hp', h2⟩ := run_stream c flags off ts h
  obtain ⟨p'', h3⟩ := run_prompt c p' (ts.map (Tag.msg c)) hp' t ht hne
  rw [hb, bytes_append, h2, h3] at hs
  obtain ⟨p, e⟩ := sim_idle hs
  refine ⟨p, _, e, ?_⟩
  have := delivered_map c hc (ts ++ [t])
  simpa using this

/-- C48 (prefixes): a stream that is not complete is no error, and what was delivered are its first tags. -/
theorem C48_prefix (c : Nat) (hc : 0 < c) (flags : UInt8) (off : Nat) (ts : List Tag) (h : ∀ t ∈ ts, t.Ok) (bs : List Bytes)
    (hb : bs.flatten <+: fileHeader flags off ++ ts.flatMap Tag.bytes) :
    ∃ p log n, recvBufs c noFail P.init [] bs = .idle p log ∧ Each (Delivered c) log (ts.take n) := by
  have hs := sim_init c hc noFail bs
  obtain ⟨p', _, h2⟩ := run_stream c flags off ts h
  obtain ⟨y, hy⟩ := hb
  rw [← hy] at h2
  obtain ⟨q, l, e, hl⟩ := bytes_idle_prefix c noFail _ _ h2
  rw [e] at hs
  obtain ⟨p, e'⟩ := sim_idle hs
  refine ⟨p, l, l.length, e', ?_⟩
  have : l = (ts.take l.length).map (Tag.msg c) := by
    have := List.prefix_iff_eq_take.1 hl
    rw [List.map_take]; exact this
  have h3 := delivered_map c hc (ts.take l.length)
  rw [← this] at h3
  exact h3

/-- C48 (segmentation): for any handler, the outcome depends on the bytes only. -/
theorem C48_segmentation (c : Nat) (hc : 0 < c) (fails : List Msg → Bool) (bs bs' : List Bytes) (h : bs.flatten = bs'.flatten) :
    recvBufs c fails P.init [] bs = recvBufs c fails P.init [] bs' := by
  have h1 := sim_init c hc fails bs
  have h2 := sim_init c hc fails bs'
  rw [h] at h1
  revert h1 h2
  cases bytes c fails (.idle { inp := [] } []) bs'.flatten <;> cases recvBufs c fails P.init [] bs <;> cases recvBufs c fails P.init [] bs' <;>
    intro h1 h2 <;> first | exact h1.elim | exact h2.elim | skip
  · obtain ⟨rfl, rfl⟩ := h1
    obtain ⟨rfl, rfl⟩ := h2
    rfl
  · cases h1; cases h2; rfl
  · cases h1; cases h2; rfl

/-- C48 (termination): the receiver never loops. -/
theorem C48_progress (c : Nat) (hc : 0 < c) (fails : List Msg → Bool) (bs : List Bytes) : recvBufs c fails P.init [] bs ≠ .stuck := by
  intro e
  have h1 := sim_init c hc fails bs
  rw [e] at h1
  cases h : bytes c fails (.idle { inp := [] } []) bs.flatten <;> rw [h] at h1 <;> exact h1.elim

/-- C48 (rejection): what is not rejected is the beginning of an FLV stream, but for up to three bytes of an unfinished back pointer. -/
theorem C48_reject (c : Nat) (hc : 0 < c) (fails : List Msg → Bool) (bs : List Bytes) (p : P (List Bytes)) (log : List Msg)
    (h : recvBufs c fails P.init [] bs = .idle p log) :
    ∃ (flags : UInt8) (off : Nat) (ts : List Tag) (y r : Bytes), (∀ t ∈ ts, t.Ok) ∧ bs.flatten = y ++ r ∧ r.length ≤ 3 ∧
      y <+: fileHeader flags off ++ ts.flatMap Tag.bytes := by
  have hs := sim_init c hc fails bs
  rw [h] at hs
  cases e : bytes c fails (.idle { inp := [] } []) bs.flatten with
  | idle a l => exact near_stream_of_idle c fails _ ⟨a, l, e⟩
  | bad l => rw [e] at hs; exact hs.elim
  | failed l => rw [e] at hs; exact hs.elim
  | stuck => rw [e] at hs; exact hs.elim

/-- Chunk size 0: the copy loop does not end. (`in_chunk_size` comes from the configuration, `chunk_size` of the rtmp block.) -/
example : fill 0 [] [1] = none := by decide

example : ∃ t : Tag, t.Ok ∧ t.data ≠ [] ∧ t.ts ≥ 2 ^ 24 := ⟨⟨9, 2 ^ 24 + 7, 0, [1, 2, 3]⟩, ⟨by decide, by decide, by decide, by decide⟩, by decide, by decide⟩

/-! ### C49 -/

/-- The frames a relay can carry. -/
def relayed (fs : List Frame) : List Frame := fs.filter fun f => f.type = 8 ∨ f.type = 9 ∨ f.type = 18

theorem media_relayed {fs : List Frame} (h : ∀ f ∈ fs, f.type ≠ 15) : mediaBytes fs = ((relayed fs).map Frame.tag).flatMap Tag.bytes := by
  have : fs.filter isMedia = relayed fs := by
    unfold relayed
    apply List.filter_congr
    intro f hf
    have := h f hf
    simp [isMedia, this]
  rw [mediaBytes, this, List.flatMap_map]

theorem relayed_ok {fs : List Frame} (h : ∀ f ∈ fs, f.Ok) : ∀ t ∈ (relayed fs).map Frame.tag, t.Ok := by
  intro t ht
  obtain ⟨f, hf, rfl⟩ := List.mem_map.1 ht
  obtain ⟨h1, h2⟩ := List.mem_filter.1 hf
  have := h f h1
  exact ⟨by show f.type = 8 ∨ f.type = 9 ∨ f.type = 18; simpa using h2, this.hTs, by show 0 < 2 ^ 24; omega, this.hLen⟩

/-- C49 (relay): an edge server that has received any part of what an origin sent, in any segmentation, has delivered the first frames that were
queued at the origin, unchanged and in order; it never fails. -/
theorem C49_relay (cfg : Cfg) (size : Nat) (hs : 0 < size) (ops : List Op) (hok : ∀ f ∈ framesOf ops, f.Ok) (h15 : ∀ f ∈ framesOf ops, f.type ≠ 15)
    (x : Run) (hx : run cfg ⟨Out.init size, []⟩ ops = some x) (c : Nat) (hc : 0 < c) (bs : List Bytes) (hb : bs.flatten <+: x.s.wire) :
    ∃ p log n, recvBufs c noFail P.init [] bs = .idle p log ∧ Each (Delivered c) log (((relayed x.accepted).take n).map Frame.tag) := by
  have hacc : ∀ f ∈ x.accepted, f ∈ framesOf ops := by
    intro f hf
    rcases accepted_sub cfg ops hx f hf with h | h
    · simp at h
    · exact h
  obtain ⟨x', e, hw⟩ := C47_stream cfg size hs ops hok
  rw [hx] at e
  cases e
  have key : ∃ flags : UInt8, bs.flatten <+: fileHeader flags 9 ++ ((relayed x.accepted).map Frame.tag).flatMap Tag.bytes := by
    rcases hw with hw | ⟨fl, body, q, hw, _, _, hq⟩
    · rw [hw] at hb
      rw [List.prefix_nil.1 hb]
      exact ⟨0, List.nil_prefix⟩
    · rw [hw] at hb
      rw [media_relayed (fun f hf => h15 f (hacc f hf)) (fs := x.accepted)] at hq
      refine ⟨fl, hb.trans ?_⟩
      rw [← hq, List.append_assoc]
      exact (List.prefix_append_right_inj _).2 ⟨_, rfl⟩
  obtain ⟨fl, key⟩ := key
  obtain ⟨p, log, n, h1, h2⟩ := C48_prefix c hc fl 9 _ (relayed_ok (fun f hf => hok f (hacc f hf))) bs key
  exact ⟨p, log, n, h1, by rw [List.map_take]; exact h2⟩

/-- C49 (completeness): when the origin has sent everything and the edge has received it, all frames are delivered. -/
theorem C49_complete (cfg : Cfg) (size : Nat) (hs : 0 < size) (hm : 1 ≤ cfg.merge) (hcfg : cfg.audio = 1 ∧ cfg.video = 1) (ops : List Op)
    (hok : ∀ f ∈ framesOf ops, f.Ok) (h15 : ∀ f ∈ framesOf ops, f.type ≠ 15) (x : Run) (hx : run cfg ⟨Out.init size, []⟩ ops = some x)
    (hdead : x.s.dead = false) (u v : Bool) (n k : Nat) (hn : x.accepted.length < n) (hk : (mediaBytes x.accepted).length ≤ k) (c : Nat) (hc : 0 < c) :
    ∃ x', step cfg x (.write u v (List.replicate n k)) = some x' ∧ ∀ bs : List Bytes, bs.flatten = x'.s.wire →
      ∃ p log, recvBufs c noFail P.init [] bs = .idle p log ∧ Each (Delivered c) log ((relayed x.accepted).map Frame.tag) := by
  have hacc : ∀ f ∈ x.accepted, f ∈ framesOf ops := by
    intro f hf
    rcases accepted_sub cfg ops hx f hf with h | h
    · simp at h
    · exact h
  have hmr := media_relayed (fun f hf => h15 f (hacc f hf)) (fs := x.accepted)
  obtain ⟨x', e, _, _, hw⟩ := C47_drained cfg size hs hm hcfg ops hok x hx hdead u v n k hn hk
  refine ⟨x', e, ?_⟩
  intro bs hb
  rcases hw with hw | ⟨hw, hw'⟩
  · rw [hw, hmr] at hb
    exact C48_exact c hc 5 9 _ (relayed_ok (fun f hf => hok f (hacc f hf))) bs hb
  · rw [hw] at hb
    have hnone : relayed x.accepted = [] := by
      rw [hmr] at hw'
      cases er : relayed x.accepted with
      | nil => rfl
      | cons f fs => rw [er] at hw'; simp [Tag.bytes, Tag.head, beEnc] at hw'
    rw [hnone]
    obtain ⟨p, log, n, h1, h2⟩ := C48_prefix c hc 5 9 [] (by simp) bs (by rw [hb]; exact List.nil_prefix)
    simp only [List.take_nil] at h2
    exact ⟨p, log, h1, h2⟩

example : (∀ f ∈ framesOf exOps, f.type ≠ 15) ∧ (relayed (framesOf exOps)).length = 2 := by decide

/-- A payload of 2^24 bytes: the size field is cut to 24 bits and the edge takes the payload for tags. -/
theorem C49_oversize_violation : ∃ f : Frame, f.type = 9 ∧ f.bufs.flatten.length = 2 ^ 24 ∧
    ∀ (c : Nat), 0 < c → ∀ bs : List Bytes, bs.flatten = fileHeader 5 9 ++ (tagChain f).flatten →
      ∃ log, recvBufs c noFail P.init [] bs = .bad log := by
  obtain ⟨l, hl⟩ : ∃ l : Bytes, l.length = 2 ^ 24 - 4 := ⟨List.replicate _ 0, List.length_replicate⟩
  have hl' : 4 + l.length = 2 ^ 24 := by omega
  refine ⟨⟨9, 0, [[0, 0, 0, 0], l]⟩, rfl, ?_, ?_⟩
  · rw [← hl']; simp; omega
  · intro c hc bs hb
    have hlen : ([[0, 0, 0, 0], l].map List.length).sum = 2 ^ 24 := by rw [← hl']; simp
    have hch : ∃ rest, (tagChain ⟨9, 0, [[0, 0, 0, 0], l]⟩).flatten = [9, 0, 0, 0, 0, 0, 0, 0, 0, 0, 0] ++ ([] ++ [0, 0, 0, 0]) ++ rest := by
      have e1 : byteAt (2 ^ 24) 2 = 0 := by decide
      have e2 : byteAt (2 ^ 24) 1 = 0 := by decide
      have e3 : byteAt (2 ^ 24) 0 = 0 := by decide
      refine ⟨l ++ [byteAt (2 ^ 24 + 11) 3, byteAt (2 ^ 24 + 11) 2, byteAt (2 ^ 24 + 11) 1, byteAt (2 ^ 24 + 11) 0], ?_⟩
      simp only [tagChain, hlen, e1, e2, e3, List.flatten_append, List.flatten_cons, List.flatten_nil, List.append_nil, List.append_assoc, List.nil_append]
      rfl
    obtain ⟨rest, hch⟩ := hch
    have hs := sim_init c hc noFail bs
    obtain ⟨p, hp, h2⟩ := run_fileHeader c 5 9
    obtain ⟨p', _, hrun⟩ := run_tag c noFail p [] hp 9 0 0 0 0 0 0 0 0 0 0 (by decide) [] (by decide) 0 0 0 0 rfl
    rw [if_neg (by decide)] at hrun
    rw [hb, hch, bytes_append, h2, bytes_append, hrun, bytes_done c noFail _ (by simp)] at hs
    cases er : recvBufs c noFail P.init [] bs with
    | bad l => exact ⟨l, rfl⟩
    | _ => rw [er] at hs; exact hs.elim

end Verif.Flv
