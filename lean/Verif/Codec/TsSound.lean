import Verif.Codec.TsLemmas
/-
C72: what was read from a transport stream was a sequence parameter set.
-/
namespace Verif.Codec
open Verif Verif.BitOp

theorem took_none {α : Type} (R : α → List Bool → Prop) : Took (fun _ => none : Rd α) R := by
  intro s a s' h
  cases h

theorem took_ite {α : Type} {c : Prop} [Decidable c] {p q : Rd α} {R S : α → List Bool → Prop} (h1 : Took p R) (h2 : Took q S) :
    Took (if c then p else q) (fun a b => (c ∧ R a b) ∨ (¬ c ∧ S a b)) := by
  by_cases h : c
  · rw [if_pos h]
    exact h1.mono fun a b g => .inl ⟨h, g⟩
  · rw [if_neg h]
    exact h2.mono fun a b g => .inr ⟨h, g⟩

theorem took_onlyIf {α : Type} {c : Bool} {p : Rd α} {d : α} {R : α → List Bool → Prop} (h1 : Took p R) :
    Took (onlyIf c p d) (fun a b => (c = true ∧ R a b) ∨ (c = false ∧ a = d ∧ b = [])) := by
  unfold onlyIf
  refine (took_ite h1 (Took.pure d)).mono fun a b g => ?_
  rcases g with g | ⟨g1, g2⟩
  · exact .inl g
  · exact .inr ⟨by simpa using g1, g2⟩

theorem took_tflag : Took (tu 1) (fun v b => ∃ f : Bool, b = [f] ∧ v = f.toNat) := by
  refine (took_tu 1 (by omega)).mono fun v b g => ?_
  obtain ⟨g1, g2⟩ := g
  have : v = 0 ∨ v = 1 := by omega
  rcases this with rfl | rfl
  · exact ⟨false, g1, rfl⟩
  · exact ⟨true, g1, rfl⟩

theorem codeNum_onto (k : Nat) : ∃ v, Spec.codeNum v = k := by
  by_cases h : k % 2 = 1
  · refine ⟨((k + 1) / 2 : Nat), ?_⟩
    unfold Spec.codeNum
    rw [if_pos (by omega)]
    omega
  · refine ⟨-((k / 2 : Nat) : Int), ?_⟩
    unfold Spec.codeNum
    rw [if_neg (by omega)]
    omega

theorem took_refs : ∀ k, Took (times tue k) (fun _ b => ∃ rs : List Int, rs.length = k ∧ b = rs.flatMap Spec.se ∧ ∀ r ∈ rs, Spec.codeNum r + 1 < 2 ^ 64) := by
  intro k
  induction k with
  | zero =>
    refine (Took.pure ()).mono fun a b g => ?_
    exact ⟨[], rfl, g.2, by simp⟩
  | succ k ih =>
    refine (Took.bind took_tue (fun _ => ih)).mono fun a b g => ?_
    obtain ⟨k, b1, b2, rfl, ⟨rfl, g1⟩, rs, g2, rfl, g3⟩ := g
    obtain ⟨v, rfl⟩ := codeNum_onto k
    refine ⟨v :: rs, by simp [g2], by rw [List.flatMap_cons]; rfl, ?_⟩
    intro r hr
    rcases List.mem_cons.1 hr with rfl | hr
    · exact g1
    · exact g3 r hr

theorem took_noLists : ∀ n, Took (noLists n) (fun r b => r = true → b = (List.replicate n [false]).flatten) := by
  intro n
  induction n with
  | zero => exact (Took.pure true).mono fun a b g _ => g.2
  | succ n ih =>
    refine (Took.bind took_tflag (fun f => took_ite (c := f = 0) ih (Took.pure false))).mono fun a b g => ?_
    obtain ⟨v, b1, b2, rfl, ⟨f, rfl, rfl⟩, g⟩ := g
    intro ha
    rcases g with ⟨g1, g2⟩ | ⟨_, g2, _⟩
    · rw [List.replicate_succ, List.flatten_cons, ← g2 ha]
      cases f with
      | false => rfl
      | true => cases g1
    · rw [ha] at g2
      cases g2

/-- Chroma format that can be read -/
def ChromaOk (c : Spec.Chroma) : Prop := c.format + 1 < 2 ^ 64 ∧ c.luma + 1 < 2 ^ 64 ∧ c.chroma + 1 < 2 ^ 64 ∧
  ∀ ls, c.lists = some ls → ls.length = (if c.format = 3 then 12 else 8) ∧ ∀ l ∈ ls, l = none

theorem took_tsChroma : Took tsChroma (fun r b => r = true → ∃ c : Spec.Chroma, ChromaOk c ∧ b = c.bits) := by
  refine (Took.bind took_tue (fun cf => Took.bind (took_onlyIf (c := cf == 3) (d := 0) took_tflag) (fun _ => Took.bind took_tue (fun _ => Took.bind took_tue (fun _ =>
    Took.bind took_tflag (fun _ => Took.bind took_tflag (fun m => took_ite (c := m = 0) (Took.pure true) (took_noLists (if cf = 3 then 12 else 8)))))))) ).mono fun a b g ha => ?_
  obtain ⟨cf, b1, b2, rfl, ⟨rfl, k1⟩, _, b3, b4, rfl, hsep, lu, b5, b6, rfl, ⟨rfl, k2⟩, ch, b7, b8, rfl, ⟨rfl, k3⟩, _, b9, b10, rfl, ⟨by', rfl, rfl⟩, m, b11, b12, rfl, ⟨mf, rfl, rfl⟩, g⟩ := g
  obtain ⟨sep, hsep⟩ : ∃ sep, b3 = if cf = 3 then [sep] else [] := by
    rcases hsep with ⟨h1, f, h2, _⟩ | ⟨h1, _, h2⟩
    · exact ⟨f, by rw [if_pos (by simpa using h1), h2]⟩
    · exact ⟨false, by rw [if_neg (by simpa using h1), h2]⟩
  subst hsep
  cases mf with
  | false =>
    have hb : b12 = [] := by
      rcases g with ⟨_, _, g⟩ | ⟨g, _⟩
      · exact g
      · exact absurd rfl g
    subst hb
    refine ⟨{ format := cf, separate := sep, luma := lu, chroma := ch, bypass := by', lists := none }, ⟨k1, k2, k3, by intro ls h; cases h⟩, ?_⟩
    simp [Spec.Chroma.bits]
  | true =>
    have hb : b12 = (List.replicate (if cf = 3 then 12 else 8) [false]).flatten := by
      rcases g with ⟨g, _⟩ | ⟨_, g⟩
      · cases g
      · exact g ha
    subst hb
    refine ⟨{ format := cf, separate := sep, luma := lu, chroma := ch, bypass := by', lists := some (List.replicate (if cf = 3 then 12 else 8) none) }, ⟨k1, k2, k3, ?_⟩, ?_⟩
    · intro ls h
      injection h with h
      subst h
      exact ⟨List.length_replicate, fun l hl => (List.mem_replicate.1 hl).2⟩
    · have := flags_none (List.replicate (if cf = 3 then 12 else 8) none) (fun l hl => (List.mem_replicate.1 hl).2)
      rw [List.length_replicate] at this
      unfold Spec.Chroma.bits
      dsimp only
      rw [this]
      simp only [List.append_assoc, List.singleton_append]

theorem took_shiftInt : Took shiftInt (fun _ b => ∃ k, Shifts k ∧ k + 1 < 2 ^ 64 ∧ b = golombCode k) := by
  refine (Took.bind took_tue (fun k => took_ite (c := 31 ≤ (k + 4) % 2 ^ 64) (took_none (fun _ _ => False)) (Took.pure ()))).mono fun a b g => ?_
  obtain ⟨k, b1, b2, rfl, ⟨rfl, g1⟩, g⟩ := g
  rcases g with ⟨_, g⟩ | ⟨g2, _, rfl⟩
  · cases g
  · exact ⟨k, by unfold Shifts; omega, g1, by simp⟩

/-- Picture order counts that can be read -/
def PocOk (p : Spec.Poc) : Prop :=
  (∀ k ∈ (match p with | .lsb k => [k] | .offsets _ n t rs => [Spec.codeNum n, Spec.codeNum t, rs.length] ++ rs.map Spec.codeNum | .output t => [t]), k + 1 < 2 ^ 64) ∧
  (∀ k, p = .lsb k → Shifts k) ∧ (∀ t, p = .output t → 2 ≤ t)

theorem took_tsPoc : Took tsPoc (fun _ b => ∃ p, PocOk p ∧ b = p.bits) := by
  refine (Took.bind took_tue (fun t => took_ite (c := t = 0) took_shiftInt (took_ite (c := t = 1) (Took.bind took_tflag (fun _ => Took.bind took_tue (fun _ => Took.bind took_tue (fun _ =>
    Took.bind took_tue (fun k => took_refs k))))) (Took.pure ())))).mono fun a b g => ?_
  obtain ⟨t, b1, b2, rfl, ⟨rfl, g1⟩, g⟩ := g
  rcases g with ⟨rfl, k, h1, h2, rfl⟩ | ⟨h0, ⟨rfl, _, b3, b4, rfl, ⟨z, rfl, rfl⟩, n, b5, b6, rfl, ⟨rfl, h2⟩, t, b7, b8, rfl, ⟨rfl, h3⟩, k, b9, b10, rfl, ⟨rfl, h4⟩, rs, h5, rfl, h6⟩ | ⟨h1, _, rfl⟩⟩
  · refine ⟨.lsb k, ⟨?_, ?_, ?_⟩, rfl⟩
    · intro j hj
      rw [List.mem_singleton.1 hj]
      exact h2
    · intro j hj
      injection hj with hj
      exact hj ▸ h1
    · intro t ht
      cases ht
  · obtain ⟨n, rfl⟩ := codeNum_onto n
    obtain ⟨t, rfl⟩ := codeNum_onto t
    subst h5
    refine ⟨.offsets z n t rs, ⟨?_, ?_, ?_⟩, ?_⟩
    · intro j hj
      dsimp only at hj
      rcases List.mem_append.1 hj with hj | hj
      · simp only [List.mem_cons, List.not_mem_nil, or_false] at hj
        rcases hj with rfl | rfl | rfl <;> assumption
      · obtain ⟨r, hr, rfl⟩ := List.mem_map.1 hj
        exact h6 r hr
    · intro j hj
      cases hj
    · intro j hj
      cases hj
    · simp only [Spec.Poc.bits, Spec.se, List.append_assoc]
  · refine ⟨.output t, ⟨?_, ?_, ?_⟩, by simp [Spec.Poc.bits]⟩
    · intro j hj
      rw [List.mem_singleton.1 hj]
      exact g1
    · intro j hj
      cases hj
    · intro j hj
      injection hj with hj
      omega

theorem took_tsCrop : Took tsCrop (fun x b => ∃ c, (∀ k ∈ (match c with | none => [] | some (l, r, t, b) => [l, r, t, b]), k + 1 < 2 ^ 64) ∧ x = cropOf c ∧ b = Spec.cropBits c) := by
  refine (Took.bind took_tflag (fun f => took_ite (c := f = 0) (Took.pure (0, 0, 0, 0)) (Took.bind took_tue (fun l => Took.bind took_tue (fun r => Took.bind took_tue (fun t =>
    Took.bind took_tue (fun b => Took.pure (l, r, t, b)))))))).mono fun a b g => ?_
  obtain ⟨_, b1, b2, rfl, ⟨f, rfl, rfl⟩, g⟩ := g
  rcases g with ⟨h0, rfl, rfl⟩ | ⟨h0, l, b3, b4, rfl, ⟨rfl, h1⟩, r, b5, b6, rfl, ⟨rfl, h2⟩, t, b7, b8, rfl, ⟨rfl, h3⟩, c, b9, b10, rfl, ⟨rfl, h4⟩, rfl, rfl⟩
  · refine ⟨none, by simp, rfl, ?_⟩
    cases f with
    | false => rfl
    | true => cases h0
  · refine ⟨some (l, r, t, c), ?_, rfl, ?_⟩
    · intro k hk
      dsimp only at hk
      simp only [List.mem_cons, List.not_mem_nil, or_false] at hk
      rcases hk with rfl | rfl | rfl | rfl <;> assumption
    · cases f with
      | false => exact absurd rfl h0
      | true => simp [Spec.cropBits]

theorem took_end {α : Type} (a : α) : Took (do let s ← get; if s.br.err then pure none else pure (some a) : Rd (Option α)) (fun x b => x = some a ∧ b = []) := by
  intro s x s' h he
  have h : (if s.br.err = true then (pure none : Rd (Option α)) else pure (some a)) s = some (x, s') := h
  split at h
  · rename_i hs
    have h : some ((none : Option α), s) = some (x, s') := h
    injection h with h
    injection h with h1 h2
    subst h2
    rw [hs] at he
    cases he
  · have h : some (some a, s) = some (x, s') := h
    injection h with h
    injection h with h1 h2
    subst h1 h2
    exact ⟨he, [], rfl, rfl, rfl⟩

/-- What ends with a result ends without an error. -/
def Ends {α : Type} (p : Rd (Option α)) : Prop := ∀ s a s', p s = some (some a, s') → s'.br.err = false

theorem Ends.bind {α β : Type} {p : Rd β} {f : β → Rd (Option α)} (h : ∀ b, Ends (f b)) : Ends (p >>= f) := by
  intro s c s' g
  have g : (p s).bind (fun x => f x.1 x.2) = some (some c, s') := g
  obtain ⟨⟨a, s1⟩, g1, g2⟩ := Option.bind_eq_some_iff.1 g
  exact h a s1 c s' g2

theorem ends_none {α : Type} : Ends (pure none : Rd (Option α)) := by
  intro s a s' h
  have h : some ((none : Option α), s) = some (some a, s') := h
  injection h with h
  injection h with h
  cases h

theorem ends_end {α : Type} (a : α) : Ends (do let s ← get; if s.br.err then pure none else pure (some a) : Rd (Option α)) := by
  intro s x s' h
  have h : (if s.br.err = true then (pure none : Rd (Option α)) else pure (some a)) s = some (some x, s') := h
  split at h
  · exact absurd h (by intro h; have h : some ((none : Option α), s) = some (some x, s') := h; injection h with h; injection h with h; cases h)
  · rename_i hs
    have h : some (some a, s) = some (some x, s') := h
    injection h with h
    injection h with h1 h2
    subst h2
    simpa using hs

theorem ends_tsRest (p co l : Nat) : Ends (tsRest p co l) := by
  unfold tsRest
  exact Ends.bind fun _ => Ends.bind fun _ => Ends.bind fun _ => Ends.bind fun _ => Ends.bind fun _ => Ends.bind fun _ => Ends.bind fun _ => Ends.bind fun _ =>
    Ends.bind fun _ => Ends.bind fun _ => ends_end _

theorem ends_tsAvc : Ends tsAvc := by
  unfold tsAvc
  refine Ends.bind fun t => ?_
  by_cases h : t % 32 ≠ 7
  · rw [if_pos h]
    exact ends_none
  · rw [if_neg h]
    refine Ends.bind fun p => Ends.bind fun co => Ends.bind fun l => Ends.bind fun _ => Ends.bind fun ok => ?_
    cases ok with
    | true => exact ends_tsRest p co l
    | false => exact ends_none

/-- The numbers that are left -/
structure Rest where
  frameNum : Nat
  poc : Spec.Poc
  refFrames : Nat
  gaps : Bool
  width : Nat
  height : Nat
  frameMbsOnly : Bool
  mbaff : Bool
  direct : Bool
  crop : Option (Nat × Nat × Nat × Nat)

def Rest.sps (r : Rest) (p co l id : Nat) (high : Option Spec.Chroma) : Spec.Sps :=
  { profile := p, constraints := co, level := l, id := id, high := high, frameNum := r.frameNum, poc := r.poc, refFrames := r.refFrames, gaps := r.gaps, width := r.width, height := r.height, frameMbsOnly := r.frameMbsOnly, mbaff := r.mbaff, direct := r.direct, crop := r.crop }

def Rest.bits (r : Rest) : List Bool := golombCode r.frameNum ++ r.poc.bits ++ golombCode r.refFrames ++ [r.gaps] ++ golombCode r.width ++ golombCode r.height ++ [r.frameMbsOnly] ++
    (if r.frameMbsOnly then [] else [r.mbaff]) ++ [r.direct] ++ Spec.cropBits r.crop

def Rest.Ok (r : Rest) : Prop := Shifts r.frameNum ∧ r.frameNum + 1 < 2 ^ 64 ∧ PocOk r.poc ∧ r.refFrames + 1 < 2 ^ 64 ∧ r.width + 1 < 2 ^ 64 ∧ r.height + 1 < 2 ^ 64 ∧
  ∀ k ∈ (match r.crop with | none => [] | some (l, r, t, b) => [l, r, t, b]), k + 1 < 2 ^ 64

theorem took_tsRest (p co l : Nat) : Took (tsRest p co l) (fun a b => ∃ r : Rest, r.Ok ∧ b = r.bits ∧ a = some (avcOf (r.sps p co l 0 none))) := by
  refine (Took.bind took_shiftInt fun _ => Took.bind took_tsPoc fun _ => Took.bind took_tue fun rf => Took.bind took_tflag fun _ => Took.bind took_tue fun w => Took.bind took_tue fun h =>
    Took.bind took_tflag fun fmo => Took.bind (took_onlyIf (c := fmo == 0) (d := 0) took_tflag) fun _ => Took.bind took_tflag fun _ => Took.bind took_tsCrop fun x => took_end _).mono fun a b g => ?_
  obtain ⟨_, b1, b2, rfl, ⟨fn, h1, h2, rfl⟩, _, b3, b4, rfl, ⟨poc, h3, rfl⟩, rf, b5, b6, rfl, ⟨rfl, h4⟩, _, b7, b8, rfl, ⟨gaps, rfl, rfl⟩, w, b9, b10, rfl, ⟨rfl, h5⟩, h, b11, b12, rfl, ⟨rfl, h6⟩,
    _, b13, b14, rfl, ⟨fmo, rfl, rfl⟩, _, b15, b16, rfl, hmb, _, b17, b18, rfl, ⟨di, rfl, rfl⟩, x, b19, b20, rfl, ⟨c, h7, rfl, rfl⟩, rfl, rfl⟩ := g
  obtain ⟨mb, hmb⟩ : ∃ mb, b15 = if fmo then [] else [mb] := by
    rcases hmb with ⟨g1, f, g2, _⟩ | ⟨g1, _, g2⟩
    · cases fmo with
      | true => cases g1
      | false => exact ⟨f, g2⟩
    · cases fmo with
      | false => cases g1
      | true => exact ⟨false, g2⟩
  subst hmb
  refine ⟨{ frameNum := fn, poc := poc, refFrames := rf, gaps := gaps, width := w, height := h, frameMbsOnly := fmo, mbaff := mb, direct := di, crop := c }, ⟨h1, h2, h3, h4, h5, h6, h7⟩, ?_, rfl⟩
  simp only [Rest.bits, List.append_assoc, List.append_nil]

theorem Rest.sps_bits (r : Rest) (p co l id : Nat) (high : Option Spec.Chroma) :
    (r.sps p co l id high).bits = bitEnc 8 p ++ (bitEnc 8 co ++ (bitEnc 8 l ++ (golombCode id ++ (Spec.highBits high ++ r.bits)))) := by
  simp only [Spec.Sps.bits, Rest.sps, Rest.bits, List.append_assoc]
  rfl

/-- The bits of a result are those of a set that can be read. -/
theorem took_tsAvc : Took tsAvc (fun a b => ∀ x, a = some x → ∃ hdr s, hdr < 256 ∧ hdr % 32 = 7 ∧ Readable s ∧ b = bitEnc 8 hdr ++ s.bits ∧ x = avcOf s) := by
  refine (Took.bind (took_tu 8 (by omega)) fun t => took_ite (c := t % 32 ≠ 7) (Took.pure none) (Took.bind (took_tu 8 (by omega)) fun p => Took.bind (took_tu 8 (by omega)) fun co =>
    Took.bind (took_tu 8 (by omega)) fun l => Took.bind took_tue fun _ => Took.bind (took_onlyIf (c := tsHigh.contains p) (d := true) took_tsChroma) fun ok =>
    took_ite (c := ok = true) (took_tsRest p co l) (Took.pure none))).mono fun a b g x hx => ?_
  obtain ⟨t, b1, b2, rfl, ⟨rfl, h1⟩, g⟩ := g
  rcases g with ⟨_, g, _⟩ | ⟨h2, p, b3, b4, rfl, ⟨rfl, h3⟩, co, b5, b6, rfl, ⟨rfl, h4⟩, l, b7, b8, rfl, ⟨rfl, h5⟩, id, b9, b10, rfl, ⟨rfl, h6⟩, ok, b11, b12, rfl, hch, g⟩
  · rw [g] at hx
    cases hx
  rcases g with ⟨rfl, g⟩ | ⟨_, g, _⟩
  case inr =>
    rw [g] at hx
    cases hx
  obtain ⟨r, h7, rfl, rfl⟩ := g
  injection hx with hx
  obtain ⟨high, hb, hh, hc⟩ : ∃ high : Option Spec.Chroma, b11 = Spec.highBits high ∧ (high.isSome = true ↔ p ∈ tsHigh) ∧ ∀ c, high = some c → ChromaOk c := by
    rcases hch with ⟨g1, g2⟩ | ⟨g1, _, g2⟩
    · obtain ⟨c, g3, g4⟩ := g2 rfl
      refine ⟨some c, g4, ?_, ?_⟩
      · have : p ∈ tsHigh := by simpa using g1
        simp [this]
      · intro c' hc'
        injection hc' with hc'
        exact hc' ▸ g3
    · refine ⟨none, g2, ?_, by intro c hc; cases hc⟩
      have : ¬ p ∈ tsHigh := by simpa using g1
      simp [this]
  obtain ⟨r1, r2, r3, r4, r5, r6, r7⟩ := h7
  refine ⟨t, r.sps p co l id high, h1, by omega, ⟨h3, h4, h5, ?_, r1, r3.2.1, r3.2.2, hh, ?_⟩, ?_, ?_⟩
  · intro k hk
    simp only [Spec.Sps.codes, Rest.sps, List.append_assoc] at hk
    rcases List.mem_append.1 hk with hk | hk
    · simp only [List.mem_cons, List.not_mem_nil, or_false] at hk
      rcases hk with rfl | rfl | rfl | rfl | rfl <;> assumption
    rcases List.mem_append.1 hk with hk | hk
    · cases high with
      | none => cases hk
      | some c =>
        obtain ⟨c1, c2, c3, _⟩ := hc c rfl
        simp only [List.mem_cons, List.not_mem_nil, or_false] at hk
        rcases hk with rfl | rfl | rfl <;> assumption
    rcases List.mem_append.1 hk with hk | hk
    · exact r3.1 k hk
    · exact r7 k hk
  · intro c hc' ls hls
    exact (hc c hc').2.2.2 ls hls
  · rw [Rest.sps_bits, hb]
  · rw [← hx]
    rfl

end Verif.Codec
