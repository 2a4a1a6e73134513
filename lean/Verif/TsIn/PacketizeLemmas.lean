import Verif.TsIn.WriteLemmas
/-
Chains of buffers cut into packets.
-/
namespace Verif.TsIn
open Verif

/-- A packet of a unit with stuffing. -/
theorem packet_stuff (h : WHead) (first : Bool) (c : List Bytes) (hs : h.stuff = true) (hc : Ends c) (hpid : h.pid < 8192) (hn : h.cont < 16)
    (hp : ∀ v, h.pcr = some v → v < 2 ^ 33 * 300) :
    ∃ bytes data rest, packet h first c.flatten.length c = (bytes, rest, rest.flatten.length) ∧
      Spec.exactPkt bytes = some ⟨first, h.pid, h.cont, h.rand, h.pcr, data⟩ ∧ data ++ rest.flatten = c.flatten ∧ (rest = [] ∨ Ends rest) ∧
      rest.flatten.length < c.flatten.length := by
  have hpos := ends_pos hc
  unfold packet
  dsimp only
  by_cases haf : (h.rand || h.pcr.isSome || (h.stuff && decide (c.flatten.length < 184))) = true
  · rw [if_pos haf]
    have ha := adaptation_length h
    obtain ⟨a, hA⟩ : ∃ a, (adaptation h).length = a := ⟨_, rfl⟩
    have ha7 : a ≤ 7 := by rw [← hA, ha]; split <;> omega
    rw [hs, hA]
    simp only [Bool.true_and, decide_eq_true_eq]
    by_cases h1 : c.flatten.length ≤ 188 - 5 - a
    · have hk : 188 - 5 - a - (if c.flatten.length < 188 - 5 - a then 188 - 5 - a - c.flatten.length else 0) = c.flatten.length := by split <;> omega
      obtain ⟨k, hkk⟩ : ∃ k, (if c.flatten.length < 188 - 5 - a then 188 - 5 - a - c.flatten.length else 0) = k := ⟨_, rfl⟩
      rw [hkk] at hk ⊢
      rw [hk, fill_all c _ hc (Nat.le_refl _)]
      dsimp only
      refine ⟨_, c.flatten, [], by simp only [Nat.sub_self, List.flatten_nil, List.length_nil]; rfl, ?_, by simp, .inl rfl, by simpa using hpos⟩
      simp only [List.replicate_zero, List.append_nil]
      rw [← hA]
      exact exact_af h first k _ hpid hn hp (by rw [hA]; omega) hpos
    · have hz : (if c.flatten.length < 188 - 5 - a then 188 - 5 - a - c.flatten.length else 0) = 0 := if_neg (by omega)
      rw [hz, Nat.sub_zero]
      obtain ⟨rest, g1, g2, g3, -, -⟩ := fill_part c (188 - 5 - a) (by omega)
      rw [g1]
      dsimp only
      have hl : (c.flatten.take (188 - 5 - a)).length = 188 - 5 - a := by rw [List.length_take]; omega
      rw [show c.flatten.length - (c.flatten.take (188 - 5 - a)).length = rest.flatten.length by rw [g2, List.length_drop, hl]]
      refine ⟨_, c.flatten.take (188 - 5 - a), rest, rfl, ?_, ?_, .inr (g3 hc), ?_⟩
      · simp only [List.replicate_zero, List.append_nil]
        have := exact_af h first 0 (c.flatten.take (188 - 5 - a)) hpid hn hp (by rw [hA, hl]; omega) (by rw [hl]; omega)
        simpa only [hA, List.replicate_zero, List.append_nil] using this
      · rw [g2, List.take_append_drop]
      · rw [g2, List.length_drop]; omega
  · rw [if_neg haf]
    simp only [hs, Bool.true_and, Bool.or_eq_true, decide_eq_true_eq, not_or, Bool.not_eq_true, Option.isSome_eq_false_iff, Option.isNone_iff_eq_none] at haf
    obtain ⟨⟨hr, hq⟩, hlt⟩ := haf
    by_cases h1 : c.flatten.length ≤ 184
    · rw [fill_all c _ hc h1]
      dsimp only
      refine ⟨_, c.flatten, [], by simp only [Nat.sub_self, List.flatten_nil, List.length_nil]; rfl, ?_, by simp, .inl rfl, by simpa using hpos⟩
      rw [show 184 - c.flatten.length = 0 by omega, hr, hq, List.replicate_zero, List.append_nil]
      exact exact_plain h first _ hpid hn (by omega)
    · obtain ⟨rest, g1, g2, g3, -, -⟩ := fill_part c 184 (by omega)
      rw [g1]
      dsimp only
      have hl : (c.flatten.take 184).length = 184 := by rw [List.length_take]; omega
      rw [show c.flatten.length - (c.flatten.take 184).length = rest.flatten.length by rw [g2, List.length_drop, hl]]
      refine ⟨_, c.flatten.take 184, rest, rfl, ?_, ?_, .inr (g3 hc), ?_⟩
      · rw [hr, hq, List.replicate_zero, List.append_nil]
        exact exact_plain h first _ hpid hn hl
      · rw [g2, List.take_append_drop]
      · rw [g2, List.length_drop]; omega

/-- A packet of a table. -/
theorem packet_table (h : WHead) (first : Bool) (c : List Bytes) (hs : h.stuff = false) (hr : h.rand = false) (hq : h.pcr = none) (hc : Ends c) (hpid : h.pid < 8192)
    (hn : h.cont < 16) :
    ∃ bytes data rest k, packet h first c.flatten.length c = (bytes, rest, rest.flatten.length) ∧
      Spec.exactPkt bytes = some ⟨first, h.pid, h.cont, false, none, data ++ List.replicate k 0xff⟩ ∧ data ++ rest.flatten = c.flatten ∧
      (rest = [] ∨ Ends rest ∧ k = 0) ∧ rest.flatten.length < c.flatten.length := by
  have hpos := ends_pos hc
  unfold packet
  dsimp only
  rw [hr, hq, hs, if_neg (by simp)]
  by_cases h1 : c.flatten.length ≤ 184
  · rw [fill_all c _ hc h1]
    dsimp only
    refine ⟨_, c.flatten, [], 184 - c.flatten.length, by simp only [Nat.sub_self, List.flatten_nil, List.length_nil]; rfl, ?_, by simp, .inl rfl, by simpa using hpos⟩
    rw [List.append_assoc]
    exact exact_plain h first _ hpid hn (by simp only [List.length_append, List.length_replicate]; omega)
  · obtain ⟨rest, g1, g2, g3, -, -⟩ := fill_part c 184 (by omega)
    rw [g1]
    dsimp only
    have hl : (c.flatten.take 184).length = 184 := by rw [List.length_take]; omega
    rw [show c.flatten.length - (c.flatten.take 184).length = rest.flatten.length by rw [g2, List.length_drop, hl]]
    refine ⟨_, c.flatten.take 184, rest, 0, rfl, ?_, ?_, .inr ⟨g3 hc, rfl⟩, ?_⟩
    · rw [List.replicate_zero, List.append_nil, List.append_nil]
      exact exact_plain h first _ hpid hn hl
    · rw [g2, List.take_append_drop]
    · rw [g2, List.length_drop]; omega

/-- What one run of packets is: the first may start a unit and have indicator and clock. -/
def Run (pid cc : Nat) (first rai : Bool) (pcr : Option Nat) : List Spec.Pkt → Prop
  | [] => False
  | p :: ps => p.pusi = first ∧ p.rai = rai ∧ p.pcr = pcr ∧ (∀ q ∈ ps, q.pusi = false ∧ q.rai = false ∧ q.pcr = none) ∧
      (∀ q ∈ p :: ps, q.pid = pid) ∧ (p :: ps).map (·.cc) = (List.range (ps.length + 1)).map fun i => (cc + i) % 16

theorem run_cons {pid cc : Nat} {first rai : Bool} {pcr : Option Nat} {data : Bytes} {ps : List Spec.Pkt} (hc : cc < 16)
    (h : Run pid ((cc + 1) % 16) false false none ps) : Run pid cc first rai pcr (⟨first, pid, cc, rai, pcr, data⟩ :: ps) := by
  match ps, h with
  | q :: qs, ⟨h1, h2, h3, h4, h5, h6⟩ =>
    refine ⟨rfl, rfl, rfl, ?_, ?_, ?_⟩
    · intro x hx
      rcases List.mem_cons.1 hx with rfl | hx
      · exact ⟨h1, h2, h3⟩
      · exact h4 x hx
    · intro x hx
      rcases List.mem_cons.1 hx with rfl | hx
      · rfl
      · exact h5 x hx
    · rw [List.map_cons, h6, List.length_cons, List.range_succ_eq_map (n := qs.length + 1), List.map_cons, List.map_map]
      congr 1
      · dsimp only; omega
      · apply List.map_congr_left
        intro i _
        simp only [Function.comp]
        omega

theorem run_one {pid cc : Nat} {first rai : Bool} {pcr : Option Nat} {data : Bytes} (hc : cc < 16) : Run pid cc first rai pcr [⟨first, pid, cc, rai, pcr, data⟩] := by
  refine ⟨rfl, rfl, rfl, by simp, by simp, ?_⟩
  simp
  omega

theorem rounds_stuff (m : Nat) (h : WHead) (first : Bool) (c : List Bytes) (hm : c.flatten.length ≤ m) (hs : h.stuff = true) (hc : Ends c) (hpid : h.pid < 8192)
    (hn : h.cont < 16) (hp : ∀ v, h.pcr = some v → v < 2 ^ 33 * 300) :
    ∃ out ps, (∀ n, c.flatten.length ≤ n → rounds n h first c.flatten.length c = some (out, (h.cont + ps.length) % 16)) ∧ Spec.exactAll out = some ps ∧
      Spec.unitBytes ps = c.flatten ∧ Run h.pid h.cont first h.rand h.pcr ps := by
  induction m generalizing h first c with
  | zero => have := ends_pos hc; omega
  | succ m ih =>
    have hpos := ends_pos hc
    obtain ⟨bytes, data, rest, g1, g2, g3, g4, g5⟩ := packet_stuff h first c hs hc hpid hn hp
    rcases g4 with g4 | g4
    · subst g4
      refine ⟨[bytes], [⟨first, h.pid, h.cont, h.rand, h.pcr, data⟩], ?_, by simp [Spec.exactAll, g2], by simpa [Spec.unitBytes] using g3, run_one hn⟩
      intro n hl
      obtain ⟨n, rfl⟩ : ∃ k, n = k + 1 := ⟨n - 1, by omega⟩
      simp only [rounds, g1]
      rw [if_pos trivial]
      rfl
    · have hne : rest ≠ [] := by rintro rfl; have := ends_pos g4; simp at this
      obtain ⟨out, ps, k1, k2, k3, k4⟩ := ih { h with cont := (h.cont + 1) % 16, rand := false, pcr := none } false rest (by omega) hs g4 hpid (by dsimp only; omega) (by simp)
      refine ⟨bytes :: out, ⟨first, h.pid, h.cont, h.rand, h.pcr, data⟩ :: ps, ?_, by simp [Spec.exactAll, g2, k2], ?_, run_cons hn k4⟩
      · intro n hl
        obtain ⟨n, rfl⟩ : ∃ k, n = k + 1 := ⟨n - 1, by omega⟩
        simp only [rounds, g1]
        rw [if_neg hne, k1 n (by omega)]
        simp only [Option.map_some, List.length_cons]
        congr 2
        omega
      · rw [← g3, ← k3]
        simp [Spec.unitBytes]

theorem rounds_table (m : Nat) (h : WHead) (first : Bool) (c : List Bytes) (hm : c.flatten.length ≤ m) (hs : h.stuff = false) (hr : h.rand = false) (hq : h.pcr = none)
    (hc : Ends c) (hpid : h.pid < 8192) (hn : h.cont < 16) :
    ∃ out ps k, (∀ n, c.flatten.length ≤ n → rounds n h first c.flatten.length c = some (out, (h.cont + ps.length) % 16)) ∧ Spec.exactAll out = some ps ∧
      Spec.unitBytes ps = c.flatten ++ List.replicate k 0xff ∧ Run h.pid h.cont first false none ps := by
  induction m generalizing h first c with
  | zero => have := ends_pos hc; omega
  | succ m ih =>
    have hpos := ends_pos hc
    obtain ⟨bytes, data, rest, k, g1, g2, g3, g4, g5⟩ := packet_table h first c hs hr hq hc hpid hn
    rcases g4 with g4 | ⟨g4, rfl⟩
    · subst g4
      refine ⟨[bytes], [⟨first, h.pid, h.cont, false, none, data ++ List.replicate k 0xff⟩], k, ?_, by simp [Spec.exactAll, g2], by
        rw [← g3]; simp [Spec.unitBytes], run_one hn⟩
      intro n hl
      obtain ⟨n, rfl⟩ : ∃ k, n = k + 1 := ⟨n - 1, by omega⟩
      simp only [rounds, g1]
      rw [if_pos trivial]
      rfl
    · have hne : rest ≠ [] := by rintro rfl; have := ends_pos g4; simp at this
      obtain ⟨out, ps, k', k1, k2, k3, k4⟩ := ih { h with cont := (h.cont + 1) % 16, rand := false, pcr := none } false rest (by omega) hs rfl rfl g4 hpid (by dsimp only; omega)
      refine ⟨bytes :: out, ⟨first, h.pid, h.cont, false, none, data ++ List.replicate 0 0xff⟩ :: ps, k', ?_, by simp [Spec.exactAll, g2, k2], ?_, run_cons hn k4⟩
      · intro n hl
        obtain ⟨n, rfl⟩ : ∃ k, n = k + 1 := ⟨n - 1, by omega⟩
        simp only [rounds, g1]
        rw [if_neg hne, k1 n (by omega)]
        simp only [Option.map_some, List.length_cons]
        congr 2
        omega
      · rw [← g3, List.append_assoc, ← k3]
        simp [Spec.unitBytes]

/-- A chain with an empty buffer at its end is not finished by any packet. -/
theorem packet_hollow (h : WHead) (first : Bool) (c : List Bytes) (hs : h.stuff = true) (hc : Hollow c) :
    ∃ bytes rest, packet h first c.flatten.length c = (bytes, rest, rest.flatten.length) ∧ Hollow rest := by
  have key : ∀ room, ∀ k, (k = room ∧ room < c.flatten.length) ∨ k = c.flatten.length →
      ∃ rest, fill k c = (c.flatten.take k, 0, rest) ∧ rest.flatten = c.flatten.drop k ∧ Hollow rest := by
    intro room k hk
    rcases hk with ⟨rfl, h2⟩ | rfl
    · obtain ⟨rest, g1, g2, -, g4, -⟩ := fill_part c k h2
      exact ⟨rest, g1, g2, g4 hc⟩
    · obtain ⟨rest, g1, g2, g3⟩ := fill_hollow c _ hc rfl
      exact ⟨rest, by rw [g1, List.take_length], by rw [g2, List.drop_length], g3⟩
  have fin : ∀ (rest : List Bytes) (k : Nat), k ≤ c.flatten.length → rest.flatten = c.flatten.drop k → c.flatten.length - (c.flatten.take k).length = rest.flatten.length := by
    intro rest k hk e
    rw [e, List.length_take, List.length_drop]
    omega
  unfold packet
  dsimp only
  split
  · obtain ⟨a, hA⟩ : ∃ a, (adaptation h).length = a := ⟨_, rfl⟩
    rw [hs, hA]
    simp only [Bool.true_and, decide_eq_true_eq]
    by_cases h1 : c.flatten.length ≤ 188 - 5 - a
    · have hk : 188 - 5 - a - (if c.flatten.length < 188 - 5 - a then 188 - 5 - a - c.flatten.length else 0) = c.flatten.length := by split <;> omega
      obtain ⟨rest, g1, g2, g3⟩ := key 0 _ (.inr hk)
      rw [g1]
      exact ⟨_, rest, by dsimp only; rw [fin rest _ (by omega) g2], g3⟩
    · have hz : (if c.flatten.length < 188 - 5 - a then 188 - 5 - a - c.flatten.length else 0) = 0 := if_neg (by omega)
      rw [hz, Nat.sub_zero]
      obtain ⟨rest, g1, g2, g3⟩ := key (188 - 5 - a) _ (.inl ⟨rfl, by omega⟩)
      rw [g1]
      exact ⟨_, rest, by dsimp only; rw [fin rest _ (by omega) g2], g3⟩
  · rename_i hn
    simp only [hs, Bool.true_and, Bool.or_eq_true, decide_eq_true_eq, not_or] at hn
    by_cases h1 : c.flatten.length = 184
    · obtain ⟨rest, g1, g2, g3⟩ := key 0 184 (.inr h1.symm)
      rw [g1]
      exact ⟨_, rest, by dsimp only; rw [fin rest _ (by omega) g2], g3⟩
    · obtain ⟨rest, g1, g2, g3⟩ := key 184 184 (.inl ⟨rfl, by omega⟩)
      rw [g1]
      exact ⟨_, rest, by dsimp only; rw [fin rest _ (by omega) g2], g3⟩

theorem rounds_hollow (n : Nat) (h : WHead) (first : Bool) (c : List Bytes) (hs : h.stuff = true) (hc : Hollow c) : rounds n h first c.flatten.length c = none := by
  induction n generalizing h first c with
  | zero => rfl
  | succ n ih =>
    obtain ⟨bytes, rest, g1, g2⟩ := packet_hollow h first c hs hc
    simp only [rounds, g1]
    rw [if_neg (by rintro rfl; simp [Hollow] at g2), ih { h with cont := (h.cont + 1) % 16, rand := false, pcr := none } _ _ hs g2]
    rfl

end Verif.TsIn
