import Verif.Hls.AnnexLemmas
namespace Verif.Annex
open Verif

theorem copy_some {n : Nat} {c c' : Cur} (h : (copy n c).2 = some c') : c'.flatten.length + n = c.flatten.length ∧ Norm c' := by
  induction c generalizing n with
  | nil => cases h
  | cons b bs ih =>
    rw [copy] at h
    by_cases hn : n ≤ b.length
    · rw [if_pos hn] at h
      cases h
      have := skipEmpty_spec (b.drop n :: bs)
      refine ⟨?_, this.2⟩
      rw [this.1, List.flatten_cons, List.flatten_cons, List.length_append, List.length_append, List.length_drop]; omega
    · rw [if_neg hn] at h
      have := ih h
      refine ⟨?_, this.2⟩
      rw [List.flatten_cons, List.length_append]; omega

theorem put_some {cap : Nat} {out d o : Bytes} (h : put cap out d = some o) : o.length ≤ cap := by
  rw [put] at h
  split at h
  · cases h
  · cases h; rw [List.length_append]; omega

theorem appendNals_safe {cap k : Nat} {c : Cur} {out : Bytes} (h : out.length ≤ cap) : ∃ r, appendNals cap k c out = some r ∧ r.1.length ≤ cap := by
  induction k generalizing c out with
  | zero => exact ⟨_, rfl, h⟩
  | succ k ih =>
    rw [appendNals]
    rcases hc : copy 2 c with ⟨l, _ | c1⟩
    · exact ⟨_, rfl, h⟩
    · dsimp only
      by_cases h1 : cap < out.length + 4
      · rw [if_pos h1]; exact ⟨_, rfl, h⟩
      · rw [if_neg h1, put_ok (by simp only [List.length_cons, List.length_nil]; omega), Option.bind_some]
        have h4 : (out ++ [0, 0, 0, 1]).length ≤ cap := by simp; omega
        by_cases h2 : cap < (out ++ [0, 0, 0, 1]).length + beDec l
        · rw [if_pos h2]; exact ⟨_, rfl, h4⟩
        · rw [if_neg h2]
          have := copy_length (beDec l) c1
          rw [put_ok (by omega), Option.bind_some]
          rcases (copy (beDec l) c1).2 with _ | c2
          · exact ⟨_, rfl, h4⟩
          · exact ih (by rw [List.length_append]; omega)

theorem appendParams_safe {cap : Nat} {hdr : Cur} {out : Bytes} (h : out.length ≤ cap) : ∃ o, appendParams cap hdr out = some o ∧ o.length ≤ cap := by
  rw [appendParams]
  rcases copy 10 hdr with ⟨_, _ | c1⟩
  · exact ⟨_, rfl, h⟩
  · dsimp only
    rcases copy 1 c1 with ⟨n, _ | c2⟩
    · exact ⟨_, rfl, h⟩
    · dsimp only
      obtain ⟨⟨o1, c3⟩, e, h1⟩ := appendNals_safe (k := beDec n % 32) (c := c2) h
      rw [e, Option.bind_some]
      rcases c3 with _ | c3
      · exact ⟨_, rfl, h1⟩
      · dsimp only
        rcases copy 1 c3 with ⟨m, _ | c4⟩
        · exact ⟨_, rfl, h1⟩
        · dsimp only
          obtain ⟨r, e, h2⟩ := appendNals_safe (k := beDec m) (c := c4) h1
          rw [e]; exact ⟨_, rfl, h2⟩

theorem appendAud_safe {cap : Nat} {out : Bytes} (h : out.length ≤ cap) : ∃ o, appendAud cap out = some o ∧ o.length ≤ cap := by
  rw [appendAud]
  by_cases h1 : cap < out.length + 6
  · rw [if_pos h1]; exact ⟨_, rfl, h⟩
  · rw [if_neg h1, put_ok (by simp only [List.length_cons, List.length_nil]; omega)]
    exact ⟨_, rfl, by simp; omega⟩

theorem before_safe {cap ty : Nat} {hdr : Cur} {st : St} (h : st.out.length ≤ cap) : ∃ st1, before cap hdr ty st = some st1 ∧ st1.out.length ≤ cap := by
  have key : ∀ st1 : St, st1.out.length ≤ cap → ∃ r, (if ty = 1 then some { st1 with ps := false }
      else if ty = 5 ∧ st1.ps = false then (appendParams cap hdr st1.out).map fun o => { st1 with out := o, ps := true } else some st1) = some r ∧ r.out.length ≤ cap := by
    intro st1 h1
    by_cases t1 : ty = 1
    · rw [if_pos t1]; exact ⟨_, rfl, h1⟩
    · rw [if_neg t1]
      by_cases t5 : ty = 5 ∧ st1.ps = false
      · rw [if_pos t5]
        obtain ⟨o, e, ho⟩ := appendParams_safe (hdr := hdr) h1
        rw [e]; exact ⟨_, rfl, ho⟩
      · rw [if_neg t5]; exact ⟨_, rfl, h1⟩
  rw [before]
  by_cases ha : st.aud = false ∧ (ty = 1 ∨ ty = 5 ∨ ty = 6)
  · rw [if_pos ha]
    obtain ⟨o, e, ho⟩ := appendAud_safe h
    rw [e]
    exact key _ ho
  · rw [if_neg ha]; exact key _ h

/-- Outcomes of a run that stays inside the buffer, ends, and follows NULL only when it logs. -/
def Safe (v : Variant) (cap : Nat) : Res → Prop
  | .frame out => out.length ≤ cap
  | .dropped => True
  | .error => True
  | .crash => v.logs = true
  | .overflow => False
  | .stuck => False

theorem startCode_le (out : Bytes) (t : UInt8) : (startCode out t).length ≤ 5 := by rw [startCode]; split <;> simp

theorem nals_safe (v : Variant) {cap nb : Nat} (hnb : 0 < nb) (hdr : Cur) (f : Nat) (c : Cur) (st : St) (h : st.out.length ≤ cap) (hf : c.flatten.length < f) :
    Safe v cap (nals v cap nb hdr f c st) := by
  induction f generalizing c st with
  | zero => omega
  | succ f ih =>
    cases c with
    | nil => rw [nals]; exact h
    | cons b cs =>
      rw [nals]
      rcases hc1 : copy nb (b :: cs) with ⟨l, _ | c1⟩
      · trivial
      · dsimp only
        have d1 := copy_some (n := nb) (c := b :: cs) (c' := c1) (by rw [hc1])
        by_cases hl : beDec l = 0
        · rw [if_pos hl]; exact ih _ _ h (by omega)
        · rw [if_neg hl]
          rcases hc2 : copy 1 c1 with ⟨tb, o⟩
          match tb, o with
          | [], _ => trivial
          | _ :: _ :: _, _ => trivial
          | [_], none => trivial
          | [t], some c2 =>
            have d2 := copy_some (n := 1) (c := c1) (c' := c2) (by rw [hc2])
            dsimp only
            by_cases hk : 7 ≤ t.toNat % 32 ∧ t.toNat % 32 ≤ 9
            · rw [if_pos hk]
              rcases hc3 : copy (beDec l - 1) c2 with ⟨_, _ | c3⟩
              · trivial
              · have d3 := copy_some (c := c2) (c' := c3) (by rw [hc3])
                exact ih _ _ h (by omega)
            · rw [if_neg hk]
              obtain ⟨st1, e1, h1⟩ := before_safe (cap := cap) (ty := t.toNat % 32) (hdr := hdr) h
              rw [e1]
              dsimp only
              by_cases h5 : cap < st1.out.length + 5
              · rw [if_pos h5]; trivial
              · rw [if_neg h5]
                have := startCode_le st1.out t
                rw [put_ok (by omega)]
                dsimp only
                by_cases h6 : cap < (st1.out ++ startCode st1.out t).length + beDec l
                · rw [if_pos h6]; trivial
                · rw [if_neg h6]
                  have hcl := copy_length (beDec l - 1) c2
                  rw [put_ok (by omega)]
                  rcases hc3 : (copy (beDec l - 1) c2).2 with _ | c3
                  · dsimp only
                    cases hv : v.logs with
                    | true => exact hv
                    | false => trivial
                  · have d3 := copy_some hc3
                    dsimp only
                    exact ih _ _ (by dsimp only; rw [List.length_append]; omega) (by omega)

end Verif.Annex
