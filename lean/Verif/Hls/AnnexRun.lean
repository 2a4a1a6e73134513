import Verif.Hls.AnnexLemmas
namespace Verif.Annex
open Verif

def audNal : Bytes := [0x09, 0xf0]

/-- A slice or SEI: the delimiter is put in front of the first of these. -/
def opens (n : Bytes) : Bool := nalType n == some 1 || nalType n == some 5 || nalType n == some 6

/-- The NAL units written for `src`. -/
def units (ps : List Bytes) : Bool → Bool → List Bytes → List Bytes
  | _, _, [] => []
  | a, s, n :: ns =>
    if kept n = false then units ps a s ns
    else
      (if a = false ∧ opens n = true then [audNal] else []) ++
      (if nalType n = some 5 ∧ s = false then ps else []) ++
      n :: units ps (a || opens n) (if nalType n = some 1 then false else if nalType n = some 5 then true else s) ns

/-- What `before` does when there is room. -/
theorem before_ok {cap : Nat} {p : Params} (hp : p.Ok) {hdr : Cur} (hh : hdr.flatten = p.bytes) {n : Bytes} {ty : Nat} (hty : nalType n = some ty) {st : St}
    {D : List Bytes} (hS : Stream st.out D)
    (hcap : st.out.length + (if st.aud then 0 else 6) + (if isIdr n then cost (p.sps ++ p.pps) else 0) ≤ cap) :
    ∃ st1, before cap hdr ty st = some st1 ∧ Stream st1.out (D ++ ((if st.aud = false ∧ opens n = true then [audNal] else []) ++
      (if nalType n = some 5 ∧ st.ps = false then p.sps ++ p.pps else []))) ∧
    st1.aud = (st.aud || opens n) ∧
    st1.ps = (if nalType n = some 1 then false else if nalType n = some 5 then true else st.ps) ∧
    st1.out.length + (if (st.aud || opens n) then 0 else 6) ≤
      st.out.length + (if st.aud then 0 else 6) + (if isIdr n then cost (p.sps ++ p.pps) else 0) := by
  obtain ⟨out, aud, ps⟩ := st
  have hop : opens n = true ↔ ty = 1 ∨ ty = 5 ∨ ty = 6 := by
    simp only [opens, hty, Bool.or_eq_true, beq_iff_eq, Option.some.injEq, or_assoc]
  have hidr : isIdr n = true ↔ ty = 5 := by simp only [isIdr, hty, beq_iff_eq, Option.some.injEq]
  simp only [hty, Option.some.injEq]
  dsimp only at hS hcap
  have key : ∀ AA : List Bytes, ∀ out1 : Bytes, ∀ A : Bool, Stream out1 (D ++ AA) →
      A = (aud || opens n) →
      out1.length + (if (aud || opens n) then 0 else 6) ≤ out.length + (if aud then 0 else 6) →
      ∃ r, (if ty = 1 then some (⟨out1, A, false⟩ : St) else if ty = 5 ∧ ps = false then (appendParams cap hdr out1).map fun o => ⟨o, A, true⟩ else some ⟨out1, A, ps⟩) = some r ∧
      Stream r.out (D ++ (AA ++ (if ty = 5 ∧ ps = false then p.sps ++ p.pps else []))) ∧
      r.aud = (aud || opens n) ∧ r.ps = (if ty = 1 then false else if ty = 5 then true else ps) ∧
      r.out.length + (if (aud || opens n) then 0 else 6) ≤ out.length + (if aud then 0 else 6) + (if isIdr n then cost (p.sps ++ p.pps) else 0) := by
    intro AA out1 A h1 hA h2
    by_cases t1 : ty = 1
    · rw [if_pos t1, if_neg (show ¬ (ty = 5 ∧ ps = false) by omega)]
      exact ⟨_, rfl, by simpa using h1, hA, by rw [if_pos t1], by dsimp only; omega⟩
    · rw [if_neg t1, if_neg t1]
      by_cases t5 : ty = 5
      · have hi := hidr.2 t5
        rw [hi, if_pos rfl] at hcap ⊢
        by_cases hps : ps = false
        · rw [if_pos ⟨t5, hps⟩, if_pos ⟨t5, hps⟩, if_pos t5]
          have hlen : out1.length + cost (p.sps ++ p.pps) ≤ cap := by
            have : out1.length ≤ out1.length + (if (aud || opens n) then 0 else 6) := by omega
            omega
          rw [appendParams_ok hp hh hlen]
          refine ⟨_, rfl, ?_, hA, rfl, ?_⟩
          · rw [← List.append_assoc]; exact h1.longs _
          · dsimp only; rw [List.length_append, longs_length]; omega
        · rw [if_neg (by simp [hps]), if_neg (by simp [hps]), if_pos t5]
          exact ⟨_, rfl, by simpa using h1, hA, by simpa using hps, by dsimp only; omega⟩
      · rw [if_neg (by simp [t5]), if_neg (by simp [t5]), if_neg t5]
        exact ⟨_, rfl, by simpa using h1, hA, rfl, by dsimp only; omega⟩
  by_cases ho : aud = false ∧ opens n = true
  · have ho' : aud = false ∧ (ty = 1 ∨ ty = 5 ∨ ty = 6) := ⟨ho.1, hop.1 ho.2⟩
    have hr : ¬ cap < out.length + 6 := by rw [ho.1] at hcap; simp only [Bool.false_eq_true, if_false] at hcap; omega
    rw [before, if_pos ho', appendAud, if_neg hr, put_ok (by simp only [List.length_cons, List.length_nil]; omega), Option.map_some, Option.bind_some]
    refine key _ _ true ?_ (by simp [ho.2]) ?_
    · rw [if_pos ho]
      have := Stream.long audNal hS
      simpa [audNal] using this
    · rw [ho.1, ho.2]; simp
  · have ho' : ¬ (aud = false ∧ (ty = 1 ∨ ty = 5 ∨ ty = 6)) := fun h => ho ⟨h.1, hop.2 h.2⟩
    rw [before, if_neg ho', Option.bind_some]
    have ha : (aud || opens n) = aud := by
      cases aud with
      | true => rfl
      | false => simp at ho; simp [ho]
    refine key _ _ aud ?_ ha.symm ?_
    · rw [if_neg ho]; simpa using hS
    · rw [ha]; exact Nat.le_refl _

theorem startCode_stream {out : Bytes} {D : List Bytes} {t : UInt8} (d : Bytes) (h : Stream out D) : Stream (out ++ startCode out t ++ d) (D ++ [t :: d]) := by
  rw [startCode]
  by_cases e : out = []
  · rw [if_pos e]
    subst e
    have := Stream.long (t :: d) h
    simpa using this
  · rw [if_neg e]
    have := Stream.short (t :: d) h
    simpa using this

theorem startCode_length (out : Bytes) (t : UInt8) : (startCode out t).length = (if out = [] then 1 else 0) + 4 := by
  rw [startCode]; split <;> simp

theorem nals_ok {v : Variant} {cap nb : Nat} {p : Params} (hp : p.Ok) {hdr : Cur} (hh : hdr.flatten = p.bytes) (hnb : 0 < nb)
    (src : List Bytes) (hsrc : ∀ n ∈ src, n ≠ [] ∧ n.length < 256 ^ nb) (hlast : ∀ n, src.getLast? = some n → n.length ≠ 1)
    {c : Cur} (hN : Norm c) (hc : c.flatten = lenPrefixed nb src) {st : St} {D : List Bytes} (hS : Stream st.out D) {f : Nat} (hf : c.flatten.length < f)
    (hcap : st.out.length + (if st.out = [] then 1 else 0) + (if st.aud then 0 else 6) + (src.filter isIdr).length * cost (p.sps ++ p.pps) + cost src + 1 ≤ cap) :
    ∃ out, nals v cap nb hdr f c st = .frame out ∧ Stream out (D ++ units (p.sps ++ p.pps) st.aud st.ps src) := by
  induction src generalizing c st D f with
  | nil =>
    have : c = [] := hN.nil (by simpa [lenPrefixed] using hc)
    subst this
    exact ⟨st.out, by rw [nals], by simpa [units] using hS⟩
  | cons n src ih =>
    obtain ⟨t, d, hn⟩ : ∃ t d, n = t :: d := by
      have := (hsrc n (by simp)).1
      cases n with
      | nil => exact absurd rfl this
      | cons t d => exact ⟨t, d, rfl⟩
    have hlt := (hsrc n (by simp)).2
    rw [lenPrefixed_cons] at hc
    have hlb : (beEnc nb n.length).length = nb := beEnc_length _ _
    obtain ⟨c1, e1, f1, N1⟩ := copy_pre (ne_of_length (by rw [hc]; simp only [List.length_append, hlb]; omega)) hc
    rw [hlb] at e1
    have hdec : beDec (beEnc nb n.length) = n.length := beDec_beEnc_of_lt hlt
    have f1' : c1.flatten = [t] ++ (d ++ lenPrefixed nb src) := by rw [f1, hn]; rfl
    obtain ⟨c2, e2, f2, N2⟩ := copy_pre (ne_of_length (by rw [f1']; simp)) f1'
    have e2' : copy 1 c1 = ([t], some c2) := e2
    have hnl : n.length = d.length + 1 := by rw [hn]; rfl
    have hc2 : c2 ≠ [] := by
      refine ne_of_length ?_
      rw [f2, List.length_append]
      cases src with
      | nil =>
        have := hlast n rfl
        omega
      | cons m src =>
        rw [lenPrefixed_cons, List.length_append, beEnc_length]; omega
    obtain ⟨c3, e3, f3, N3⟩ := copy_pre hc2 f2
    have hty : nalType n = some (t.toNat % 32) := by rw [hn]; rfl
    have hlast' : ∀ m, src.getLast? = some m → m.length ≠ 1 := by
      intro m hm
      cases src with
      | nil => cases hm
      | cons a src => exact hlast m (by rw [List.getLast?_cons_cons]; exact hm)
    have hflen : c3.flatten.length + nb < c.flatten.length := by
      rw [hc, f3, List.length_append, hlb, List.length_append]
      have : 0 < n.length := by omega
      omega
    obtain ⟨b, cs, hcc⟩ : ∃ b cs, c = b :: cs := by
      cases c with
      | nil => simp at hflen
      | cons b cs => exact ⟨b, cs, rfl⟩
    obtain ⟨f', hf'⟩ : ∃ f', f = f' + 1 := ⟨f - 1, by omega⟩
    have hkept : kept n = false ↔ 7 ≤ t.toNat % 32 ∧ t.toNat % 32 ≤ 9 := by
      simp only [kept, hty, bne, Bool.and_eq_false_imp, Bool.and_eq_true, Bool.not_eq_true', Bool.not_eq_false', beq_eq_false_iff_ne, ne_eq, Option.some.injEq, beq_iff_eq]
      constructor
      · intro h
        by_cases a : t.toNat % 32 = 7
        · omega
        · by_cases b : t.toNat % 32 = 8
          · omega
          · have := h ⟨a, b⟩; omega
      · intro h k; omega
    have hun : nals v cap nb hdr f c st =
        if 7 ≤ t.toNat % 32 ∧ t.toNat % 32 ≤ 9 then nals v cap nb hdr f' c3 st
        else match before cap hdr (t.toNat % 32) st with
          | none => .overflow
          | some st1 =>
            if cap < st1.out.length + 5 then .dropped
            else
              match put cap st1.out (startCode st1.out t) with
              | none => .overflow
              | some out2 =>
                if cap < out2.length + n.length then .dropped
                else
                  match put cap out2 d with
                  | none => .overflow
                  | some out3 => nals v cap nb hdr f' c3 { st1 with out := out3 } := by
      have hd1 : n.length - 1 = d.length := by omega
      rw [hf', hcc, nals, ← hcc, e1]
      dsimp only
      rw [hdec, if_neg (by omega), e2']
      dsimp only
      rw [hd1, e3]
      by_cases hk : 7 ≤ t.toNat % 32 ∧ t.toNat % 32 ≤ 9
      · rw [if_pos hk, if_pos hk]
      · rw [if_neg hk, if_neg hk]
        cases before cap hdr (t.toNat % 32) st with
        | none => rfl
        | some st1 =>
          dsimp only
          by_cases h1 : cap < st1.out.length + 5
          · rw [if_pos h1, if_pos h1]
          · rw [if_neg h1, if_neg h1]
            cases put cap st1.out (startCode st1.out t) with
            | none => rfl
            | some out2 =>
              dsimp only
              by_cases h2 : cap < out2.length + n.length
              · rw [if_pos h2, if_pos h2]
              · rw [if_neg h2, if_neg h2]
                cases put cap out2 d <;> rfl
    rw [hun]
    have hsrc' := fun m (h : m ∈ src) => hsrc m (by simp [h])
    by_cases hk : 7 ≤ t.toNat % 32 ∧ t.toNat % 32 ≤ 9
    · rw [if_pos hk, units, if_pos (hkept.2 hk)]
      refine ih hsrc' hlast' N3 f3 hS (by omega) ?_
      have hi : isIdr n = false := by simp only [isIdr, hty, beq_eq_false_iff_ne, ne_eq, Option.some.injEq]; omega
      rw [List.filter_cons_of_neg (by simp [hi]), cost_cons] at hcap
      omega
    · rw [if_neg hk]
      rw [cost_cons] at hcap
      have hidr : (List.filter isIdr (n :: src)).length * cost (p.sps ++ p.pps) =
          (if isIdr n then cost (p.sps ++ p.pps) else 0) + (List.filter isIdr src).length * cost (p.sps ++ p.pps) := by
        by_cases h : isIdr n = true
        · rw [List.filter_cons_of_pos h, List.length_cons, Nat.add_mul, if_pos h]; omega
        · rw [List.filter_cons_of_neg h, if_neg h]; omega
      rw [hidr] at hcap
      have hbo := before_ok (cap := cap) (p := p) hp hh (n := n) hty (st := st) hS (by omega)
      obtain ⟨st1, b0, b1, b2, b3, b4⟩ := hbo
      rw [b0]
      dsimp only
      have hemp : (if st1.out = [] then 1 else 0) ≤ (if st.out = [] then 1 else 0) := by
        by_cases h : st.out = []
        · rw [if_pos h]; split <;> omega
        · rw [if_neg h]
          have : st1.out ≠ [] := by
            intro e
            rcases b1.front with ⟨-, e2⟩ | ⟨q, _, _, _, hq, e2, _, _⟩
            · have := (List.append_eq_nil_iff.1 e2).1
              subst this
              rcases hS.front with ⟨e3, -⟩ | ⟨_, _, _, _, _, _, e3, _⟩
              · exact h e3
              · cases e3
            · rw [e] at e2
              rcases hq with hq | hq <;> subst hq <;> simp at e2
          rw [if_neg this]; omega
      have hsb := startCode_length st1.out t
      have hlen2 : (st1.out ++ startCode st1.out t).length = st1.out.length + ((if st1.out = [] then 1 else 0) + 4) := by rw [List.length_append, hsb]
      rw [if_neg (by omega), put_ok (by omega)]
      dsimp only
      rw [if_neg (by omega), put_ok (by omega)]
      dsimp only
      have hS2 := startCode_stream (t := t) d b1
      obtain ⟨out, o1, o2⟩ := ih hsrc' hlast' N3 f3 (st := { st1 with out := st1.out ++ startCode st1.out t ++ d })
        hS2 (f := f') (by omega) (by
          have hne : st1.out ++ startCode st1.out t ++ d ≠ [] := by intro h; have := congrArg List.length h; simp [hsb] at this
          dsimp only
          rw [if_neg hne, b2, List.length_append]
          omega)
      refine ⟨out, o1, ?_⟩
      dsimp only at o2
      rw [b2, b3] at o2
      rw [units, if_neg (by rw [hkept]; exact hk)]
      rw [← hn] at o2
      simpa only [List.append_assoc, List.cons_append, List.nil_append] using o2

end Verif.Annex
