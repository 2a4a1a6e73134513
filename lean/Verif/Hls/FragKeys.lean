import Verif.Hls.FragRun
/- Lemmas: the keys of the fragments. -/
namespace Verif.HlsFrag

theorem uses_append (k : Nat) (l m : List Done) : uses k (l ++ m) = uses k l + uses k m := by
  induction l with
  | nil => simp [uses]
  | cons d l ih => simp only [List.cons_append, uses, ih]; omega

theorem uses_zero (k : Nat) (l : List Done) (h : ∀ d ∈ l, d.frag.keyId ≠ k) : uses k l = 0 := by
  induction l with
  | nil => rfl
  | cons d l ih =>
    simp only [uses]
    rw [if_neg (h d (by simp)), ih (fun e he => h e (List.mem_cons_of_mem _ he))]

def one (b : Bool) : Nat := if b then 1 else 0

structure InvK (cfg : Cfg) (seq : Nat) (kf : Nat → Option Nat) (fresh : Nat → Prop) (old : List Frag) (st : St) : Prop where
  hI : InvI cfg seq old st
  hOld : ∀ id, id < seq + old.length → st.keyFiles id = kf id
  hDone : ∀ d ∈ st.done, st.keyFiles d.frag.keyId = some d.key ∧ d.frag.keyId < seq + old.length + st.done.length ∧ fresh d.key
  hCur : st.opened = true → (getFrag cfg st st.nfrags).keyId = st.keyId ∧ st.keyFiles st.keyId = some st.key ∧
    st.keyId < seq + old.length + st.done.length + 1 ∧ fresh st.key
  hKey : st.keyFrags ≠ 0 → st.keyFiles st.keyId = some st.key ∧ st.keyId < seq + old.length + st.done.length + 1 ∧ fresh st.key
  hUse : ∀ k, cfg.fragsPerKey ≠ 0 → uses k st.done + (if st.keyId = k then one st.opened else 0) ≤ cfg.fragsPerKey
  hLeft : cfg.fragsPerKey ≠ 0 → st.keyFrags ≠ 0 → uses st.keyId st.done + one st.opened + st.keyFrags ≤ cfg.fragsPerKey

/-- What a new key, or keeping the old one, does to an idle state. -/
theorem invK_newKey {cfg seq kf fresh old st} (hk : cfg.keys = true) (hf : cfg.fragsPerKey < 2 ^ 64) (env : Env)
    (hd : env.disk ≠ .noKey) (hr : ∃ k, env.rnd = some k ∧ fresh k) (ho : st.opened = false) (h : InvK cfg seq kf fresh old st)
    (id : Nat) (hid : id = seq + old.length + st.done.length) :
    ∃ a b c d, (newKey cfg env id st).1 = { st with keyFrags := a, keyId := b, key := c, keyFiles := d } ∧
      (∀ i, i < seq + old.length → d i = kf i) ∧
      (∀ x ∈ st.done, d x.frag.keyId = some x.key) ∧ d b = some c ∧ b < id + 1 ∧ fresh c ∧
      (cfg.fragsPerKey ≠ 0 → uses b st.done + 1 + a ≤ cfg.fragsPerKey) := by
  unfold newKey
  rw [if_neg (by simp [hk])]
  by_cases h0 : st.keyFrags = 0
  · obtain ⟨k, hk1, hk2⟩ := hr
    rw [if_pos h0, hk1]
    dsimp only
    rw [if_neg hd]
    refine ⟨_, _, _, _, rfl, ?_, ?_, ?_, by omega, hk2, ?_⟩
    · intro i hi
      rw [if_neg (by omega)]; exact h.hOld i hi
    · intro x hx
      obtain ⟨x1, x2, _⟩ := h.hDone x hx
      rw [if_neg (by omega)]; exact x1
    · simp
    · intro hz
      have : uses id st.done = 0 := uses_zero id st.done (fun x hx => by have := (h.hDone x hx).2.1; omega)
      rw [this]
      omega
  · rw [if_neg h0]
    obtain ⟨k1, k2, k3⟩ := h.hKey h0
    by_cases hz : cfg.fragsPerKey ≠ 0
    · rw [if_pos hz]
      have hl := h.hLeft hz h0
      rw [ho] at hl
      have e1 : one false = 0 := rfl
      exact ⟨_, _, _, _, rfl, h.hOld, fun x hx => (h.hDone x hx).1, k1, by omega, k3, fun _ => by omega⟩
    · rw [if_neg hz]
      exact ⟨_, _, _, _, rfl, h.hOld, fun x hx => (h.hDone x hx).1, k1, by omega, k3, fun c => absurd c hz⟩

theorem invK_keeps (cfg : Cfg) (seq : Nat) (kf : Nat → Option Nat) (fresh : Nat → Prop) (old : List Frag)
    (hn : cfg.naming = .sequential) (hg : cfg.gran = 0) (hk : cfg.keys = true) (hf : cfg.fragsPerKey < 2 ^ 64) :
    Keeps cfg (fun env => env.disk ≠ .noKey ∧ ∃ k, env.rnd = some k ∧ fresh k) (InvK cfg seq kf fresh old) where
  hDur st d h ho := ⟨(invI_keeps cfg seq old hn hg).hDur st d h.hI ho, h.hOld, h.hDone, fun _ => by
    have e := getFrag_setFrag_same cfg st st.nfrags { getFrag cfg st st.nfrags with dur := d }
    obtain ⟨c1, c2⟩ := h.hCur ho
    refine ⟨?_, c2⟩
    show (getFrag cfg (setFrag cfg st st.nfrags { getFrag cfg st st.nfrags with dur := d }) st.nfrags).keyId = _
    rw [e]; exact c1, h.hKey, h.hUse, h.hLeft⟩
  hTs st t h ho := ⟨(invI_keeps cfg seq old hn hg).hTs st t h.hI ho, h.hOld, h.hDone, h.hCur, h.hKey, h.hUse, h.hLeft⟩
  hCur st c h ho := ⟨(invI_keeps cfg seq old hn hg).hCur st c h.hI ho, h.hOld, h.hDone, h.hCur, h.hKey, h.hUse, h.hLeft⟩
  hClose st h ho := by
    have hi := (invI_keeps cfg seq old hn hg).hClose st h.hI ho
    obtain ⟨st1, e, e1⟩ := close_eq cfg st ho
    obtain ⟨a, b, e2⟩ := nextFrag_rest cfg { st with opened := false, done := st.done ++ [⟨getFrag cfg st st.nfrags, st.fragTs, st.key, st.cur⟩], cur := [] }
    obtain ⟨c1, c2, c3, c4⟩ := h.hCur ho
    have o1 : one true = 1 := rfl
    have o0 : one false = 0 := rfl
    have ho' := ho
    refine ⟨hi, ?_, ?_, ?_, ?_, ?_, ?_⟩ <;> rw [e, e1, e2]
    · exact h.hOld
    · intro d hd
      simp only [List.length_append, List.length_singleton]
      rcases List.mem_append.1 hd with hd | hd
      · obtain ⟨d1, d2, d3⟩ := h.hDone d hd
        exact ⟨d1, by omega, d3⟩
      · rw [List.mem_singleton.1 hd]
        dsimp only
        rw [c1]
        exact ⟨c2, by omega, c4⟩
    · intro c; cases c
    · intro hz
      obtain ⟨k1, k2, k3⟩ := h.hKey hz
      simp only [List.length_append, List.length_singleton]
      exact ⟨k1, by omega, k3⟩
    · intro k hz
      have := h.hUse k hz
      rw [ho', o1] at this
      dsimp only
      rw [uses_append, o0]
      simp only [uses, c1]
      split <;> simp_all
    · intro hz hl
      have := h.hLeft hz hl
      rw [ho', o1] at this
      dsimp only
      rw [uses_append, o0]
      simp only [uses, c1, if_pos]
      omega
  hOpen st env ts b hgd h ho := by
    have hi := (invI_keeps cfg seq old hn hg).hOpen st env ts b trivial h.hI ho
    have hid := fragmentId_seq hn hg h.hI.hW ts env.now
    have o1 : one true = 1 := rfl
    have o0 : one false = 0 := rfl
    obtain ⟨a, b', c, d, e2, k1, k2, k3, k4, k5, k6⟩ := invK_newKey hk hf env hgd.1 hgd.2 ho h _ hid
    have hbase : fragmentId cfg st ts env.now = seq + old.length + st.done.length := hid
    have huse : ∀ k, cfg.fragsPerKey ≠ 0 → uses k st.done ≤ cfg.fragsPerKey := fun k hz => by
      have := h.hUse k hz; omega
    rcases open_cases cfg env ts b st ho with e | ⟨st1, e1, e | ⟨_, e⟩⟩
    · rw [e]; exact h
    · refine ⟨hi, ?_, ?_, ?_, ?_, ?_, ?_⟩ <;> rw [e, e1, e2]
      · exact k1
      · intro x hx
        obtain ⟨_, x2, x3⟩ := h.hDone x hx
        exact ⟨k2 x hx, x2, x3⟩
      · intro c'; exact absurd (ho ▸ c') (by simp)
      · intro _
        dsimp only
        exact ⟨k3, by omega, k5⟩
      · intro k hz
        dsimp only
        rw [ho, o0]
        have := huse k hz
        split <;> omega
      · intro hz _
        dsimp only
        rw [ho, o0]
        have := k6 hz
        omega
    · have hg' : ∀ x : St, x = { st with keyFrags := a, keyId := b', key := c, keyFiles := d } → getFrag cfg
          { (setFrag cfg { x with opened := true, opens := x.opens ++ [fragmentId cfg st ts env.now], cur := [] } x.nfrags
          { id := fragmentId cfg st ts env.now, keyId := x.keyId, dur := 0, discont := b }) with fragTs := ts } x.nfrags =
          { id := fragmentId cfg st ts env.now, keyId := x.keyId, dur := 0, discont := b } := by
        intro x _
        exact getFrag_setFrag_same cfg { x with opened := true, opens := x.opens ++ [fragmentId cfg st ts env.now], cur := [] } x.nfrags _
      refine ⟨hi, ?_, ?_, ?_, ?_, ?_, ?_⟩ <;> rw [e, e1, e2]
      · exact k1
      · intro x hx
        obtain ⟨_, x2, x3⟩ := h.hDone x hx
        exact ⟨k2 x hx, x2, x3⟩
      · intro _
        refine ⟨?_, k3, ?_, k5⟩
        · exact congrArg Frag.keyId (hg' _ rfl)
        · show b' < seq + old.length + st.done.length + 1
          omega
      · intro _
        refine ⟨k3, ?_, k5⟩
        show b' < seq + old.length + st.done.length + 1
        omega
      · intro k hz
        show uses k st.done + (if b' = k then one true else 0) ≤ _
        have := huse k hz
        have := k6 hz
        rw [o1]
        split
        · rename_i hb; rw [← hb]; omega
        · omega
      · intro hz _
        show uses b' st.done + one true + a ≤ _
        have := k6 hz
        omega

theorem invK_resume (cfg : Cfg) (seq : Nat) (kf : Nat → Option Nat) (fresh : Nat → Prop) (old : List Frag) :
    InvK cfg seq kf fresh old (resume cfg seq kf old) := by
  obtain ⟨r1, r2, r3, r4, r5, r6, r7, r8⟩ := resume_rest cfg seq kf old
  refine ⟨invI_resume cfg seq kf old, fun id _ => by rw [r6], ?_, ?_, ?_, ?_, ?_⟩
  · rw [r2]; intro d hd; simp at hd
  · rw [r1]; intro c; cases c
  · rw [r7]; intro c; exact absurd rfl c
  · intro k _
    rw [r2, r1]
    show 0 + (if _ then 0 else 0) ≤ _
    split <;> omega
  · rw [r7]; intro _ c; exact absurd rfl c

end Verif.HlsFrag
