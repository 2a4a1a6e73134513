import Verif.Multiport.Lemmas
/-
C88: the address at which a worker listens and is reached.
-/
namespace Verif.Multiport
open Url (Digits decimal)

/-- From an address with port `n` the worker in slot `k` has the address with the same host and port `n + k`, if that is not above 65408. -/
theorem C88_port (mp : Bytes) (h : Option Bytes) (n slot : Nat) (r : Reads mp h n) (hu : ¬ Unix mp) (hs : slot ≤ 127) (h1 : 1 ≤ n) (h2 : n + slot ≤ 65408) :
    ∃ t, getPort mp slot = some (some t) ∧ Reads t h (n + slot) :=
  ⟨_, (getPort_iff hu hs).2 ⟨h, n, r, h1, h2, rfl⟩, reads_before r _⟩

/-- Nothing else is given: whatever is given is made from an address that can be read, and leads to the same host. -/
theorem C88_only (mp t : Bytes) (pslot : Int) (hu : ¬ Unix mp) (h : getPort mp pslot = some (some t)) :
    ∃ (slot : Nat) (host : Option Bytes) (n : Nat), pslot = slot ∧ slot ≤ 127 ∧ Reads mp host n ∧ 1 ≤ n ∧ n + slot ≤ 65408 ∧ Reads t host (n + slot) := by
  by_cases hp : pslot < 0 ∨ 127 < pslot
  · unfold getPort at h; rw [if_pos hp] at h; cases h
  · obtain ⟨slot, rfl⟩ : ∃ k : Nat, pslot = k := ⟨pslot.toNat, by omega⟩
    have hs : slot ≤ 127 := by omega
    obtain ⟨g, n, r, h1, h2, h3⟩ := (getPort_iff hu hs).1 h
    exact ⟨slot, g, n, rfl, hs, r, h1, h2, h3 ▸ reads_before r _⟩

/-- A path is given the number of the slot at its end, always. -/
theorem C88_unix (mp : Bytes) (slot : Nat) (hu : Unix mp) (hs : slot ≤ 127) : ∃ ds, Digits ds ∧ decimal ds = slot ∧ getPort mp slot = some (some (mp ++ 46 :: ds)) := by
  refine ⟨Json.dec slot, dec_digits slot, dec_value slot, ?_⟩
  have hl : (Json.dec slot).length ≤ 3 := Json.decGo_length 2 _ _ (by omega)
  have hn : ((slot : Int)).toNat = slot := by simp
  have ht : snprintf (mp.length + 5) (mp ++ 46 :: Json.dec slot) = mp ++ 46 :: Json.dec slot :=
    List.take_of_length_le (by rw [List.length_append, List.length_cons]; omega)
  unfold getPort
  rw [if_neg (by omega), if_pos ((unix_iff mp).2 hu), hn]
  unfold unixPort
  dsimp only
  rw [ht, if_pos (by rw [List.length_append, List.length_cons]; omega)]

/-- Two workers never have one address. -/
theorem C88_distinct (mp t : Bytes) (a b : Int) (ha : getPort mp a = some (some t)) (hb : getPort mp b = some (some t)) : a = b := by
  by_cases hu : Unix mp
  · have key : ∀ c : Int, getPort mp c = some (some t) → ∃ k : Nat, c = k ∧ t = mp ++ 46 :: Json.dec k := by
      intro c hc
      by_cases hp : c < 0 ∨ 127 < c
      · unfold getPort at hc; rw [if_pos hp] at hc; cases hc
      · refine ⟨c.toNat, by omega, ?_⟩
        have e : getPort mp c = some (some (mp ++ 46 :: Json.dec c.toNat)) := by
          have hl : (Json.dec c.toNat).length ≤ 3 := Json.decGo_length 2 _ _ (by omega)
          have ht : snprintf (mp.length + 5) (mp ++ 46 :: Json.dec c.toNat) = mp ++ 46 :: Json.dec c.toNat :=
            List.take_of_length_le (by rw [List.length_append, List.length_cons]; omega)
          unfold getPort
          rw [if_neg hp, if_pos ((unix_iff mp).2 hu)]
          unfold unixPort
          dsimp only
          rw [ht, if_pos (by rw [List.length_append, List.length_cons]; omega)]
        rw [e] at hc
        injection hc with hc
        injection hc with hc
        exact hc.symm
    obtain ⟨k, rfl, hk⟩ := key a ha
    obtain ⟨l, rfl, hl⟩ := key b hb
    rw [hk] at hl
    have := List.append_cancel_left hl
    injection this with _ this
    have e : k = l := by rw [← dec_value k, this, dec_value]
    rw [e]
  · obtain ⟨k, g, n, rfl, _, r, _, _, rt⟩ := C88_only mp t a hu ha
    obtain ⟨l, g', n', rfl, _, r', _, _, rt'⟩ := C88_only mp t b hu hb
    have e1 := (reads_unique r r').2
    have e2 := (reads_unique rt rt').2
    have : k = l := by omega
    rw [this]

/-- Two addresses whose ports are 128 apart, or whose hosts differ, never lead to one place. -/
theorem C88_apart (mp mp' t t' : Bytes) (h h' : Option Bytes) (n n' : Nat) (a b : Int) (hu : ¬ Unix mp) (hu' : ¬ Unix mp') (r : Reads mp h n) (r' : Reads mp' h' n')
    (hd : h ≠ h' ∨ n + 128 ≤ n') (ha : getPort mp a = some (some t)) (hb : getPort mp' b = some (some t')) : t ≠ t' := by
  intro e
  subst e
  obtain ⟨k, g, m, _, hk, q, _, _, qt⟩ := C88_only mp t a hu ha
  obtain ⟨l, g', m', _, hl, q', _, _, qt'⟩ := C88_only mp' t b hu' hb
  obtain ⟨e1, e2⟩ := reads_unique r q
  obtain ⟨e3, e4⟩ := reads_unique r' q'
  obtain ⟨e5, e6⟩ := reads_unique qt qt'
  subst e1 e2 e3 e4
  rcases hd with hd | hd
  · exact hd e5
  · omega

/-- All of the 128 slots can be used if the port is at most 65281. Partial: the bound that is meant is 65408 (C88_limit_violation). -/
theorem C88_all_partial (mp : Bytes) (h : Option Bytes) (n : Nat) (r : Reads mp h n) (hu : ¬ Unix mp) (h1 : 1 ≤ n) (h2 : n ≤ 65281) :
    ∀ slot : Nat, slot ≤ 127 → ∃ t, getPort mp slot = some (some t) ∧ Reads t h (n + slot) :=
  fun slot hs => C88_port mp h n slot r hu hs h1 (by omega)

/-- With a port from 65282 to 65408 the first worker listens and others do not, although their ports would be at most 65535. -/
theorem C88_limit_violation (mp : Bytes) (h : Option Bytes) (n : Nat) (r : Reads mp h n) (hu : ¬ Unix mp) (h1 : 65281 < n) (h2 : n ≤ 65408) :
    (∃ t, getPort mp 0 = some (some t)) ∧ (∀ t, getPort mp 127 ≠ some (some t)) ∧ n + 127 ≤ 65535 := by
  refine ⟨?_, fun t ht => ?_, by omega⟩
  · obtain ⟨t, ht, _⟩ := C88_port mp h n 0 r hu (by omega) (by omega) (by omega)
    exact ⟨t, ht⟩
  · obtain ⟨k, g, m, hk, _, q, _, hm, _⟩ := C88_only mp t 127 hu ht
    have := (reads_unique r q).2
    omega

/-- Nothing undefined happens unless the port is one of the 127 largest integers. -/
theorem C88_defined_partial (mp : Bytes) (pslot : Int) (hp : ∀ h n, Reads mp h n → n ≤ 9223372036854775680) : getPort mp pslot ≠ none := by
  intro he
  by_cases hs : pslot < 0 ∨ 127 < pslot
  · unfold getPort at he; rw [if_pos hs] at he; cases he
  · obtain ⟨slot, rfl⟩ : ∃ k : Nat, pslot = k := ⟨pslot.toNat, by omega⟩
    have hs' : slot ≤ 127 := by omega
    by_cases hu : Unix mp
    · obtain ⟨_, _, _, h⟩ := C88_unix mp slot hu hs'
      rw [h] at he; cases he
    · have key : ∀ {addr ds : Bytes}, shift mp addr ds slot = none → (Digits ds → ∃ h, Reads mp h (decimal ds)) → False := by
        intro addr ds hn hr
        unfold shift at hn
        cases ha : Url.atoi ds with
        | none => rw [ha] at hn; cases hn
        | some n =>
          rw [ha] at hn
          obtain ⟨d, v, _⟩ := (atoi_iff ds n).1 ha
          obtain ⟨h, r⟩ := hr d
          have := hp h _ r
          subst v
          dsimp only at hn
          unfold Url.maxInt at hn
          rw [if_neg (show ¬ 9223372036854775807 < decimal ds + slot by omega)] at hn
          split at hn
          · cases hn
          · split at hn <;> cases hn
      unfold getPort at he
      rw [if_neg hs, if_neg (fun h => hu ((unix_iff mp).1 h)), show ((slot : Int)).toNat = slot by simp] at he
      split at he
      · rename_i hb
        unfold inet6Port at he
        split at he
        · cases he
        · cases he
        · rename_i a c ds hc
          split at he
          · rename_i hcc
            subst hcc
            refine key he (fun d => ?_)
            obtain ⟨h1, h2⟩ := Url.strlchr_some.1 hc
            cases a with
            | nil => rw [h2] at hb; exact absurd hb (by simp)
            | cons x a =>
              rw [h2] at hb
              have hx : x = 91 := by simpa using hb
              subst hx
              exact ⟨some (91 :: a ++ [93]), ds, d, rfl, Or.inr ⟨a, rfl, fun h => h1 (List.mem_cons_of_mem _ h)⟩, by rw [h2]; simp⟩
          · cases he
      · rename_i hb
        unfold inetPort at he
        split at he
        · exact key he (fun d => ⟨none, mp, d, rfl, rfl⟩)
        · rename_i a ds hc
          split at he
          · cases he
          · refine key he (fun d => ?_)
            obtain ⟨h1, h2⟩ := Url.strlchr_some.1 hc
            refine ⟨some a, ds, d, rfl, Or.inl ⟨h1, fun h => hb ?_⟩, h2⟩
            rw [h2]
            cases a with
            | nil => cases h
            | cons x a => simpa using h

/-- The largest integer as a port: adding the slot overflows before the port is compared with the bound. -/
theorem C88_overflow_violation : ∃ mp, Reads mp none 9223372036854775807 ∧ getPort mp 1 = none :=
  ⟨[57, 50, 50, 51, 51, 55, 50, 48, 51, 54, 56, 53, 52, 55, 55, 53, 56, 48, 55], ⟨_, ⟨by decide, by decide⟩, by decide +kernel, rfl⟩, by decide +kernel⟩

end Verif.Multiport
