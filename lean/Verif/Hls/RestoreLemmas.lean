import Verif.Hls.RestoreModel
/- Lemmas: numbers and lines of a playlist read back. -/
namespace Verif.HlsRestore
open Verif.HlsFrag

theorem digit_ofNat (d : Nat) (h : d < 10) : digit? (Char.ofNat (48 + d)) = some d := by
  have : ∀ x : Fin 10, digit? (Char.ofNat (48 + x.val)) = some x.val := by decide
  exact this ⟨d, h⟩

theorem digit_plain (d : Nat) (h : d < 10) : Char.ofNat (48 + d) ≠ '\n' ∧ Char.ofNat (48 + d) ≠ '\r' ∧ Char.ofNat (48 + d) ≠ 's' ∧ Char.ofNat (48 + d) ≠ '#' := by
  have : ∀ x : Fin 10, Char.ofNat (48 + x.val) ≠ '\n' ∧ Char.ofNat (48 + x.val) ≠ '\r' ∧ Char.ofNat (48 + x.val) ≠ 's' ∧ Char.ofNat (48 + x.val) ≠ '#' := by decide
  exact this ⟨d, h⟩

theorem intPart_decGo : ∀ fuel n, n < fuel → ∀ t, intPart 0 (decGo fuel n ++ t) = intPart n t := by
  intro fuel
  induction fuel with
  | zero => intro n h; omega
  | succ fuel ih =>
    intro n h t
    unfold decGo
    split
    · rename_i c
      simp [intPart, digit_ofNat n c]
    · rename_i c
      rw [List.append_assoc, ih (n / 10) (by omega)]
      simp only [List.singleton_append, intPart, digit_ofNat (n % 10) (Nat.mod_lt _ (by decide))]
      rw [show n / 10 * 10 + n % 10 = n by omega]

theorem intPart_dec (n : Nat) (t : Text) : intPart 0 (dec n ++ t) = intPart n t := intPart_decGo (n + 1) n (by omega) t

/-- Every character is a digit. -/
theorem decGo_mem : ∀ fuel n c, c ∈ decGo fuel n → ∃ d, d < 10 ∧ c = Char.ofNat (48 + d) := by
  intro fuel
  induction fuel with
  | zero => intro n c h; simp [decGo] at h
  | succ fuel ih =>
    intro n c h
    unfold decGo at h
    split at h
    · rename_i e; exact ⟨n, e, by simpa using h⟩
    · rcases List.mem_append.1 h with h | h
      · exact ih _ c h
      · exact ⟨n % 10, Nat.mod_lt _ (by decide), by simpa using h⟩

theorem dec_snoc (n : Nat) : ∃ a d, d < 10 ∧ dec n = a ++ [Char.ofNat (48 + d)] := by
  unfold dec decGo
  split
  · rename_i e; exact ⟨[], n, e, rfl⟩
  · exact ⟨_, n % 10, Nat.mod_lt _ (by decide), rfl⟩

theorem dec_ne (n : Nat) : dec n ≠ [] := by
  obtain ⟨a, d, _, e⟩ := dec_snoc n
  rw [e]; simp

theorem decGo_length : ∀ fuel n k, n < 10 ^ (k + 1) → (decGo fuel n).length ≤ k + 1 := by
  intro fuel
  induction fuel with
  | zero => intro n k _; simp [decGo]
  | succ fuel ih =>
    intro n k h
    unfold decGo
    split
    · simp
    · rename_i c
      cases k with
      | zero => simp at h; omega
      | succ k =>
        have := ih (n / 10) k (by rw [Nat.pow_succ] at h; omega)
        simp only [List.length_append, List.length_singleton]
        omega

theorem dec_length (n : Nat) (h : n < 2 ^ 64) : (dec n).length ≤ 20 :=
  decGo_length (n + 1) n 19 (by omega)

/-- Reading digits backwards stops here. -/
def Stops (t : Text) : Prop := ∀ c cs, t = c :: cs → digit? c = none

theorem backDigits_stops (mag acc : Nat) (t : Text) (h : Stops t) : backDigits mag acc t = acc := by
  cases t with
  | nil => rfl
  | cons c cs => simp [backDigits, h c cs rfl]

theorem backDigits_decGo : ∀ fuel n, n < fuel → ∀ mag acc t, acc < 2 ^ 64 → Stops t →
    backDigits mag acc ((decGo fuel n).reverse ++ t) = (acc + n * mag) % 2 ^ 64 := by
  intro fuel
  induction fuel with
  | zero => intro n h; omega
  | succ fuel ih =>
    intro n h mag acc t ha hs
    unfold decGo
    split
    · rename_i c
      simp [backDigits, digit_ofNat n c, backDigits_stops _ _ t hs]
    · rename_i c
      simp only [List.reverse_append, List.reverse_singleton, List.singleton_append, List.cons_append, List.nil_append, backDigits,
        digit_ofNat (n % 10) (Nat.mod_lt _ (by decide))]
      rw [ih (n / 10) (by omega) _ _ t (Nat.mod_lt _ (by decide)) hs]
      obtain ⟨q, hq⟩ : ∃ q, q = n / 10 := ⟨_, rfl⟩
      obtain ⟨r, hr⟩ : ∃ r, r = n % 10 := ⟨_, rfl⟩
      have hn : n = q * 10 + r := by omega
      rw [← hq, ← hr, hn]
      rw [Nat.add_mod, Nat.mod_mod, Nat.mul_mod, Nat.mod_mod, ← Nat.mul_mod, ← Nat.add_mod]
      congr 1
      rw [Nat.add_mul, Nat.mul_assoc, Nat.mul_comm mag 10]
      omega

theorem backDigits_dec (n : Nat) (h : n < 2 ^ 64) (t : Text) (hs : Stops t) : backDigits 1 0 ((dec n).reverse ++ t) = n := by
  unfold dec
  rw [backDigits_decGo (n + 1) n (by omega) 1 0 t (by decide) hs, Nat.mul_one, Nat.zero_add, Nat.mod_eq_of_lt h]

theorem ivKey_digit (d : Nat) (h : d < 16) (base acc : Nat) (cs : Text) :
    ivKey base acc (hexDigit d :: cs) = ivKey (base * 16 % 2 ^ 64) ((acc + base * d) % 2 ^ 64) cs := by
  have hc : ∀ x : Fin 16, hexDigit x.val ≠ 'x' ∧
      (('0' ≤ hexDigit x.val ∧ hexDigit x.val ≤ '9' ∧ (hexDigit x.val).toNat - 48 = x.val) ∨
       (¬ ('0' ≤ hexDigit x.val ∧ hexDigit x.val ≤ '9') ∧ ¬ ('a' ≤ hexDigit x.val ∧ hexDigit x.val ≤ 'f') ∧ 'A' ≤ hexDigit x.val ∧ hexDigit x.val ≤ 'F' ∧ (hexDigit x.val).toNat - 55 = x.val)) := by decide
  obtain ⟨h1, h2⟩ := hc ⟨d, h⟩
  dsimp only at h1 h2
  have hu : ∀ c : Char, ivKey base acc (c :: cs) =
    if c = 'x' then acc
    else if '0' ≤ c ∧ c ≤ '9' then ivKey (base * 16 % 2 ^ 64) ((acc + base * (c.toNat - 48)) % 2 ^ 64) cs
    else if ('a' ≤ c ∧ c ≤ 'f') then ivKey (base * 16 % 2 ^ 64) ((acc + base * (c.toNat - 87)) % 2 ^ 64) cs
    else if ('A' ≤ c ∧ c ≤ 'F') then ivKey (base * 16 % 2 ^ 64) ((acc + base * (c.toNat - 55)) % 2 ^ 64) cs
    else acc := fun _ => rfl
  rw [hu, if_neg h1]
  rcases h2 with ⟨a, b, c⟩ | ⟨a, b, c, e, f⟩
  · rw [if_pos ⟨a, b⟩, c]
  · rw [if_neg a, if_neg b, if_pos ⟨c, e⟩, f]

theorem hexDigit_plain (d : Nat) (h : d < 16) : hexDigit d ≠ '\n' ∧ hexDigit d ≠ '\r' ∧ hexDigit d ≠ 's' := by
  have : ∀ x : Fin 16, hexDigit x.val ≠ '\n' ∧ hexDigit x.val ≠ '\r' ∧ hexDigit x.val ≠ 's' := by decide
  exact this ⟨d, h⟩

theorem hex_length (k n : Nat) : (hex k n).length = k := by
  induction k generalizing n with
  | zero => rfl
  | succ k ih => simp [hex, ih]

theorem hex_mem : ∀ k n c, c ∈ hex k n → ∃ d, d < 16 ∧ c = hexDigit d := by
  intro k
  induction k with
  | zero => intro n c h; simp [hex] at h
  | succ k ih =>
    intro n c h
    rcases List.mem_append.1 h with h | h
    · exact ih _ c h
    · exact ⟨n % 16, Nat.mod_lt _ (by decide), by simpa using h⟩

theorem ivKey_hex : ∀ k n, n < 16 ^ k → ∀ base acc t, acc < 2 ^ 64 →
    ivKey base acc ((hex k n).reverse ++ 'x' :: t) = (acc + base * n) % 2 ^ 64 := by
  intro k
  induction k with
  | zero =>
    intro n h base acc t ha
    have : n = 0 := by simpa using h
    subst this
    simp [hex, ivKey, Nat.mod_eq_of_lt ha]
  | succ k ih =>
    intro n h base acc t ha
    unfold hex
    simp only [List.reverse_append, List.reverse_singleton, List.singleton_append, List.cons_append, List.nil_append]
    rw [ivKey_digit (n % 16) (Nat.mod_lt _ (by decide)), ih (n / 16) (by rw [Nat.pow_succ] at h; omega) _ _ t (Nat.mod_lt _ (by decide))]
    obtain ⟨q, hq⟩ : ∃ q, q = n / 16 := ⟨_, rfl⟩
    obtain ⟨r, hr⟩ : ∃ r, r = n % 16 := ⟨_, rfl⟩
    have hn : n = q * 16 + r := by omega
    rw [← hq, ← hr, hn]
    rw [Nat.add_mod, Nat.mod_mod, Nat.mul_mod, Nat.mod_mod, ← Nat.mul_mod, ← Nat.add_mod]
    congr 1
    rw [Nat.mul_add, Nat.mul_assoc, Nat.mul_comm 16 q]
    omega

theorem seconds_fixed3 (d : Nat) (t : Text) : seconds (fixed3 d ++ ',' :: t) = (d + 45) / 90 * 90 := by
  unfold fixed3 seconds
  dsimp only
  obtain ⟨ms, hms⟩ : ∃ ms, ms = (d + 45) / 90 := ⟨_, rfl⟩
  rw [← hms, List.append_assoc, intPart_dec]
  have h1 := digit_ofNat (ms / 100 % 10) (Nat.mod_lt _ (by decide))
  have h2 := digit_ofNat (ms / 10 % 10) (Nat.mod_lt _ (by decide))
  have h3 := digit_ofNat (ms % 10) (Nat.mod_lt _ (by decide))
  have hd : digit? '.' = none := by decide
  have hc : digit? ',' = none := by decide
  simp only [List.cons_append, List.nil_append, intPart, hd]
  simp only [fraction, h1, h2, h3, hc]
  omega

/- Lines -/

/-- The name of a file ends a line; other lines do not end with `s` or a carriage return. -/
theorem line_other (cfg : Cfg) (r : R) (a : Text) (e : Char) (h1 : e ≠ '\r') (h2 : e ≠ 's') : line cfg r (a ++ [e]) =
    (let l := a ++ [e]
     let r1 := match strip "#EXT-X-MEDIA-SEQUENCE:".toList l with
       | some t => { r with st := { r.st with frag := (intPart 0 t).1 } }
       | none => r
     let r2 := match strip "#EXT-X-KEY:".toList l with
       | some _ => { r1 with keyId := ivKey 1 0 l.reverse }
       | none => r1
     let r3 := match strip "#EXTINF:".toList l with
       | some t => { r2 with dur := seconds t }
       | none => r2
     match strip "#EXT-X-DISCONTINUITY".toList l with
       | some _ => { r3 with discont := true }
       | none => r3) := by
  have hl : (a ++ [e]).getLast? = some e := by simp
  have hcr : ¬ ((a ++ [e]).getLast? = some '\r') := by rw [hl]; simpa using h1
  have hts : ¬ (4 ≤ (a ++ [e]).length ∧ (a ++ [e]).drop ((a ++ [e]).length - 3) = ".ts".toList) := by
    rintro ⟨_, h⟩
    have h3 := List.take_append_drop ((a ++ [e]).length - 3) (a ++ [e])
    rw [h] at h3
    rw [← h3] at hl
    have h4 : ((List.take ((a ++ [e]).length - 3) (a ++ [e])) ++ ".ts".toList).getLast? = some 's' := by simp
    rw [h4] at hl
    exact h2 (by simpa using hl.symm)
  unfold line
  rw [if_neg hcr]
  exact if_neg hts

theorem line_seq (cfg : Cfg) (r : R) (n : Nat) : line cfg r ("#EXT-X-MEDIA-SEQUENCE:".toList ++ dec n) = { r with st := { r.st with frag := n } } := by
  obtain ⟨a, d, hd, e⟩ := dec_snoc n
  have h := line_other cfg r ("#EXT-X-MEDIA-SEQUENCE:".toList ++ a) (Char.ofNat (48 + d)) (digit_plain d hd).2.1 (digit_plain d hd).2.2.1
  rw [List.append_assoc, ← e] at h
  rw [h]
  have s1 : strip "#EXT-X-MEDIA-SEQUENCE:".toList ("#EXT-X-MEDIA-SEQUENCE:".toList ++ dec n) = some (dec n) := rfl
  have s2 : strip "#EXT-X-KEY:".toList ("#EXT-X-MEDIA-SEQUENCE:".toList ++ dec n) = none := rfl
  have s3 : strip "#EXTINF:".toList ("#EXT-X-MEDIA-SEQUENCE:".toList ++ dec n) = none := rfl
  have s4 : strip "#EXT-X-DISCONTINUITY".toList ("#EXT-X-MEDIA-SEQUENCE:".toList ++ dec n) = none := rfl
  have hi := intPart_dec n []
  rw [List.append_nil] at hi
  dsimp only
  rw [s1, s2, s3, s4]
  dsimp only
  rw [hi]; rfl

theorem line_target (cfg : Cfg) (r : R) (n : Nat) : line cfg r ("#EXT-X-TARGETDURATION:".toList ++ dec n) = r := by
  obtain ⟨a, d, hd, e⟩ := dec_snoc n
  have h := line_other cfg r ("#EXT-X-TARGETDURATION:".toList ++ a) (Char.ofNat (48 + d)) (digit_plain d hd).2.1 (digit_plain d hd).2.2.1
  rw [List.append_assoc, ← e] at h
  rw [h]
  have s1 : strip "#EXT-X-MEDIA-SEQUENCE:".toList ("#EXT-X-TARGETDURATION:".toList ++ dec n) = none := rfl
  have s2 : strip "#EXT-X-KEY:".toList ("#EXT-X-TARGETDURATION:".toList ++ dec n) = none := rfl
  have s3 : strip "#EXTINF:".toList ("#EXT-X-TARGETDURATION:".toList ++ dec n) = none := rfl
  have s4 : strip "#EXT-X-DISCONTINUITY".toList ("#EXT-X-TARGETDURATION:".toList ++ dec n) = none := rfl
  dsimp only
  rw [s1, s2, s3, s4]

theorem line_key (cfg : Cfg) (r : R) (t : Text) (k : Nat) (h : k < 2 ^ 64) :
    line cfg r ("#EXT-X-KEY:".toList ++ (t ++ 'x' :: hex 32 k)) = { r with keyId := k } := by
  have hs : ∃ a d, d < 16 ∧ hex 32 k = a ++ [hexDigit d] := ⟨_, k % 16, Nat.mod_lt _ (by decide), rfl⟩
  obtain ⟨a, d, hd, e⟩ := hs
  have h0 := line_other cfg r ("#EXT-X-KEY:".toList ++ (t ++ 'x' :: a)) (hexDigit d) (hexDigit_plain d hd).2.1 (hexDigit_plain d hd).2.2
  have e1 : "#EXT-X-KEY:".toList ++ (t ++ 'x' :: a) ++ [hexDigit d] = "#EXT-X-KEY:".toList ++ (t ++ 'x' :: hex 32 k) := by
    rw [e]; simp
  rw [e1] at h0
  rw [h0]
  obtain ⟨u, hu⟩ : ∃ u, u = t ++ 'x' :: hex 32 k := ⟨_, rfl⟩
  have hrev : ivKey 1 0 ("#EXT-X-KEY:".toList ++ u).reverse = k := by
    rw [hu]
    have : ("#EXT-X-KEY:".toList ++ (t ++ 'x' :: hex 32 k)).reverse = (hex 32 k).reverse ++ 'x' :: (t.reverse ++ "#EXT-X-KEY:".toList.reverse) := by simp
    rw [this, ivKey_hex 32 k (by omega) 1 0 _ (by decide)]
    rw [Nat.one_mul, Nat.zero_add, Nat.mod_eq_of_lt h]
  rw [← hu]
  have s1 : strip "#EXT-X-MEDIA-SEQUENCE:".toList ("#EXT-X-KEY:".toList ++ u) = none := rfl
  have s2 : strip "#EXT-X-KEY:".toList ("#EXT-X-KEY:".toList ++ u) = some u := rfl
  have s3 : strip "#EXTINF:".toList ("#EXT-X-KEY:".toList ++ u) = none := rfl
  have s4 : strip "#EXT-X-DISCONTINUITY".toList ("#EXT-X-KEY:".toList ++ u) = none := rfl
  dsimp only
  rw [s1, s2, s3, s4]
  dsimp only
  rw [hrev]

theorem line_inf (cfg : Cfg) (r : R) (d : Nat) : line cfg r ("#EXTINF:".toList ++ fixed3 d ++ [',']) = { r with dur := (d + 45) / 90 * 90 } := by
  have h0 := line_other cfg r ("#EXTINF:".toList ++ fixed3 d) ',' (by decide) (by decide)
  rw [h0]
  have s1 : strip "#EXT-X-MEDIA-SEQUENCE:".toList ("#EXTINF:".toList ++ fixed3 d ++ [',']) = none := rfl
  have s2 : strip "#EXT-X-KEY:".toList ("#EXTINF:".toList ++ fixed3 d ++ [',']) = none := rfl
  have s3 : strip "#EXTINF:".toList ("#EXTINF:".toList ++ fixed3 d ++ [',']) = some (fixed3 d ++ [',']) := rfl
  have s4 : strip "#EXT-X-DISCONTINUITY".toList ("#EXTINF:".toList ++ fixed3 d ++ [',']) = none := rfl
  dsimp only
  rw [s1, s2, s3, s4]
  dsimp only
  rw [seconds_fixed3]

theorem line_disc (cfg : Cfg) (r : R) : line cfg r "#EXT-X-DISCONTINUITY".toList = { r with discont := true } := rfl

theorem strip_none (pre l : Text) (h : l.head? ≠ some '#') : strip ('#' :: pre) l = none := by
  unfold strip
  rw [if_neg]
  cases l with
  | nil => simp
  | cons c cs =>
    intro hp
    simp only [List.isPrefixOf, Bool.and_eq_true, beq_iff_eq] at hp
    exact h (by simp [← hp.1])

theorem line_file (cfg : Cfg) (r : R) (pre : Text) (id : Nat) (hid : id < 2 ^ 64) (hp : pre.head? ≠ some '#') (hs : Stops pre.reverse) :
    line cfg r (pre ++ dec id ++ ".ts".toList) =
      { r with st := nextFrag cfg (setFrag cfg r.st r.st.nfrags { id := id, keyId := r.keyId, dur := r.dur, discont := r.discont }), discont := false } := by
  obtain ⟨l, hl⟩ : ∃ l, l = pre ++ dec id ++ ".ts".toList := ⟨_, rfl⟩
  rw [← hl]
  have hhead : l.head? ≠ some '#' := by
    rw [hl]
    cases pre with
    | nil =>
      cases hd : dec id with
      | nil => exact absurd hd (dec_ne id)
      | cons c cs =>
        obtain ⟨x, hx, e⟩ := decGo_mem (id + 1) id c (by show c ∈ dec id; rw [hd]; simp)
        simp only [List.nil_append, List.cons_append, List.head?_cons, e]
        intro c'
        exact (digit_plain x hx).2.2.2 (by simpa using c')
    | cons c cs => simpa using hp
  have hlast : ¬ (l.getLast? = some '\r') := by rw [hl]; simp
  have hlen : 4 ≤ l.length := by
    have := List.length_pos_iff.2 (dec_ne id)
    rw [hl]; simp; omega
  have hdrop : l.drop (l.length - 3) = ".ts".toList := by
    rw [hl]; exact List.drop_left' (by simp only [List.length_append]; simp)
  have hrev : backDigits 1 0 (l.reverse.drop 3) = id := by
    have : l.reverse.drop 3 = (dec id).reverse ++ pre.reverse := by
      rw [hl]; simp
    rw [this, backDigits_dec id hid _ hs]
  have s1 : strip "#EXT-X-MEDIA-SEQUENCE:".toList l = none := strip_none _ l hhead
  have s2 : strip "#EXT-X-KEY:".toList l = none := strip_none _ l hhead
  have s3 : strip "#EXTINF:".toList l = none := strip_none _ l hhead
  have s4 : strip "#EXT-X-DISCONTINUITY".toList l = none := strip_none _ l hhead
  unfold line
  rw [if_neg hlast]
  dsimp only
  rw [s1, s2, s3, s4]
  dsimp only
  rw [if_pos ⟨hlen, hdrop⟩, hrev]

/- Buffers -/

theorem inner_append (cfg : Cfg) : ∀ a r acc b, inner cfg r acc (a ++ b) = inner cfg (inner cfg r acc a).1 (inner cfg r acc a).2 b := by
  intro a
  induction a with
  | nil => intro r acc b; rfl
  | cons c cs ih =>
    intro r acc b
    simp only [List.cons_append, inner]
    split
    · exact ih _ _ b
    · exact ih _ _ b

theorem inner_plain (cfg : Cfg) : ∀ a r acc, '\n' ∉ a → inner cfg r acc a = (r, acc ++ a) := by
  intro a
  induction a with
  | nil => intro r acc _; simp [inner]
  | cons c cs ih =>
    intro r acc h
    simp only [List.mem_cons, not_or] at h
    simp only [inner]
    rw [if_neg (fun e => h.1 e.symm), ih _ _ h.2]
    simp

/-- What is left over is the end of what was read, without a newline. -/
theorem inner_left (cfg : Cfg) : ∀ a r acc, '\n' ∉ acc → '\n' ∉ (inner cfg r acc a).2 ∧
    ((inner cfg r acc a = (r, acc ++ a)) ∨ ∃ u, a = u ++ (inner cfg r acc a).2 ∧ '\n' ∈ u) := by
  intro a
  induction a with
  | nil => intro r acc h; exact ⟨h, Or.inl (by simp [inner])⟩
  | cons c cs ih =>
    intro r acc h
    simp only [inner]
    by_cases e : c = '\n'
    · rw [if_pos e]
      obtain ⟨h1, h2⟩ := ih (line cfg r acc) [] (by simp)
      refine ⟨h1, Or.inr ?_⟩
      rcases h2 with h2 | ⟨u, h2, _⟩
      · exact ⟨[c], by rw [h2]; simp, by simp [e]⟩
      · exact ⟨c :: u, by rw [List.cons_append, ← h2], by simp [e]⟩
    · rw [if_neg e]
      obtain ⟨h1, h2⟩ := ih r (acc ++ [c]) (by simp [h]; exact fun x => e x.symm)
      refine ⟨h1, ?_⟩
      rcases h2 with h2 | ⟨u, h2, hu⟩
      · exact Or.inl (by rw [h2]; simp)
      · exact Or.inr ⟨c :: u, by rw [List.cons_append, ← h2], by simp [hu]⟩

/-- There is a newline in every 4096 bytes. -/
def Short (t : Text) : Prop := ∀ a b, t = a ++ b → 4096 ≤ b.length → '\n' ∈ b.take 4096

theorem Short.drop {t : Text} (h : Short t) (n : Nat) : Short (t.drop n) := by
  intro a b e hb
  exact h (t.take n ++ a) b (by rw [List.append_assoc, ← e, List.take_append_drop]) hb

/-- Reading by buffers is reading line by line. -/
theorem outer_eq (cfg : Cfg) : ∀ fuel rest r, rest.length < fuel → Short rest → outer cfg fuel r rest = (inner cfg r [] rest).1 := by
  intro fuel
  induction fuel with
  | zero => intro rest r h; omega
  | succ fuel ih =>
    intro rest r h hs
    unfold outer
    dsimp only
    obtain ⟨buf, hbuf⟩ : ∃ buf, buf = rest.take 4096 := ⟨_, rfl⟩
    obtain ⟨tl, htl⟩ : ∃ tl, tl = rest.drop 4096 := ⟨_, rfl⟩
    have hrest : rest = buf ++ tl := by rw [hbuf, htl, List.take_append_drop]
    rw [← hbuf]
    split
    · rename_i e
      have hn : rest = [] := by
        rw [hbuf] at e
        simpa using e
      rw [hn]; rfl
    · rename_i e
      obtain ⟨h1, h2⟩ := inner_left cfg buf r [] (by simp)
      split
      · rename_i hl
        rcases h2 with h2 | ⟨u, h2, hu⟩
        · -- no newline: the buffer is the rest of the file
          have hnb : '\n' ∉ buf := by rw [h2] at h1; simpa using h1
          have ht : tl = [] := by
            by_cases c : 4096 ≤ rest.length
            · exact absurd (hbuf ▸ hs [] rest rfl c) hnb
            · rw [htl]; exact List.drop_eq_nil_of_le (by omega)
          rw [hrest, ht, List.append_nil]
        · have := congrArg List.length h2
          rw [List.length_append] at this
          have : u.length = 0 := by omega
          rw [List.length_eq_zero_iff.1 this] at hu
          simp at hu
      · rename_i hl
        rcases h2 with h2 | ⟨u, h2, hu⟩
        · rw [h2] at hl; simp at hl
        · obtain ⟨left, hleft⟩ : ∃ left, left = (inner cfg r [] buf).2 := ⟨_, rfl⟩
          rw [← hleft] at h1 h2 ⊢
          have hup : 0 < u.length := List.length_pos_of_mem hu
          have hdrop : rest.drop (buf.length - left.length) = left ++ tl := by
            rw [hrest, h2, List.append_assoc]
            exact List.drop_left' (by simp)
          rw [hdrop]
          have hlen : (left ++ tl).length < fuel := by
            have e1 := congrArg List.length hrest
            have e2 := congrArg List.length h2
            simp only [List.length_append] at e1 e2 ⊢
            omega
          have hsh : Short (left ++ tl) := by rw [← hdrop]; exact hs.drop _
          rw [ih (left ++ tl) _ hlen hsh, hrest, inner_append cfg buf, ← hleft, inner_append cfg left, inner_plain cfg left _ [] h1]
          simp

/-- Lines with their newlines. -/
def unlines (ls : List Text) : Text := ls.flatMap (· ++ ['\n'])

theorem inner_unlines (cfg : Cfg) : ∀ ls r, (∀ l ∈ ls, '\n' ∉ l) → inner cfg r [] (unlines ls) = (ls.foldl (line cfg) r, []) := by
  intro ls
  induction ls with
  | nil => intro r _; rfl
  | cons l ls ih =>
    intro r h
    have e : unlines (l :: ls) = l ++ ('\n' :: unlines ls) := by simp [unlines]
    rw [e, inner_append, inner_plain cfg l r [] (h l (by simp))]
    simp only [List.nil_append, inner, if_pos]
    exact ih _ (fun x hx => h x (List.mem_cons_of_mem _ hx))

theorem short_unlines : ∀ ls : List Text, (∀ l ∈ ls, l.length < 4096) → Short (unlines ls) := by
  intro ls
  induction ls with
  | nil => intro _ a b e hb; simp [unlines] at e; rw [e.2] at hb; simp at hb
  | cons l ls ih =>
    intro h a b e hb
    have e0 : unlines (l :: ls) = (l ++ ['\n']) ++ unlines ls := by simp [unlines]
    rw [e0] at e
    rcases List.append_eq_append_iff.1 e with ⟨c, e1, e2⟩ | ⟨c, e1, e2⟩
    · exact ih (fun x hx => h x (List.mem_cons_of_mem _ hx)) c b e2 hb
    · have hl := h l (by simp)
      rcases List.eq_nil_or_concat c with rfl | ⟨c', x, rfl⟩
      · exact ih (fun x hx => h x (List.mem_cons_of_mem _ hx)) [] b (by simpa using e2.symm) hb
      · have e3 : l ++ ['\n'] = (a ++ c') ++ [x] := by simpa using e1
        have e4 := List.append_inj' e3 rfl
        have hx : '\n' = x := by simpa using e4.2
        have hc : c'.length < 4096 := by
          have := congrArg List.length e4.1
          simp only [List.length_append] at this
          omega
        rw [e2, ← hx]
        have : (c' ++ ['\n'] ++ unlines ls).take 4096 = (c' ++ ['\n']) ++ (unlines ls).take (4096 - (c' ++ ['\n']).length) := by
          rw [List.take_append, List.take_of_length_le (by simp; omega)]
        simp only [List.concat_eq_append]
        rw [this]
        simp

end Verif.HlsRestore
