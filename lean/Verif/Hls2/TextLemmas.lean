import Verif.Hls2.Spec
import Verif.TsIn.HlsText
/-
The text of playlists, and names of fragments.
-/
namespace Verif.Hls2
open Verif
open Verif.HlsRestore (dec fixed3 decGo decGo_mem dec_ne digit? digit_ofNat)
open Verif.TsHls (lines_app number_dec duration_fixed3 tag_app)
open Verif.TsHls.Spec (Text)

theorem dec_chars (n : Nat) (c : Char) (h : c ∈ dec n) : c ≠ '\n' ∧ c ≠ '#' ∧ c ≠ '?' ∧ c ≠ '/' ∧ c ≠ '-' ∧ c ≠ '.' := by
  obtain ⟨d, h1, rfl⟩ := decGo_mem _ _ _ h
  have : ∀ x : Fin 10, Char.ofNat (48 + x.val) ≠ '\n' ∧ Char.ofNat (48 + x.val) ≠ '#' ∧ Char.ofNat (48 + x.val) ≠ '?' ∧ Char.ofNat (48 + x.val) ≠ '/' ∧ Char.ofNat (48 + x.val) ≠ '-' ∧
      Char.ofNat (48 + x.val) ≠ '.' := by decide
  exact this ⟨d, h1⟩

/-- Names that can be in a playlist and in the path of a request -/
structure Names.Ok (n : Names) : Prop where
  hName : n.name ≠ []
  hBase : ∀ c ∈ n.base, c ≠ '\n' ∧ c ≠ '?'
  hPlain : ∀ c ∈ n.name, c ≠ '\n' ∧ c ≠ '?' ∧ c ≠ '/'
  hSid : '\n' ∉ n.sid
  hHead : (n.base ++ n.name).head? ≠ some '#'

/-! ### Lines -/

theorem line_version (ls : List Text) (d : Bool) (nx : Option Nat) (m : Spec.Media) : Spec.parseLines ("#EXT-X-VERSION:3".toList :: ls) d nx m = Spec.parseLines ls d nx m := by
  rw [Spec.parseLines.eq_def]
  dsimp only
  rw [if_neg (by simp), if_pos rfl]

theorem line_disc (ls : List Text) (d : Bool) (nx : Option Nat) (m : Spec.Media) : Spec.parseLines ("#EXT-X-DISCONTINUITY".toList :: ls) d nx m = Spec.parseLines ls true nx m := by
  rw [Spec.parseLines.eq_def]
  dsimp only
  rw [if_neg (by simp), if_neg (by simp), if_pos rfl]

theorem line_seq (a : Text) (n : Nat) (h : Verif.TsHls.Spec.number a = some n) (ls : List Text) (d : Bool) (nx : Option Nat) (m : Spec.Media) (hm : m.segs = []) :
    Spec.parseLines (("#EXT-X-MEDIA-SEQUENCE:".toList ++ a) :: ls) d nx m = Spec.parseLines ls d nx { m with seq := n } := by
  have t1 := tag_app "#EXT-X-MEDIA-SEQUENCE:".toList a
  rw [Spec.parseLines.eq_def]
  dsimp only
  rw [if_neg (by simp), if_neg (by simp), if_neg (by simp), t1]
  dsimp only
  rw [h, Option.bind_some, if_pos hm]

theorem line_target (a : Text) (n : Nat) (h : Verif.TsHls.Spec.number a = some n) (ls : List Text) (d : Bool) (nx : Option Nat) (m : Spec.Media) (hm : m.target = none) :
    Spec.parseLines (("#EXT-X-TARGETDURATION:".toList ++ a) :: ls) d nx m = Spec.parseLines ls d nx { m with target := some n } := by
  have t1 := tag_app "#EXT-X-TARGETDURATION:".toList a
  have t2 : Verif.TsHls.Spec.tag "#EXT-X-MEDIA-SEQUENCE:".toList ("#EXT-X-TARGETDURATION:".toList ++ a) = none := by simp [Verif.TsHls.Spec.tag]
  rw [Spec.parseLines.eq_def]
  dsimp only
  rw [if_neg (by simp), if_neg (by simp), if_neg (by simp), t2]
  dsimp only
  rw [t1]
  dsimp only
  rw [h, Option.bind_some, if_pos hm]

theorem line_inf (a : Text) (n : Nat) (h : Verif.TsHls.Spec.duration a = some n) (ls : List Text) (d : Bool) (m : Spec.Media) :
    Spec.parseLines (("#EXTINF:".toList ++ a) :: ls) d none m = Spec.parseLines ls d (some n) m := by
  have t0 := tag_app "#EXTINF:".toList a
  have t1 : Verif.TsHls.Spec.tag "#EXT-X-MEDIA-SEQUENCE:".toList ("#EXTINF:".toList ++ a) = none := by simp [Verif.TsHls.Spec.tag]
  have t2 : Verif.TsHls.Spec.tag "#EXT-X-TARGETDURATION:".toList ("#EXTINF:".toList ++ a) = none := by simp [Verif.TsHls.Spec.tag]
  rw [Spec.parseLines.eq_def]
  dsimp only
  rw [if_neg (by simp), if_neg (by simp), if_neg (by simp), t1]
  dsimp only
  rw [t2]
  dsimp only
  rw [t0]
  dsimp only
  rw [h, Option.bind_some, if_pos rfl]

theorem line_name (a : Text) (h1 : a ≠ []) (h2 : a.head? ≠ some '#') (ls : List Text) (d : Bool) (n : Nat) (m : Spec.Media) :
    Spec.parseLines (a :: ls) d (some n) m = Spec.parseLines ls false none { m with segs := m.segs ++ [⟨d, n, a⟩] } := by
  obtain ⟨c, cs, rfl⟩ := List.exists_cons_of_ne_nil h1
  have hc : c ≠ '#' := by simpa using h2
  have ht' : ∀ p, Verif.TsHls.Spec.tag ('#' :: p) (c :: cs) = none := fun p => by simp [Verif.TsHls.Spec.tag, Ne.symm hc]
  have k1 : Verif.TsHls.Spec.tag "#EXT-X-MEDIA-SEQUENCE:".toList (c :: cs) = none := ht' _
  have k2 : Verif.TsHls.Spec.tag "#EXT-X-TARGETDURATION:".toList (c :: cs) = none := ht' _
  have k3 : Verif.TsHls.Spec.tag "#EXTINF:".toList (c :: cs) = none := ht' _
  rw [Spec.parseLines.eq_def]
  dsimp only
  rw [if_neg (by simp), if_neg (by simp; intro g; exact absurd g hc), if_neg (by simp; intro g; exact absurd g hc), k1]
  dsimp only
  rw [k2]
  dsimp only
  rw [k3]
  dsimp only
  rw [if_neg h2]

/-! ### Entries -/

theorem uri_plain (n : Names) (h : n.Ok) (id : Nat) : '\n' ∉ uri n id ∧ uri n id ≠ [] ∧ (uri n id).head? ≠ some '#' := by
  have e : uri n id = (n.base ++ n.name) ++ ('-' :: dec id ++ ".ts?session=".toList ++ n.sid ++ "&slot=".toList ++ dec n.slot) := by simp [uri]
  have hne : n.base ++ n.name ≠ [] := by simp [h.hName]
  obtain ⟨x, xs, hx⟩ := List.exists_cons_of_ne_nil hne
  refine ⟨?_, ?_, ?_⟩
  · rw [e]
    intro hm
    simp only [List.mem_append, List.mem_cons] at hm
    have hd : ∀ k, '\n' ∉ dec k := fun k g => (dec_chars k _ g).1 rfl
    rcases hm with (hm | hm) | ((((hm | hm) | hm) | hm) | hm) | hm
    · exact (h.hBase _ hm).1 rfl
    · exact (h.hPlain _ hm).1 rfl
    · exact absurd hm (by decide)
    · exact hd _ hm
    · exact absurd hm (by decide)
    · exact h.hSid hm
    · exact absurd hm (by decide)
    · exact hd _ hm
  · rw [e, hx]; simp
  · have := h.hHead
    rw [hx] at this
    rw [e, hx]
    simpa using this

theorem fixed3_plain (d : Nat) : '\n' ∉ fixed3 d := by
  intro h
  unfold fixed3 at h
  dsimp only at h
  rw [List.mem_append] at h
  rcases h with h | h
  · exact (dec_chars _ _ h).1 rfl
  · have : ∀ x : Fin 10, Char.ofNat (48 + x.val) ≠ '\n' := by decide
    obtain ⟨k, hk⟩ : ∃ k, (d + 45) / 90 = k := ⟨_, rfl⟩
    rw [hk] at h
    have a1 := this ⟨k / 100 % 10, by omega⟩
    have a2 := this ⟨k / 10 % 10, by omega⟩
    have a3 := this ⟨k % 10, by omega⟩
    simp only [List.mem_cons, List.not_mem_nil, or_false] at h
    rcases h with h | h | h | h
    · exact absurd h (by decide)
    · exact a1 h.symm
    · exact a2 h.symm
    · exact a3 h.symm

/-- What a player reads for a fragment -/
def segOf (n : Names) (g : Frag) : Spec.Seg := ⟨g.discont, (g.ticks + 45) / 90, uri n g.id⟩

theorem parse_entry (n : Names) (h : n.Ok) (g : Frag) (rest : Text) (m : Spec.Media) :
    Spec.parseLines (Verif.TsHls.Spec.lines (entry n g ++ rest)) false none m = Spec.parseLines (Verif.TsHls.Spec.lines rest) false none { m with segs := m.segs ++ [segOf n g] } := by
  obtain ⟨u1, u2, u3⟩ := uri_plain n h g.id
  have hd := duration_fixed3 g.ticks
  have hp := fixed3_plain g.ticks
  unfold entry segOf
  generalize fixed3 g.ticks = f at *
  generalize uri n g.id = u at *
  have tail (d : Bool) : Spec.parseLines (Verif.TsHls.Spec.lines ("#EXTINF:".toList ++ f ++ ",\n".toList ++ u ++ ['\n'] ++ rest)) d none m =
      Spec.parseLines (Verif.TsHls.Spec.lines rest) false none { m with segs := m.segs ++ [⟨d, (g.ticks + 45) / 90, u⟩] } := by
    have e : "#EXTINF:".toList ++ f ++ ",\n".toList ++ u ++ ['\n'] ++ rest = ("#EXTINF:".toList ++ (f ++ [','])) ++ '\n' :: (u ++ '\n' :: rest) := by simp
    rw [e, lines_app _ _ (by simp; exact hp), lines_app _ _ u1, line_inf _ _ hd, line_name _ u2 u3]
  cases g.discont
  · have := tail false
    simpa using this
  · have e : (if true = true then "#EXT-X-DISCONTINUITY\n".toList else []) ++ "#EXTINF:".toList ++ f ++ ",\n".toList ++ u ++ ['\n'] ++ rest =
        "#EXT-X-DISCONTINUITY".toList ++ '\n' :: ("#EXTINF:".toList ++ f ++ ",\n".toList ++ u ++ ['\n'] ++ rest) := by simp
    rw [e, lines_app _ _ (by decide), line_disc, tail true]

theorem parse_entries (n : Names) (h : n.Ok) (l : List Frag) (rest : Text) (m : Spec.Media) :
    Spec.parseLines (Verif.TsHls.Spec.lines (l.flatMap (entry n) ++ rest)) false none m = Spec.parseLines (Verif.TsHls.Spec.lines rest) false none { m with segs := m.segs ++ l.map (segOf n) } := by
  induction l generalizing m with
  | nil => simp
  | cons g l ih =>
    rw [List.flatMap_cons, List.append_assoc, parse_entry n h, ih]
    simp

theorem parse_playlist (n : Names) (h : n.Ok) (seq target : Nat) (l : List Frag) :
    Spec.parse ("#EXTM3U\n#EXT-X-VERSION:3\n#EXT-X-MEDIA-SEQUENCE:".toList ++ dec seq ++ "\n#EXT-X-TARGETDURATION:".toList ++ dec target ++ ['\n'] ++ l.flatMap (entry n)) =
      some { seq := seq, target := some target, segs := l.map (segOf n) } := by
  have hd : ∀ k, '\n' ∉ dec k := fun k g => (dec_chars k _ g).1 rfl
  have n1 := number_dec seq
  have n2 := number_dec target
  have d1 := hd seq
  have d2 := hd target
  generalize dec seq = a at *
  generalize dec target = b at *
  have e : "#EXTM3U\n#EXT-X-VERSION:3\n#EXT-X-MEDIA-SEQUENCE:".toList ++ a ++ "\n#EXT-X-TARGETDURATION:".toList ++ b ++ ['\n'] ++ l.flatMap (entry n) =
      "#EXTM3U".toList ++ '\n' :: ("#EXT-X-VERSION:3".toList ++ '\n' :: (("#EXT-X-MEDIA-SEQUENCE:".toList ++ a) ++ '\n' :: (("#EXT-X-TARGETDURATION:".toList ++ b) ++ '\n' :: (l.flatMap (entry n) ++ [])))) := by simp
  unfold Spec.parse
  rw [e, lines_app _ _ (by decide)]
  dsimp only
  rw [if_pos rfl, lines_app _ _ (by decide), line_version, lines_app _ _ (by simp; exact d1), line_seq _ _ n1 _ _ _ _ rfl, lines_app _ _ (by simp; exact d2), line_target _ _ n2 _ _ _ _ rfl,
    parse_entries n h]
  rw [show Verif.TsHls.Spec.lines [] = [[]] from rfl, Spec.parseLines, if_pos rfl, Spec.parseLines]
  simp

/-! ### Names -/

theorem strrchr_app (ch : Char) (d : Text) : ∀ (r acc : Text), ch ∉ r → strrchr ch (r ++ ch :: d) acc = if d = [] then none else some (r.reverse ++ acc) := by
  intro r
  induction r with
  | nil =>
    intro acc _
    cases d with
    | nil => rfl
    | cons x d => simp [strrchr]
  | cons y r ih =>
    intro acc h
    have h1 : y ≠ ch := fun g => h (by simp [g])
    have h2 : ch ∉ r := fun g => h (by simp [g])
    obtain ⟨z, zs, hz⟩ : ∃ z zs, r ++ ch :: d = z :: zs := List.exists_cons_of_ne_nil (by simp)
    rw [List.cons_append, hz, strrchr, if_neg h1, ← hz, ih _ h2]
    · simp
    · simp

theorem seekBack_app (ch : Char) (d : Text) : ∀ (r acc : Text), ch ∉ r → seekBack ch (r ++ ch :: d) acc = if d = [] then none else some (d, r.reverse ++ acc) := by
  intro r
  induction r with
  | nil =>
    intro acc _
    cases d with
    | nil => rfl
    | cons x d => simp [seekBack]
  | cons y r ih =>
    intro acc h
    have h1 : y ≠ ch := fun g => h (by simp [g])
    have h2 : ch ∉ r := fun g => h (by simp [g])
    obtain ⟨z, zs, hz⟩ : ∃ z zs, r ++ ch :: d = z :: zs := List.exists_cons_of_ne_nil (by simp)
    rw [List.cons_append, hz, seekBack, if_neg h1, ← hz, ih _ h2]
    · simp
    · simp

theorem atoiGo_decGo : ∀ fuel n, n < fuel → n < 2 ^ 63 → ∀ t, atoiGo (decGo fuel n ++ t) 0 = atoiGo t n := by
  intro fuel
  induction fuel with
  | zero => intro n h; omega
  | succ fuel ih =>
    intro n h hn t
    unfold decGo
    split
    · rename_i c
      rw [List.singleton_append, atoiGo, digit_ofNat n c]
      dsimp only
      rw [if_neg (by omega), Nat.zero_mul, Nat.zero_add]
    · rename_i c
      rw [List.append_assoc, ih (n / 10) (by omega) (by omega), List.singleton_append, atoiGo, digit_ofNat (n % 10) (Nat.mod_lt _ (by decide))]
      dsimp only
      rw [show n / 10 * 10 + n % 10 = n by omega, if_neg (by omega)]

theorem atoi_dec (n : Nat) (h : n < 2 ^ 63) : atoi (dec n) = some n := by
  unfold atoi
  rw [if_neg (dec_ne n)]
  have := atoiGo_decGo (n + 1) n (by omega) h []
  rw [List.append_nil] at this
  exact this

theorem fragId_name (pre : Text) (hp : pre ≠ []) (id : Nat) (hid : id < 2 ^ 63) (after : Char) (ha : after ≠ '.') : fragId (pre ++ '-' :: dec id ++ ".ts".toList) after = some id := by
  have h1 : '-' ∉ (dec id).reverse := fun g => (dec_chars id _ (List.mem_reverse.1 g)).2.2.2.2.1 rfl
  have e : after :: (pre ++ '-' :: dec id ++ ".ts".toList).reverse = [after, 's', 't'] ++ '.' :: ((dec id).reverse ++ '-' :: pre.reverse) := by simp
  unfold fragId
  rw [e, seekBack_app _ _ _ _ (by simp; exact ha.symm), if_neg (by simp), Option.bind_some]
  dsimp only
  rw [seekBack_app _ _ _ _ h1, if_neg (by simpa using hp), Option.bind_some]
  dsimp only
  rw [List.reverse_reverse, List.append_nil]
  exact atoi_dec id hid

theorem takeWhile_app {p : Char → Bool} (a b : Text) (h : ∀ c ∈ a, p c = true) : (a ++ b).takeWhile p = a ++ b.takeWhile p := by
  induction a with
  | nil => rfl
  | cons x a ih => rw [List.cons_append, List.takeWhile_cons, if_pos (h x (by simp)), ih (fun c hc => h c (by simp [hc])), List.cons_append]

/-- What is asked for -/
theorem asks_name (n : Names) (h : n.Ok) (id : Nat) (path : Text) (ha : Spec.Asks (uri n id) path) : ∃ pre, pre ≠ [] ∧ parseFrag path = pre ++ '-' :: dec id ++ ".ts".toList := by
  obtain ⟨dir, rfl⟩ := ha
  have e1 : Spec.pathOf (uri n id) = n.base ++ n.name ++ '-' :: dec id ++ ".ts".toList := by
    unfold Spec.pathOf
    have e : uri n id = (n.base ++ n.name ++ '-' :: dec id ++ ".ts".toList) ++ '?' :: ("session=".toList ++ n.sid ++ "&slot=".toList ++ dec n.slot) := by simp [uri]
    rw [e, takeWhile_app]
    · simp
    · intro c hc
      simp only [List.mem_append, List.mem_cons] at hc
      rcases hc with ((hc | hc) | hc | hc) | hc
      · simpa using (h.hBase c hc).2
      · simpa using (h.hPlain c hc).2.1
      · subst hc; decide
      · simpa using (dec_chars id c hc).2.2.1
      · simp at hc; rcases hc with rfl | rfl | rfl <;> decide
  -- the last segment
  obtain ⟨b, hb, e2⟩ : ∃ b, '/' ∉ b ∧ Spec.lastSeg (Spec.pathOf (uri n id)) = b ++ n.name ++ '-' :: dec id ++ ".ts".toList := by
    refine ⟨(n.base.reverse.takeWhile (· ≠ '/')).reverse, ?_, ?_⟩
    · intro g
      have : ∀ (l : Text), '/' ∉ l.takeWhile (· ≠ '/') := by
        intro l
        induction l with
        | nil => simp
        | cons x l ih =>
          rw [List.takeWhile_cons]
          split
          · rename_i hx
            intro g
            rcases List.mem_cons.1 g with g | g
            · subst g; simp at hx
            · exact ih g
          · simp
      exact this _ (List.mem_reverse.1 g)
    · rw [e1]
      unfold Spec.lastSeg
      have e : (n.base ++ n.name ++ '-' :: dec id ++ ".ts".toList).reverse = (n.name ++ '-' :: dec id ++ ".ts".toList).reverse ++ n.base.reverse := by simp
      rw [e, takeWhile_app]
      · simp
      · intro c hc
        rw [List.mem_reverse] at hc
        simp only [List.mem_append, List.mem_cons] at hc
        rcases hc with (hc | hc | hc) | hc
        · simpa using (h.hPlain c hc).2.2
        · subst hc; decide
        · simpa using (dec_chars id c hc).2.2.2.1
        · simp at hc; rcases hc with rfl | rfl | rfl <;> decide
  rw [e2]
  have hseg : '/' ∉ (b ++ n.name ++ '-' :: dec id ++ ".ts".toList).reverse := by
    rw [List.mem_reverse]
    intro hc
    simp only [List.mem_append, List.mem_cons] at hc
    rcases hc with ((hc | hc) | hc | hc) | hc
    · exact hb hc
    · exact (h.hPlain _ hc).2.2 rfl
    · exact absurd hc (by decide)
    · exact (dec_chars id _ hc).2.2.2.1 rfl
    · exact absurd hc (by decide)
  unfold parseFrag
  rw [show (dir ++ '/' :: (b ++ n.name ++ '-' :: dec id ++ ".ts".toList)).reverse = (b ++ n.name ++ '-' :: dec id ++ ".ts".toList).reverse ++ '/' :: dir.reverse by simp, strrchr_app _ _ _ _ hseg]
  by_cases hd : dir = []
  · rw [if_pos (by simp [hd]), hd]
    exact ⟨'/' :: (b ++ n.name), by simp, by simp⟩
  · rw [if_neg (by simpa using hd)]
    exact ⟨b ++ n.name, by simp [h.hName], by simp⟩

/-! ### Contents -/

theorem put_list (q : Nat) : ∀ (fs : List Frame) (g : Frag), g.last = g.content.length → g.content.length + fs.length < q →
    (fs.foldl (Frag.put q) g).content = g.content ++ fs ∧ (fs.foldl (Frag.put q) g).last = g.content.length + fs.length ∧
      (fs.foldl (Frag.put q) g).length = g.length + (fs.flatMap (·.data)).length := by
  intro fs
  induction fs with
  | nil => intro g h _; exact ⟨by simp, by simp [h], by simp⟩
  | cons f fs ih =>
    intro g h hq
    simp only [List.length_cons] at hq
    have e : (Frag.put q g f).content = g.content ++ [f] := by
      simp [Frag.put, h]
    have e2 : (Frag.put q g f).last = (Frag.put q g f).content.length := by
      rw [e]
      simp only [Frag.put, h, List.length_append, List.length_cons, List.length_nil]
      rw [Nat.mod_eq_of_lt (by omega)]
    obtain ⟨a1, a2, a3⟩ := ih (Frag.put q g f) e2 (by rw [e]; simp; omega)
    rw [List.foldl_cons, a1, a2, a3, e]
    refine ⟨by simp, by simp; omega, ?_⟩
    rw [List.flatMap_cons, List.length_append]
    simp only [Frag.put]
    omega

end Verif.Hls2
