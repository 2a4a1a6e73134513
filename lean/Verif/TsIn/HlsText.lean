import Verif.TsIn.HlsModel
import Verif.TsIn.HlsSpec
import Verif.Hls.RestoreLemmas
/-
Playlists that are written.
-/
namespace Verif.TsHls
open Verif Verif.TsIn
open Verif.HlsRestore (Text dec fixed3 decGo decGo_mem dec_snoc dec_ne dec_length)

theorem lines_app (a b : Text) (h : '\n' ∉ a) : Spec.lines (a ++ '\n' :: b) = a :: Spec.lines b := by
  induction a with
  | nil => simp [Spec.lines]
  | cons c a ih =>
    have h1 : c ≠ '\n' := fun g => h (by simp [g])
    simp only [List.cons_append, Spec.lines, if_neg h1]
    rw [ih (fun g => h (by simp [g]))]

theorem digit_ofNat (d : Nat) (h : d < 10) : Spec.digit (Char.ofNat (48 + d)) = some d := by
  have : ∀ x : Fin 10, Spec.digit (Char.ofNat (48 + x.val)) = some x.val := by decide
  exact this ⟨d, h⟩

theorem digits_app (acc : Nat) (a b : Text) : Spec.digits acc (a ++ b) = (Spec.digits acc a).bind fun x => Spec.digits x b := by
  induction a generalizing acc with
  | nil => rfl
  | cons c a ih =>
    simp only [List.cons_append, Spec.digits]
    cases Spec.digit c with
    | none => rfl
    | some d => simp only [Option.bind_some]; exact ih _

theorem digits_decGo : ∀ fuel n, n < fuel → Spec.digits 0 (decGo fuel n) = some n := by
  intro fuel
  induction fuel with
  | zero => intro n h; omega
  | succ f ih =>
    intro n h
    rw [decGo]
    split
    · rename_i hn
      simp [Spec.digits, digit_ofNat n hn]
    · rw [digits_app, ih (n / 10) (by omega)]
      simp only [Option.bind_some, Spec.digits, digit_ofNat (n % 10) (by omega)]
      congr 1
      omega

theorem number_dec (n : Nat) : Spec.number (dec n) = some n := by
  unfold Spec.number
  rw [if_neg (dec_ne n)]
  exact digits_decGo _ _ (by omega)

theorem dec_plain (n : Nat) : '\n' ∉ dec n ∧ (dec n).head? ≠ some '#' := by
  have key : ∀ c ∈ dec n, c ≠ '\n' ∧ c ≠ '#' := by
    intro c hc
    obtain ⟨d, h1, rfl⟩ := decGo_mem _ _ _ hc
    have : ∀ x : Fin 10, Char.ofNat (48 + x.val) ≠ '\n' ∧ Char.ofNat (48 + x.val) ≠ '#' := by decide
    exact this ⟨d, h1⟩
  refine ⟨fun h => (key _ h).1 rfl, ?_⟩
  intro h
  exact (key '#' (List.mem_of_mem_head? (by rw [h]; rfl))).2 rfl

theorem duration_fixed3 (d : Nat) : Spec.duration (fixed3 d ++ [',']) = some ((d + 45) / 90) := by
  obtain ⟨m, hm⟩ : ∃ m, (d + 45) / 90 = m := ⟨_, rfl⟩
  unfold fixed3
  dsimp only
  rw [hm]
  obtain ⟨a, ha⟩ : ∃ a, dec (m / 1000) = a := ⟨_, rfl⟩
  have hne := dec_ne (m / 1000)
  have hnum := number_dec (m / 1000)
  rw [ha] at hne hnum ⊢
  have hl := List.length_pos_iff.2 hne
  have e : a ++ '.' :: [Char.ofNat (48 + m / 100 % 10), Char.ofNat (48 + m / 10 % 10), Char.ofNat (48 + m % 10)] ++ [','] =
      a ++ ['.', Char.ofNat (48 + m / 100 % 10), Char.ofNat (48 + m / 10 % 10), Char.ofNat (48 + m % 10), ','] := by simp
  rw [e]
  unfold Spec.duration
  rw [if_neg (by simp only [List.length_append, List.length_cons, List.length_nil]; omega),
    show (a ++ ['.', Char.ofNat (48 + m / 100 % 10), Char.ofNat (48 + m / 10 % 10), Char.ofNat (48 + m % 10), ',']).length - 5 = a.length by simp,
    List.drop_left, List.take_left, hnum]
  simp only [Option.bind_some, Spec.digits, digit_ofNat _ (Nat.mod_lt _ (by decide : 0 < 10)), Option.map_some]
  congr 1
  omega

theorem tag_app (p r : Text) : Spec.tag p (p ++ r) = some r := by
  induction p with
  | nil => rfl
  | cons c p ih => simp [Spec.tag, ih]

theorem name_plain (v : Var) (id : Nat) : '\n' ∉ nameOf v id ∧ (nameOf v id).head? ≠ some '#' ∧ nameOf v id ≠ [] := by
  have h1 := dec_plain id
  have h2 := dec_plain v.number
  unfold nameOf
  obtain ⟨x, xs, hx⟩ : ∃ x xs, dec id = x :: xs := List.exists_cons_of_ne_nil (dec_ne id)
  obtain ⟨y, ys, hy⟩ : ∃ y ys, dec v.number = y :: ys := List.exists_cons_of_ne_nil (dec_ne v.number)
  rw [hx] at h1 ⊢
  rw [hy] at h2 ⊢
  split
  · simp at h1 h2 ⊢
    exact ⟨⟨h2.1.1, h2.1.2, h1.1.1, h1.1.2⟩, h2.2⟩
  · simp at h1 ⊢
    exact h1

theorem line_blank (ls : List Text) (nx : Option Nat) (m : Spec.Media) : Spec.parseLines ([] :: ls) nx m = Spec.parseLines ls nx m := by
  cases nx <;> rw [Spec.parseLines, if_pos rfl]

theorem line_version (ls : List Text) (nx : Option Nat) (m : Spec.Media) : Spec.parseLines ("#EXT-X-VERSION:3".toList :: ls) nx m = Spec.parseLines ls nx m := by
  cases nx <;> rw [Spec.parseLines, if_neg (by simp), if_pos rfl]

theorem line_end (ls : List Text) (nx : Option Nat) (m : Spec.Media) :
    Spec.parseLines ("#EXT-X-ENDLIST".toList :: ls) nx m = Spec.parseLines ls nx { m with ended := true } := by
  cases nx <;> rw [Spec.parseLines, if_neg (by simp), if_neg (by simp), if_pos rfl]

theorem line_seq (a : Text) (n : Nat) (h : Spec.number a = some n) (ls : List Text) (nx : Option Nat) (m : Spec.Media) (hm : m.segs = []) :
    Spec.parseLines (("#EXT-X-MEDIA-SEQUENCE:".toList ++ a) :: ls) nx m = Spec.parseLines ls nx { m with seq := n } := by
  have t1 := tag_app "#EXT-X-MEDIA-SEQUENCE:".toList a
  cases nx <;>
  · rw [Spec.parseLines, if_neg (by simp), if_neg (by simp), if_neg (by simp), t1]
    dsimp only
    rw [h, Option.bind_some, if_pos hm]

theorem line_target (a : Text) (n : Nat) (h : Spec.number a = some n) (ls : List Text) (nx : Option Nat) (m : Spec.Media) (hm : m.target = none) :
    Spec.parseLines (("#EXT-X-TARGETDURATION:".toList ++ a) :: ls) nx m = Spec.parseLines ls nx { m with target := some n } := by
  have t1 := tag_app "#EXT-X-TARGETDURATION:".toList a
  have t2 : Spec.tag "#EXT-X-MEDIA-SEQUENCE:".toList ("#EXT-X-TARGETDURATION:".toList ++ a) = none := by simp [Spec.tag]
  cases nx <;>
  · rw [Spec.parseLines, if_neg (by simp), if_neg (by simp), if_neg (by simp), t2]
    dsimp only
    rw [t1]
    dsimp only
    rw [h, Option.bind_some, if_pos hm]

theorem line_inf (a : Text) (d : Nat) (h : Spec.duration a = some d) (ls : List Text) (m : Spec.Media) :
    Spec.parseLines (("#EXTINF:".toList ++ a) :: ls) none m = Spec.parseLines ls (some d) m := by
  have t0 := tag_app "#EXTINF:".toList a
  have t1 : Spec.tag "#EXT-X-MEDIA-SEQUENCE:".toList ("#EXTINF:".toList ++ a) = none := by simp [Spec.tag]
  have t2 : Spec.tag "#EXT-X-TARGETDURATION:".toList ("#EXTINF:".toList ++ a) = none := by simp [Spec.tag]
  rw [Spec.parseLines, if_neg (by simp), if_neg (by simp), if_neg (by simp), t1]
  dsimp only
  rw [t2]
  dsimp only
  rw [t0]
  dsimp only
  rw [h, Option.bind_some, if_pos rfl]

theorem line_name (a : Text) (h1 : a ≠ []) (h2 : a.head? ≠ some '#') (ls : List Text) (d : Nat) (m : Spec.Media) :
    Spec.parseLines (a :: ls) (some d) m = Spec.parseLines ls none { m with segs := m.segs ++ [(d, a)] } := by
  obtain ⟨c, cs, rfl⟩ := List.exists_cons_of_ne_nil h1
  have hc : c ≠ '#' := by simpa using h2
  have ht' : ∀ p, Spec.tag ('#' :: p) (c :: cs) = none := fun p => by simp [Spec.tag, Ne.symm hc]
  have k1 : Spec.tag "#EXT-X-MEDIA-SEQUENCE:".toList (c :: cs) = none := ht' _
  have k2 : Spec.tag "#EXT-X-TARGETDURATION:".toList (c :: cs) = none := ht' _
  have k3 : Spec.tag "#EXTINF:".toList (c :: cs) = none := ht' _
  rw [Spec.parseLines, if_neg (by simp), if_neg (by simp; intro g; exact absurd g hc), if_neg (by simp; intro g; exact absurd g hc), k1]
  dsimp only
  rw [k2]
  dsimp only
  rw [k3]
  dsimp only
  rw [if_neg h2]

theorem parse_entry (v : Var) (s : Seg) (rest : Text) (m : Spec.Media) :
    Spec.parseLines (Spec.lines (entry v s ++ rest)) none m =
      Spec.parseLines (Spec.lines rest) none { m with segs := m.segs ++ [((s.duration + 45) / 90, nameOf v s.id)] } := by
  obtain ⟨n1, n2, n3⟩ := name_plain v s.id
  have hd := duration_fixed3 s.duration
  have hplain : '\n' ∉ fixed3 s.duration := by
    intro h
    unfold fixed3 at h
    dsimp only at h
    rw [List.mem_append] at h
    rcases h with h | h
    · exact (dec_plain _).1 h
    · have : ∀ x : Fin 10, Char.ofNat (48 + x.val) ≠ '\n' := by decide
      obtain ⟨k, hk⟩ : ∃ k, (s.duration + 45) / 90 = k := ⟨_, rfl⟩
      rw [hk] at h
      have a1 := this ⟨k / 100 % 10, by omega⟩
      have a2 := this ⟨k / 10 % 10, by omega⟩
      have a3 := this ⟨k % 10, by omega⟩
      simp only [List.mem_cons, List.not_mem_nil, or_false] at h
      rcases h with h | h | h | h
      · exact absurd h (by decide)
      · exact a1 h.symm
      · exact a2 h.symm
      · exact a3 h.symm
  obtain ⟨f, hf⟩ : ∃ f, fixed3 s.duration = f := ⟨_, rfl⟩
  obtain ⟨nm, hnm⟩ : ∃ nm, nameOf v s.id = nm := ⟨_, rfl⟩
  rw [hf] at hd hplain
  rw [hnm] at n1 n2 n3
  have e : entry v s ++ rest = ("#EXTINF:".toList ++ (f ++ [','])) ++ '\n' :: (nm ++ '\n' :: rest) := by
    unfold entry
    rw [hf, hnm]
    simp
  rw [e, lines_app _ _ (by simp; exact hplain), lines_app _ _ n1, line_inf _ _ hd, line_name _ n3 n2, hnm]

theorem parse_entries (v : Var) (l : List Seg) (rest : Text) (m : Spec.Media) :
    Spec.parseLines (Spec.lines (l.flatMap (entry v) ++ rest)) none m =
      Spec.parseLines (Spec.lines rest) none { m with segs := m.segs ++ l.map fun s => ((s.duration + 45) / 90, nameOf v s.id) } := by
  induction l generalizing m with
  | nil => simp
  | cons s l ih =>
    rw [List.flatMap_cons, List.append_assoc, parse_entry, ih]
    simp

theorem parse_playlist (c : Conf) (v : Var) (done : Bool) : Spec.parse (playlist c v done) =
    some { seq := v.seg - v.segs.length, target := some ((c.maxSeg + 999) / 1000), segs := (listed v).map fun s => ((s.duration + 45) / 90, nameOf v s.id), ended := done } := by
  obtain ⟨a, ha⟩ : ∃ a, dec (v.seg - v.segs.length) = a := ⟨_, rfl⟩
  obtain ⟨b, hb⟩ : ∃ b, dec ((c.maxSeg + 999) / 1000) = b := ⟨_, rfl⟩
  have pa := dec_plain (v.seg - v.segs.length)
  have pb := dec_plain ((c.maxSeg + 999) / 1000)
  have na := number_dec (v.seg - v.segs.length)
  have nb := number_dec ((c.maxSeg + 999) / 1000)
  rw [ha] at pa na
  rw [hb] at pb nb
  have e : playlist c v done = "#EXTM3U".toList ++ '\n' :: ("#EXT-X-VERSION:3".toList ++ '\n' :: (("#EXT-X-MEDIA-SEQUENCE:".toList ++ a) ++ '\n' ::
      (("#EXT-X-TARGETDURATION:".toList ++ b) ++ '\n' :: ([] ++ '\n' :: ((listed v).flatMap (entry v) ++ (if done then "\n#EXT-X-ENDLIST\n".toList else [])))))) := by
    unfold playlist
    rw [ha, hb, show "#EXTM3U\n#EXT-X-VERSION:3\n#EXT-X-MEDIA-SEQUENCE:".toList =
        "#EXTM3U".toList ++ '\n' :: ("#EXT-X-VERSION:3".toList ++ '\n' :: "#EXT-X-MEDIA-SEQUENCE:".toList) from rfl,
      show "\n#EXT-X-TARGETDURATION:".toList = '\n' :: "#EXT-X-TARGETDURATION:".toList from rfl, show "\n\n".toList = ['\n', '\n'] from rfl]
    generalize "#EXTM3U".toList = x1
    generalize "#EXT-X-VERSION:3".toList = x2
    generalize "#EXT-X-MEDIA-SEQUENCE:".toList = x3
    generalize "#EXT-X-TARGETDURATION:".toList = x4
    generalize (if done then "\n#EXT-X-ENDLIST\n".toList else []) = x5
    simp only [List.append_assoc, List.cons_append, List.nil_append]
  rw [e]
  unfold Spec.parse
  rw [lines_app _ _ (by decide), lines_app _ _ (by decide), lines_app _ _ (by simp; exact pa.1), lines_app _ _ (by simp; exact pb.1), lines_app _ _ (by simp)]
  obtain ⟨L, hL⟩ : ∃ L, Spec.lines ((listed v).flatMap (entry v) ++ (if done then "\n#EXT-X-ENDLIST\n".toList else [])) = L := ⟨_, rfl⟩
  rw [hL]
  dsimp only
  rw [if_pos rfl, line_version, line_seq _ _ na _ _ _ rfl, line_target _ _ nb _ _ _ rfl, line_blank, ← hL, parse_entries]
  cases done
  · rfl
  · rw [if_pos rfl, show "\n#EXT-X-ENDLIST\n".toList = [] ++ '\n' :: ("#EXT-X-ENDLIST".toList ++ '\n' :: []) from rfl,
      lines_app _ _ (by simp), lines_app _ _ (by decide), line_blank, line_end]
    rfl

/-! ### Memory -/

theorem fixed3_length (d : Nat) (h : d < 2 ^ 64) : (fixed3 d).length ≤ 20 + 4 := by
  unfold fixed3
  dsimp only
  rw [List.length_append]
  have := dec_length ((d + 45) / 90 / 1000) (by omega)
  simp only [List.length_cons, List.length_nil]
  omega

theorem entry_length (v : Var) (s : Seg) (h1 : s.duration < 2 ^ 64) (h2 : s.id < 2 ^ 64) (h3 : v.number < 2 ^ 64) :
    (entry v s).length ≤ "#EXTINF:.xxx,\n.ts\n".length + 2 * 20 + (if v.multi then 20 + 1 else 0) := by
  have a := fixed3_length s.duration h1
  have b := dec_length s.id h2
  have c := dec_length v.number h3
  unfold entry nameOf
  have e1 : "#EXTINF:".toList.length = 8 := rfl
  have e2 : ",\n".toList.length = 2 := rfl
  have e3 : ".ts".toList.length = 3 := rfl
  have e4 : "\n".toList.length = 1 := rfl
  have e5 : ".".toList.length = 1 := rfl
  have e6 : "#EXTINF:.xxx,\n.ts\n".length = 18 := rfl
  rw [e6]
  split <;> simp only [List.length_append, e1, e2, e3, e4, e5, List.length_nil] <;> omega

theorem entries_length (v : Var) (k : Nat) (l : List Seg) (h : ∀ s ∈ l, (entry v s).length ≤ k) : (l.flatMap (entry v)).length ≤ l.length * k := by
  induction l with
  | nil => simp
  | cons s l ih =>
    have h1 := h s (by simp)
    have h2 := ih (fun x hx => h x (by simp [hx]))
    rw [List.flatMap_cons, List.length_append, List.length_cons, Nat.add_mul]
    omega

theorem playlist_length (c : Conf) (v : Var) (done : Bool) (hs : v.seg < 2 ^ 64) (hm : c.maxSeg < 2 ^ 63) (hn : v.number < 2 ^ 64)
    (h : ∀ s ∈ listed v, s.duration < 2 ^ 64 ∧ s.id < 2 ^ 64) : (playlist c v done).length ≤ playlistRoom v done := by
  have a := dec_length (v.seg - v.segs.length) (by omega)
  have b := dec_length ((c.maxSeg + 999) / 1000) (by omega)
  have d := entries_length v _ (listed v) (fun s hs' => entry_length v s (h s hs').1 (h s hs').2 hn)
  unfold playlist playlistRoom
  have e1 : "#EXTM3U\n#EXT-X-VERSION:3\n#EXT-X-MEDIA-SEQUENCE:".toList.length = 47 := rfl
  have e2 : "\n#EXT-X-TARGETDURATION:".toList.length = 23 := rfl
  have e3 : "\n\n".toList.length = 2 := rfl
  have e4 : "#EXTM3U\n#EXT-X-VERSION:3\n#EXT-X-MEDIA-SEQUENCE:\n#EXT-X-TARGETDURATION:\n\n".length = 72 := rfl
  have e5 : (if done then "\n#EXT-X-ENDLIST\n".toList else []).length = if done then "\n#EXT-X-ENDLIST\n".length else 0 := by cases done <;> rfl
  simp only [List.length_append, e1, e2, e3, e4, e5]
  omega

end Verif.TsHls
