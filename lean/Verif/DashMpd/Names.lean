import Verif.DashMpd.Cut
/- Names of files and codecs -/
namespace Verif.DashMpd
open Verif Verif.Xml
open Verif.HlsRestore (dec decGo_mem)
open Verif.TsDash (plain_dec dec_repr)
open Verif.TsHls (number_dec)
open Verif.Dash (Slot)
open Verif.Mpd (s fill)

theorem fill_text (id : Text) (time : Option Text) (r : Text) : ∀ p : Text, '$' ∉ p → fill id time none (p ++ r) = (fill id time none r).map (p ++ ·)
  | [], _ => by simp
  | x :: p, h => by
    have hx : x ≠ '$' := fun e => h (by rw [e]; exact List.mem_cons_self)
    have ih := fill_text id time r p fun hm => h (List.mem_cons_of_mem _ hm)
    rw [List.cons_append, fill, if_neg hx, ih]
    cases fill id time none r <;> rfl

theorem prefix_dollar {c : Conf} (h : c.nested = true ∨ Ordinary c.name) : '$' ∉ prefixOf c := by
  unfold prefixOf
  rcases h with h | h
  · rw [if_pos h]; simp
  · split
    · simp
    · intro hm
      rcases List.mem_append.1 hm with hm | hm
      · exact h _ hm (by decide)
      · simp at hm

/-- The ending of names -/
def ext (video : Bool) : Text := if video then ".m4v".toList else ".m4a".toList

theorem media_fill {c : Conf} (h : c.nested = true ∨ Ordinary c.name) (video : Bool) (id : Text) (t : Nat) :
    fill id (some (toString t).toList) none (prefixOf c ++ (if video then s "$Time$.m4v" else s "$Time$.m4a")) = some (prefixOf c ++ (dec t ++ ext video)) := by
  rw [fill_text _ _ _ _ (prefix_dollar h), ← dec_repr]
  cases video <;> rfl

theorem init_fill {c : Conf} (h : c.nested = true ∨ Ordinary c.name) (video : Bool) (id : Text) :
    fill id none none (prefixOf c ++ (if video then s "init.m4v" else s "init.m4a")) = some (prefixOf c ++ (if video then s "init.m4v" else s "init.m4a")) := by
  rw [fill_text _ _ _ _ (prefix_dollar h)]
  cases video <;> rfl

theorem dir_app (a b : Text) (h : '/' ∉ b) : dir (a ++ '/' :: b) = a ++ ['/'] := by
  unfold dir
  have e : (a ++ '/' :: b).reverse = b.reverse ++ '/' :: a.reverse := by simp
  have e2 : (b.reverse ++ '/' :: a.reverse).dropWhile (· ≠ '/') = '/' :: a.reverse := by
    have : ∀ x ∈ b.reverse, (decide (x ≠ '/')) = true := fun x hx => by
      refine decide_eq_true ?_
      intro e; rw [e] at hx; exact h (List.mem_reverse.1 hx)
    rw [List.dropWhile_append_of_pos this, List.dropWhile_cons_of_neg (by simp)]
  rw [e, e2]
  simp

/-- Characters that make something else of a reference -/
def Bare (t : Text) : Prop := ∀ c ∈ t, c ∉ [':', '?', '#', '%', '/']

theorem dec_bare (n : Nat) : Bare (dec n) := by
  intro c hc
  obtain ⟨k, hk, rfl⟩ := decGo_mem _ _ _ hc
  have : ∀ k < 10, Char.ofNat (48 + k) ∉ [':', '?', '#', '%', '/'] := by decide
  exact this k hk

theorem Bare.app {a b : Text} (ha : Bare a) (hb : Bare b) : Bare (a ++ b) := fun c hc => (List.mem_append.1 hc).elim (ha c) (hb c)

theorem prefix_bare {c : Conf} (h : c.nested = true ∨ Ordinary c.name) : Bare (prefixOf c) := by
  unfold prefixOf
  have h1 : Bare ['-'] := by unfold Bare; decide
  rcases h with h | h
  · rw [if_pos h]; unfold Bare; decide
  · split
    · unfold Bare; decide
    · refine Bare.app (fun c hc hm => h c hc ?_) h1
      simp only [List.mem_cons, List.not_mem_nil, or_false] at hm ⊢
      rcases hm with e | e | e | e | e <;> simp [e]

theorem target_bare (base : Text) {ref : Text} (h : Bare ref) (hn : ref ≠ []) : target base ref = some (dir base ++ ref) := by
  unfold target
  have h1 : ref.any (fun c => c == ':' || c == '?' || c == '#' || c == '%') = false := by
    rw [List.any_eq_false]
    intro c hc hm
    have := h c hc
    simp only [List.mem_cons, List.not_mem_nil, or_false, not_or] at this
    simp [this] at hm
  have h2 : (ref.head? == some '/') = false := by
    cases ref with
    | nil => rfl
    | cons x r =>
      have := h x List.mem_cons_self
      simp only [List.mem_cons, List.not_mem_nil, or_false, not_or] at this
      simp [this]
  have h3 : ref.isEmpty = false := by cases ref with
    | nil => exact absurd rfl hn
    | cons x r => rfl
  rw [h1, h2, h3]
  rfl

theorem dir_playlist {c : Conf} (h : c.nested = true ∨ Ordinary c.name) (x : Text) : dir (playlistPath c) ++ (prefixOf c ++ x) = streamPath c ++ x := by
  unfold playlistPath streamPath prefixOf root
  cases hn : c.nested with
  | true =>
    have e : "/index.mpd".toList = '/' :: "index.mpd".toList := by decide
    simp only [if_true, List.nil_append]
    rw [e, dir_app _ _ (by decide)]
  | false =>
    rcases h with h | h
    · rw [h] at hn; cases hn
    · have hm : '/' ∉ c.name ++ ".mpd".toList := by
        intro hm
        rcases List.mem_append.1 hm with hm | hm
        · exact h _ hm (by decide)
        · revert hm; decide
      simp only [Bool.false_eq_true, if_false]
      have key : ∀ q : Text, (∃ a, q = a ++ ['/']) → dir (q ++ c.name ++ ".mpd".toList) = q := by
        rintro q ⟨a, rfl⟩
        have := dir_app a _ hm
        simp only [List.append_assoc, List.cons_append, List.nil_append] at this ⊢
        exact this
      have hq : ∃ a, c.path ++ (if c.path.getLast? = some '/' then [] else ['/']) = a ++ ['/'] := by
        split
        · rename_i hl
          rw [List.append_nil]
          exact ⟨c.path.dropLast, by rw [List.getLast?_eq_some_iff] at hl; obtain ⟨ys, e⟩ := hl; rw [e]; simp⟩
        · exact ⟨_, rfl⟩
      rw [key _ hq]
      simp only [List.append_assoc]

theorem ext_bare (video : Bool) : Bare (ext video) := by cases video <;> (unfold Bare ext; decide)

/-- The player finds the segment -/
theorem media_target {c : Conf} (h : c.nested = true ∨ Ordinary c.name) (video : Bool) (t : Nat) : target (playlistPath c) (prefixOf c ++ (dec t ++ ext video)) = some (mediaPath c video t) := by
  rw [target_bare _ ((prefix_bare h).app ((dec_bare t).app (ext_bare video))) (by intro e; simp only [List.append_eq_nil_iff] at e; exact HlsRestore.dec_ne t e.2.1), dir_playlist h]
  unfold mediaPath ext
  rw [List.append_assoc]

theorem init_target {c : Conf} (h : c.nested = true ∨ Ordinary c.name) (video : Bool) : target (playlistPath c) (prefixOf c ++ (if video then s "init.m4v" else s "init.m4a")) = some (initPath c video) := by
  have hb : Bare (if video then s "init.m4v" else s "init.m4a") := by cases video <;> (unfold Bare; decide)
  rw [target_bare _ ((prefix_bare h).app hb) (by intro e; simp only [List.append_eq_nil_iff] at e; revert e; cases video <;> (intro e; exact absurd e.2 (by decide))), dir_playlist h]
  rfl

/-! ### No two files have one name. -/

theorem media_inj {c : Conf} {v v' : Bool} {t t' : Nat} (h : mediaPath c v t = mediaPath c v' t') : v = v' ∧ t = t' := by
  unfold mediaPath at h
  rw [List.append_assoc, List.append_assoc] at h
  have h1 := List.append_cancel_left h
  have hl : ∀ v : Bool, (if v then ".m4v".toList else ".m4a".toList).length = 4 := by decide
  obtain ⟨e1, e2⟩ := List.append_inj' h1 (by rw [hl, hl])
  refine ⟨?_, ?_⟩
  · have : ∀ v v' : Bool, (if v then ".m4v".toList else ".m4a".toList) = (if v' then ".m4v".toList else ".m4a".toList) → v = v' := by decide
    exact this _ _ e2
  · have := number_dec t
    rw [e1, number_dec] at this
    exact (Option.some.inj this).symm

theorem media_init {c : Conf} {v v' : Bool} {t : Nat} : mediaPath c v t ≠ initPath c v' := by
  intro h
  unfold mediaPath initPath at h
  rw [List.append_assoc] at h
  have h1 := List.append_cancel_left h
  have h2 : 'i' ∈ dec t ++ (if v then ".m4v".toList else ".m4a".toList) := by rw [h1]; cases v' <;> decide
  rcases List.mem_append.1 h2 with h2 | h2
  · obtain ⟨k, hk, e⟩ := decGo_mem _ _ _ h2
    have : ∀ k < 10, 'i' ≠ Char.ofNat (48 + k) := by decide
    exact this k hk e
  · revert h2; cases v <;> decide

/-! ### Codecs -/

theorem hexByte_hex2 (n : Nat) (h : n < 256) : ∃ a b, hex2 n = [a, b] ∧ Mpd.hexByte a b = some n := by
  have : ∀ n < 256, Mpd.hexByte (hexDigit (n / 16 % 16)) (hexDigit (n % 16)) = some n := by decide +kernel
  exact ⟨_, _, rfl, this n h⟩

theorem codec_video {i : Info} (h1 : i.profile < 256) (h2 : i.compat < 256) (h3 : i.level < 256) :
    Mpd.readCodec (s "avc1." ++ (hex2 i.profile ++ hex2 i.compat ++ hex2 i.level)) = some (.avc i.profile i.compat i.level) := by
  obtain ⟨b0, b1, e1, k1⟩ := hexByte_hex2 _ h1
  obtain ⟨b2, b3, e2, k2⟩ := hexByte_hex2 _ h2
  obtain ⟨b4, b5, e3, k3⟩ := hexByte_hex2 _ h3
  rw [e1, e2, e3]
  show (Mpd.hexByte b0 b1).bind _ = _
  rw [k1, Option.bind_some]
  show (Mpd.hexByte b2 b3).bind _ = _
  rw [k2, Option.bind_some]
  show (Mpd.hexByte b4 b5).map _ = _
  rw [k3]
  rfl

theorem codec_audio (i : Info) : Mpd.readCodec (s "mp4a." ++ audioCodec i) = some (if i.aac then .aac (if i.sbr then 5 else 2) else .mp4 false 0x6b) := by
  unfold audioCodec
  cases i.aac <;> cases i.sbr <;> decide +kernel

end Verif.DashMpd
