import Verif.Dash.CutOrder
/-
Streams with key frames in time, and names of files, for C68 (`CutProps`).
-/
namespace Verif.Dash
open Verif Verif.Mp4

theorem keyed_key {len : Nat} {xs : List Item} {k : Option Nat} (h : keyed len k xs = true) {pre post : List Item} {x : Item} (e : xs = pre ++ x :: post) :
    (∃ y ∈ pre ++ [x], isKey y = true ∧ x.2.timestamp < y.2.timestamp + len) ∨ ∃ t, k = some t ∧ x.2.timestamp < t + len := by
  induction pre generalizing xs k with
  | nil =>
    subst e
    rw [List.nil_append] at h
    unfold keyed at h
    by_cases hk : isKey x = true
    · rw [if_pos hk] at h
      simp at h
      exact .inl ⟨x, by simp, hk, by omega⟩
    · rw [if_neg hk] at h
      cases k with
      | none => simp at h
      | some t => simp at h; exact .inr ⟨t, rfl, h.1⟩
  | cons a pre ih =>
    subst e
    rw [List.cons_append] at h
    unfold keyed at h
    by_cases hk : isKey a = true
    · rw [if_pos hk] at h
      simp at h
      rcases ih h.2 rfl with ⟨y, hy, h1⟩ | ⟨t, ht, h1⟩
      · exact .inl ⟨y, by simp at hy ⊢; exact .inr hy, h1⟩
      · simp at ht
        subst ht
        exact .inl ⟨a, by simp, hk, h1⟩
    · rw [if_neg hk] at h
      cases k with
      | none => simp at h
      | some t =>
        simp at h
        rcases ih h.2 rfl with ⟨y, hy, h1⟩ | ⟨t', ht, h1⟩
        · exact .inl ⟨y, by simp at hy ⊢; exact .inr hy, h1⟩
        · exact .inr ⟨t', ht, h1⟩

theorem size_mono {v : Bool} {l m : List Item} (h : l.Sublist m) : size v l ≤ size v m := by
  unfold size track
  induction h with
  | slnil => exact Nat.le_refl _
  | cons a h ih =>
    rw [List.filter_cons]
    split
    · simp only [List.map_cons, List.sum_cons]; omega
    · exact ih
  | cons_cons a h ih =>
    rw [List.filter_cons, List.filter_cons]
    split
    · simp only [List.map_cons, List.sum_cons]; omega
    · exact ih

theorem part_sublist {gs : List Part} {rest xs : List Item} (h : gs.flatMap (·.items) ++ rest = xs) {p : Part} (hp : p ∈ gs) : p.items.Sublist xs := by
  obtain ⟨pre, post, rfl⟩ := List.append_of_mem hp
  rw [← h]
  simp only [List.flatMap_append, List.flatMap_cons, List.append_assoc]
  exact (List.sublist_append_left _ _).trans (List.sublist_append_right _ _)

theorem start_cons {l : List Item} (h : l ≠ []) : ∃ x m, l = x :: m ∧ start l = x.2.timestamp := by
  cases l with
  | nil => exact absurd rfl h
  | cons x m => exact ⟨x, m, rfl, rfl⟩

/-- A part of a light stream has less than 10 MiB. -/
theorem light_part {cfg : Cfg} {xs : List Item} (hl : Light cfg xs) (hF : 0 < cfg.fraglen) {l : List Item} (hs : l.Sublist xs) (hne : l ≠ [])
    {b : Bool} (hi : ∀ x ∈ l.tail, Inner cfg (start l) b x) (v : Bool) : size v l < 10485760 := by
  obtain ⟨y, m, rfl, hy⟩ := start_cons hne
  have h := hl v y (hs.subset List.mem_cons_self)
  refine Nat.lt_of_le_of_lt (size_mono ?_) h
  have hf : (y :: m).filter (fun x => decide (y.2.timestamp ≤ x.2.timestamp ∧ x.2.timestamp < y.2.timestamp + cfg.fraglen * 2)) = y :: m := by
    apply List.filter_eq_self.2
    intro x hx
    apply decide_eq_true
    rcases List.mem_cons.1 hx with rfl | hx
    · omega
    · have := hi x hx
      rw [hy] at this
      unfold Inner at this
      omega
  rw [← hf]
  exact hs.filter _

/-- The cut of a light stream is one of time. -/
theorem light_cut {cfg : Cfg} {p : Part} {x : Item} (h : Cut cfg p x) (hl : ∀ v, size v p.items < 10485760) :
    start p.items + cfg.fraglen ≤ x.2.timestamp ∧ (isKey x = true ∨ start p.items + cfg.fraglen * 2 ≤ x.2.timestamp ∨ p.hasVideo = false) := by
  rcases h with h | h | h
  · exact h
  · have := hl true; omega
  · have := hl false; omega

/-- In a stream in order frames of earlier parts are not later. -/
theorem order_le {xs pre post : List Item} (ho : Ordered xs) (e : xs = pre ++ post) {x y : Item} (hx : x ∈ pre) (hy : y ∈ post) :
    x.2.timestamp ≤ y.2.timestamp := by
  rw [e] at ho
  exact (List.pairwise_append.1 ho.2).2.2 x hx y hy

/-- What comes after the parts `pre`: another part or the open one. -/
structure Next (cfg : Cfg) (xs : List Item) (pre : List Part) (l : List Item) : Prop where
  ne : l ≠ []
  split : ∃ post, xs = pre.flatMap (·.items) ++ l ++ post
  cut : ∀ a, pre.getLast? = some a → start a.items + a.dur = start l ∧ ∀ x m, l = x :: m → Cut cfg a x

theorem next_part {cfg : Cfg} {s : St} {gs : List Part} {cur xs : List Item} (hg : Gen xs s gs cur) (ho : Ord cfg s gs cur) {pre post : List Part} {p : Part}
    (e : gs = pre ++ p :: post) : Next cfg xs pre p.items := by
  refine ⟨hg.ne p (by rw [e]; simp), ⟨post.flatMap (·.items) ++ cur, ?_⟩, ?_⟩
  · rw [← hg.all, e]; simp
  · intro a ha
    rcases List.eq_nil_or_concat pre with rfl | ⟨q, z, rfl⟩
    · simp at ha
    · simp at ha
      subst ha
      exact ho.join q z p post (by rw [e]; simp)

theorem next_cur {cfg : Cfg} {s : St} {gs : List Part} {cur xs : List Item} (hg : Gen xs s gs cur) (ho : Ord cfg s gs cur) (hc : cur ≠ []) :
    Next cfg xs gs cur := ⟨hc, ⟨[], by rw [← hg.all]; simp⟩, ho.last⟩

/-- Parts begin with key frames if there are enough. -/
theorem next_key {cfg : Cfg} {s : St} {gs : List Part} {cur xs : List Item} (hg : Gen xs s gs cur) (ho : Ord cfg s gs cur) (hO : Ordered xs)
    (hF : 0 < cfg.fraglen) (hl : Light cfg xs) (hk : keyed cfg.fraglen none xs = true) {pre : List Part} {l : List Item} (hp : ∃ post, gs = pre ++ post)
    (hn : Next cfg xs pre l) : ∃ x m, l = x :: m ∧ isKey x = true := by
  induction pre using snocInd generalizing l with
  | nil =>
    obtain ⟨x, m, rfl, -⟩ := start_cons hn.ne
    obtain ⟨post, e⟩ := hn.split
    refine ⟨x, m, rfl, ?_⟩
    rcases keyed_key hk (pre := []) (x := x) (post := m ++ post) (by rw [e]; simp) with ⟨y, hy, h1, -⟩ | ⟨t, h1, -⟩
    · simp at hy
      rw [← hy]; exact h1
    · cases h1
  | snoc q a ih =>
    obtain ⟨post, e⟩ := hp
    obtain ⟨xpost, ex⟩ := hn.split
    obtain ⟨x, m, rfl, hx⟩ := start_cons hn.ne
    have ea : gs = q ++ a :: post := by rw [e]; simp
    have hna := next_part hg ho ea
    obtain ⟨ka, ma, eka, hka⟩ := ih ⟨a :: post, ea⟩ hna
    have hma : a ∈ gs := by rw [ea]; simp
    have hvid : a.hasVideo = true := by
      apply (hg.listed a hma).1
      rw [eka]
      unfold isKey at hka
      simp at hka
      simp [hka.1]
    have hinner := ho.parts a hma
    have hsub := part_sublist hg.all hma
    have hcut := light_cut ((hn.cut a (by simp)).2 x m rfl) (light_part hl hF hsub hna.ne hinner)
    refine ⟨x, m, rfl, ?_⟩
    rcases hcut.2 with h | h | h
    · exact h
    · rcases keyed_key hk (pre := (q ++ [a]).flatMap (·.items)) (x := x) (post := m ++ xpost) (by rw [ex]; simp) with ⟨y, hy, h1, h2⟩ | ⟨t, h1, -⟩
      · rcases List.mem_append.1 hy with hy | hy
        · exfalso
          rw [List.flatMap_append] at hy
          rcases List.mem_append.1 hy with hy | hy
          · have : y.2.timestamp ≤ ka.2.timestamp := by
              apply order_le hO (pre := q.flatMap (·.items)) (post := a.items ++ (x :: m ++ xpost)) (by rw [ex]; simp) hy
              rw [eka]; simp
            have hs : start a.items = ka.2.timestamp := by rw [eka]; rfl
            omega
          · simp at hy
            rw [eka] at hy
            rcases List.mem_cons.1 hy with rfl | hy
            · have hs : start a.items = y.2.timestamp := by rw [eka]; rfl
              omega
            · have := hinner y (by rw [eka]; exact hy)
              unfold Inner at this
              rw [h1] at this
              simp at this
              omega
        · simp at hy
          rw [← hy]; exact h1
      · cases h1
    · rw [hvid] at h; cases h

/-- Starts of parts go up by at least a fragment. -/
theorem starts_up {cfg : Cfg} {s : St} {gs : List Part} {cur xs : List Item} (hg : Gen xs s gs cur) (ho : Ord cfg s gs cur)
    (hF : 0 < cfg.fraglen) (hl : Light cfg xs) : Adjacent (fun a b => start a.items + cfg.fraglen ≤ start b.items) gs := by
  intro pre a b post e
  have hma : a ∈ gs := by rw [e]; simp
  have hmb : b ∈ gs := by rw [e]; simp
  obtain ⟨-, hc⟩ := ho.join pre a b post e
  obtain ⟨x, m, ex, hx⟩ := start_cons (hg.ne b hmb)
  have := light_cut (hc x m ex) (light_part hl hF (part_sublist hg.all hma) (hg.ne a hma) (ho.parts a hma))
  rw [hx]
  exact this.1

theorem adjacent_pairwise {α : Type} {R : α → α → Prop} (ht : ∀ a b c, R a b → R b c → R a c) {l : List α} (h : Adjacent R l) : l.Pairwise R := by
  induction l with
  | nil => exact List.Pairwise.nil
  | cons a l ih =>
    have hl : Adjacent R l := fun pre x y post e => h (a :: pre) x y post (by rw [e]; rfl)
    refine List.Pairwise.cons ?_ (ih hl)
    cases l with
    | nil => simp
    | cons b l =>
      have hab := h [] a b l rfl
      intro c hc
      rcases List.mem_cons.1 hc with rfl | hc
      · exact hab
      · exact ht a b c hab ((List.pairwise_cons.1 (ih hl)).1 c hc)

theorem onDisk_append (v : Bool) (t : Nat) (a b : List Out) : onDisk v t (a ++ b) = match onDisk v t b with | some x => some x | none => onDisk v t a := by
  induction a with
  | nil => rw [List.nil_append]; cases onDisk v t b <;> rfl
  | cons o a ih =>
    cases o with
    | media v' t' tr =>
      simp only [List.cons_append, onDisk, ih]
      cases onDisk v t b <;> rfl
    | init => simpa [onDisk] using ih
    | mpd _ _ _ => simpa [onDisk] using ih

theorem lastMpd_append (a b : List Out) : lastMpd (a ++ b) = match lastMpd b with | some x => some x | none => lastMpd a := by
  induction a with
  | nil => rw [List.nil_append]; cases lastMpd b <;> rfl
  | cons o a ih =>
    cases o with
    | mpd v' t' tr =>
      simp only [List.cons_append, lastMpd, ih]
      cases lastMpd b <;> rfl
    | init => simpa [lastMpd] using ih
    | media _ _ _ => simpa [lastMpd] using ih

theorem onDisk_filesOf (win : Nat) (before : List Part) (p : Part) (v : Bool) (t : Nat) :
    onDisk v t (filesOf win before p) = if start p.items = t then some (record before.length v (track v p.items)) else none := by
  unfold filesOf
  by_cases hb : before.length = 0 <;> by_cases ht : start p.items = t <;> cases v <;> simp [onDisk, hb, ht]

theorem lastMpd_filesOf (win : Nat) (before : List Part) (p : Part) :
    lastMpd (filesOf win before p) = some (p.hasVideo, p.hasAudio, (lastN win (before ++ [p])).map Part.slot) := by
  unfold filesOf
  by_cases hb : before.length = 0 <;> simp [lastMpd, hb]

/-- With different names every part has its files. -/
theorem onDisk_files {win : Nat} {gs : List Part} (hd : gs.Pairwise fun a b => start a.items ≠ start b.items) {pre post : List Part} {p : Part}
    (e : gs = pre ++ p :: post) (v : Bool) :
    onDisk v (start p.items) (files win [] gs) = some (record pre.length v (track v p.items)) := by
  induction post using snocInd generalizing gs with
  | nil =>
    rw [e, files_concat, onDisk_append, onDisk_filesOf, if_pos rfl, List.nil_append]
  | snoc post q ih =>
    have e' : gs = (pre ++ p :: post) ++ [q] := by rw [e]; simp
    rw [e'] at hd
    have hpq := (List.pairwise_append.1 hd).2.2 p (by simp) q (by simp)
    rw [e', files_concat, onDisk_append, onDisk_filesOf, if_neg (Ne.symm hpq)]
    exact ih (List.pairwise_append.1 hd).1 rfl

theorem lastMpd_files {win : Nat} {gs : List Part} {p : Part} :
    lastMpd (files win [] (gs ++ [p])) = some (p.hasVideo, p.hasAudio, (lastN win (gs ++ [p])).map Part.slot) := by
  rw [files_concat, lastMpd_append, lastMpd_filesOf, List.nil_append]

end Verif.Dash
