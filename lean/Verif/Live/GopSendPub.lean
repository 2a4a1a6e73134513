import Verif.Live.GopSendModel
import Verif.Rtmp.GopProps
/- The cache as the players see it (C62): every frame taken, so the frame number `x` is in slot `x % out_queue`. -/
namespace Verif.GopSend
open Verif Verif.Gop

/-! ### `resetGop` when the front is not a header -/

theorem mod_inj {q x y : Nat} (h : x % q = y % q) (h1 : x ≤ y) (h2 : y < x + q) : x = y := by
  by_cases e : x = y
  · exact e
  · have := mod_ne (q := q) (p := x) (i := 0) (j := y - x) (by omega) (by omega)
    rw [Nat.add_zero, show x + (y - x) = y by omega] at this
    exact absurd h this

/-- The slots of the numbers from `D` up to `P` are emptied, the others stay. -/
def Cleared (q D P : Nat) (c c' : Nat → Option Nat) : Prop :=
  (∀ i, c' i = c i ∨ c' i = none) ∧ (∀ x, D ≤ x → x < P → c' (x % q) = none) ∧ ∀ i, (∀ x, D ≤ x → x < P → x % q ≠ i) → c' i = c i

theorem Cleared.refl (q D : Nat) (c : Nat → Option Nat) : Cleared q D D c c := ⟨fun _ => .inl rfl, fun x h1 h2 => by omega, fun _ _ => rfl⟩

theorem drop_cache (s : St) (p f : Nat) : (drop s p f).cache = set s.cache p none := (drop_same s p f).2.2.2.2.2.1

theorem trim_view {c : Cfg} {K : Nat} : ∀ (j : Nat) {s : St} {P fuel : Nat}, K = P + j → j < c.q → j < fuel →
    (∀ x, P ≤ x → x ≤ K → s.cache (x % c.q) = some x) →
    ∃ s', trim c K fuel s (P % c.q) = some s' ∧ s'.pos = K % c.q ∧ s'.last = s.last ∧ Cleared c.q P K s.cache s'.cache
  | j, s, P, 0, _, _, hf, _ => absurd hf (Nat.not_lt_zero _)
  | 0, s, P, fuel + 1, e, _, _, hr => by
    have e : K = P := e
    subst e
    unfold trim
    rw [hr K (Nat.le_refl _) (Nat.le_refl _)]
    dsimp only
    rw [if_pos rfl]
    exact ⟨_, rfl, rfl, rfl, Cleared.refl _ _ _⟩
  | j + 1, s, P, fuel + 1, e, hj, hf, hr => by
    unfold trim
    rw [hr P (Nat.le_refl _) (by omega)]
    dsimp only
    rw [if_neg (by omega)]
    obtain ⟨d1, d2, d3, d4, d5, d6, d7⟩ := drop_same s (P % c.q) P
    have hn : nxt c (P % c.q) = (P + 1) % c.q := by unfold nxt; rw [Nat.mod_add_mod]
    rw [hn]
    have hne : ∀ x, P < x → x ≤ K → x % c.q ≠ P % c.q := fun x h1 h2 h => by
      have := mod_inj h.symm (by omega) (by omega)
      omega
    obtain ⟨s', g1, g2, g3, g4, g5, g6⟩ := trim_view (c := c) (K := K) j (s := drop s (P % c.q) P) (P := P + 1) (fuel := fuel) (by omega) (by omega) (by omega)
      (fun x h1 h2 => by rw [d6, set_ne _ _ (hne x (by omega) h2)]; exact hr x (by omega) h2)
    refine ⟨s', g1, g2, by rw [g3, d3], fun i => ?_, fun x h1 h2 => ?_, fun i hi => ?_⟩
    · rcases g4 i with h | h
      · rw [h, d6]
        by_cases e : i = P % c.q
        · right; rw [e, set_same]
        · left; rw [set_ne _ _ e]
      · exact .inr h
    · by_cases ex : x = P
      · subst ex
        rcases g4 (x % c.q) with h | h
        · rw [h, d6, set_same]
        · exact h
      · exact g5 x (by omega) h2
    · rw [g6 i (fun x h1 h2 => hi x (by omega) h2), d6, set_ne]
      exact fun h => hi P (Nat.le_refl _) (by omega) h.symm

theorem strip_id {c : Cfg} {s : St} {fuel f : Nat} (h : s.cache s.pos = some f) (hh : (s.info f).header = false) : strip c (fuel + 1) s = some s := by
  unfold strip
  by_cases e : s.pos = s.last
  · rw [if_pos e]
  · rw [if_neg e, h]
    dsimp only
    rw [if_neg (by simp [hh])]

/-- `D` is the number at the front, `N` the number after the last. -/
theorem resetGop_view {c : Cfg} {ts : Nat → Nat} {s s' : St} {D N : Nat} (hD : D < N) (hN : N - D < c.q) (hpos : s.pos = D % c.q)
    (hr : ∀ x, D ≤ x → x < N → s.cache (x % c.q) = some x) (hh : (s.info D).header = false)
    (hk : Linked s.next s.keyframe ((List.range' D (N - D)).filter (isKey s.info))) (e : resetGop c ts s (N - 1) = some s') :
    ∃ P, D ≤ P ∧ P < N ∧ s'.pos = P % c.q ∧ s'.last = s.last ∧ Cleared c.q D P s.cache s'.cache ∧
      (P = D ∨ isKey s.info P = true ∨ (P = D + 1 ∧ s.keyframe = none)) := by
  have h0 := hr D (Nat.le_refl _) hD
  unfold resetGop at e
  rw [strip_id (by rw [hpos]; exact h0) hh] at e
  dsimp only at e
  rw [hpos, h0] at e
  dsimp only at e
  have same : s' = s → ∃ P, D ≤ P ∧ P < N ∧ s'.pos = P % c.q ∧ s'.last = s.last ∧ Cleared c.q D P s.cache s'.cache ∧
      (P = D ∨ isKey s.info P = true ∨ (P = D + 1 ∧ s.keyframe = none)) := fun h => by
    subst h; exact ⟨D, Nat.le_refl _, hD, hpos, rfl, Cleared.refl _ _ _, .inl rfl⟩
  cases hkf : s.keyframe with
  | none =>
    rw [hkf] at e
    simp only [Option.some.injEq] at e
    unfold audioTrim at e
    by_cases ha : sub32 (ts (N - 1)) (ts D) > c.cacheTime
    · rw [if_pos ha] at e
      have hDN : D + 1 < N := by
        by_cases h : D + 1 < N
        · exact h
        · have : N - 1 = D := by omega
          rw [this] at ha
          unfold sub32 at ha
          have h2 := Nat.mod_lt (ts D) (show 0 < 4294967296 by decide)
          have h3 := Nat.mod_add_div (ts D) 4294967296
          exfalso
          have : (ts D + 4294967296 - ts D % 4294967296) % 4294967296 = 0 := by omega
          omega
      subst e
      refine ⟨D + 1, by omega, hDN, ?_, rfl, ⟨fun i => ?_, fun x h1 h2 => ?_, fun i hi => ?_⟩, .inr (.inr ⟨rfl, rfl⟩)⟩
      · show nxt c s.pos = _
        unfold nxt; rw [hpos, Nat.mod_add_mod]
      · show set s.cache s.pos none i = _ ∨ _
        by_cases e : i = s.pos
        · right; show set s.cache s.pos none i = none; rw [e, set_same]
        · left; rw [set_ne _ _ e]
      · have : x = D := by omega
        subst this
        show set s.cache s.pos none _ = none
        rw [hpos, set_same]
      · show set s.cache s.pos none i = _
        rw [set_ne]
        rw [hpos]
        exact fun h => hi D (Nat.le_refl _) (by omega) h.symm
    · rw [if_neg ha] at e
      have r := same e.symm
      rw [hkf] at r
      exact r
  | some kf =>
    rw [hkf] at e hk
    dsimp only at e
    cases hn : s.next kf with
    | none =>
      rw [hn] at e
      have r := same (Option.some.inj e).symm
      rw [hkf] at r
      exact r
    | some k2 =>
      rw [hn] at e
      dsimp only at e
      have hm : k2 ∈ (List.range' D (N - D)).filter (isKey s.info) := by
        cases hf : (List.range' D (N - D)).filter (isKey s.info) with
        | nil => rw [hf] at hk; cases hk
        | cons a t =>
          rw [hf] at hk
          obtain ⟨e1, hk⟩ := hk
          cases e1
          rw [hn] at hk
          cases t with
          | nil => cases hk
          | cons a2 t2 =>
            have := hk.1
            cases this
            simp
      obtain ⟨hm1, hm2⟩ := List.mem_filter.1 hm
      rw [List.mem_range'_1] at hm1
      have go : trim c k2 (c.q + 1) s (D % c.q) = some s' → ∃ P, D ≤ P ∧ P < N ∧ s'.pos = P % c.q ∧ s'.last = s.last ∧ Cleared c.q D P s.cache s'.cache ∧
          (P = D ∨ isKey s.info P = true ∨ (P = D + 1 ∧ some kf = none)) := fun h => by
        obtain ⟨t, g1, g2, g3, g4⟩ := trim_view (c := c) (K := k2) (k2 - D) (s := s) (P := D) (fuel := c.q + 1) (by omega) (by omega) (by omega)
          (fun x h1 h2 => hr x h1 (by omega))
        rw [g1] at h
        cases h
        exact ⟨k2, hm1.1, by omega, g2, g3, g4, .inr (.inl hm2)⟩
      have same := same
      rw [hkf] at same
      split at e
      · exact go e
      · split at e
        · exact same (Option.some.inj e).symm
        · split at e
          · exact same (Option.some.inj e).symm
          · exact go e

/-! ### The invariant of the publisher's side -/

/-- What has been published. -/
structure Hist (b : Pub) (hist : List Fr) : Prop where
  hn : b.st.n = hist.length
  hi : ∀ x (h : x < hist.length), b.st.info x = hist[x]

/-- Every frame was taken; the cache holds the numbers from `D`; the first `m` frames are headers. -/
structure Good (k : Conf) (b : Pub) (D m : Nat) : Prop where
  hsim : Sim k.c b.st ⟨b.st.n, b.st.info, List.range b.st.n, List.range' D (b.st.n - D)⟩
  hpos : b.st.pos = D % k.c.q
  hlast : b.st.last = b.st.n % k.c.q
  hm : m ≤ 2
  hmD : m ≤ D
  hDn : D ≤ b.st.n
  hslots : ∀ i x, b.st.cache i = some x → x < b.st.n ∧ x % k.c.q = i ∧ b.st.n ≤ x + k.c.q ∧ (D ≤ x ∨ x < m)
  hheads : ∀ x, x < m → (b.st.info x).header = true
  hphase : (b.st.n = m ∧ D = m) ∨ (D < b.st.n ∧ (b.st.info D).header = false)
  hhdr : ∀ x, m ≤ x → x < b.st.n → (b.st.info x).header = true → ∃ y, y < x ∧ isKey b.st.info y = true
  hkeyd : ∀ x, D ≤ x → x < b.st.n → (b.st.info x).video = true → (b.st.info x).header = false → (b.st.info x).key = false →
    ∃ y, D ≤ y ∧ y < x ∧ isKey b.st.info y = true
  hlatA : ∀ f, b.latA = some f → f < b.st.n ∧ (b.st.info f).header = true ∧ (b.st.info f).video = false ∧
    ∀ g, f < g → g < b.st.n → (b.st.info g).header = true → (b.st.info g).video = true
  hlatV : ∀ f, b.latV = some f → f < b.st.n ∧ (b.st.info f).header = true ∧ (b.st.info f).video = true ∧
    ∀ g, f < g → g < b.st.n → (b.st.info g).header = true → (b.st.info g).video = false

theorem cacheFrame_push {c : Cfg} {ts : Nat → Nat} {s s' : St} {p : Sp} {fr : Fr} {rc : Rc} (h : Sim c s p)
    (e : cacheFrame c ts s fr = some (s', rc)) (ht : s'.acq s.n = 1) :
    rc = .ok ∧ p.l.length + 1 < c.q ∧ ((fr.video = true ∧ fr.key = false ∧ fr.header = false) → s.keyframe ≠ none) ∧
    ∃ nx kf, resetGop c ts (push c { newFrame s fr with next := nx, keyframe := kf } s.n) s.n = some s' ∧
      Inv c (push c { newFrame s fr with next := nx, keyframe := kf } s.n) (p.acc ++ [s.n]) (p.l ++ [s.n]) := by
  obtain ⟨i, hn, hinfo⟩ := h
  have j := i.new fr
  have hcount : (c.q + (newFrame s fr).last - (newFrame s fr).pos) % c.q = p.l.length := by
    rw [j.ring.hlast]; exact count_eq j.ring.hpos j.ring.hlen
  have hf : s.n ∉ p.acc := fun h => by have := i.lt _ h; omega
  have h0 : s.acq s.n = 0 := by rw [i.refs.hacq, if_neg hf]
  have hno : s' ≠ newFrame s fr := fun h => by
    rw [h] at ht
    have : s.acq s.n = 1 := ht
    omega
  have hfn : s.n < (newFrame s fr).n := Nat.lt_succ_self _
  have hff : (newFrame s fr).info s.n = fr := set_same _ _ _
  unfold cacheFrame at e
  dsimp only at e
  rw [hcount] at e
  by_cases c1 : p.l.length + 1 ≥ c.q
  · rw [if_pos c1] at e
    simp only [Option.some.injEq, Prod.mk.injEq] at e
    exact absurd e.1.symm hno
  · rw [if_neg c1] at e
    by_cases c2 : (newFrame s fr).keyframe = none ∧ fr.video = true ∧ fr.key = false ∧ fr.header = false
    · rw [if_pos c2] at e
      simp only [Option.some.injEq, Prod.mk.injEq] at e
      exact absurd e.1.symm hno
    · rw [if_neg c2] at e
      have key : ∃ next' kf, (if fr.key = true ∧ fr.header = false then addKey (newFrame s fr) s.n else some (newFrame s fr)) =
          some { newFrame s fr with next := next', keyframe := kf } ∧ Linked next' kf ((p.l ++ [s.n]).filter (isKey (newFrame s fr).info)) ∧
          (kf = none → (newFrame s fr).keyframe = none ∧ isKey (newFrame s fr).info s.n = false) := by
        by_cases c3 : fr.key = true ∧ fr.header = false
        · rw [if_pos c3]
          have hle : p.l.length < (newFrame s fr).n + 2 := by
            have := j.nodup_l.length_le_of_subset (l₂ := List.range (newFrame s fr).n) (fun a ha => List.mem_range.2 (j.lt a (j.mem ha)))
            rw [List.length_range] at this
            omega
          obtain ⟨nx, kf, k1, k2, k3⟩ := addKey_spec j hf (set_same _ _ _) (by unfold isKey; rw [hff, c3.1, c3.2]; rfl) hle
          exact ⟨nx, kf, k1, k2, fun h => absurd h k3⟩
        · rw [if_neg c3]
          have hk : isKey (newFrame s fr).info s.n = false := by
            unfold isKey; rw [hff]
            cases e1 : fr.key <;> cases e2 : fr.header <;> simp [e1, e2] at c3 ⊢
          refine ⟨_, _, rfl, ?_, fun h => ⟨h, hk⟩⟩
          rw [List.filter_append, List.filter_cons_of_neg (by simp [hk]), List.filter_nil, List.append_nil]
          exact j.keys
      obtain ⟨nx, kf, k1, k2, k3⟩ := key
      rw [k1] at e
      dsimp only at e
      have jp := j.push hf hfn (by omega) k2 k3
      cases er : resetGop c ts (push c { newFrame s fr with next := nx, keyframe := kf } s.n) s.n with
      | none => rw [er] at e; cases e
      | some s1 =>
        rw [er] at e
        simp only [Option.map_some, Option.some.injEq, Prod.mk.injEq] at e
        obtain ⟨e1, e2⟩ := e
        subst e1
        exact ⟨e2.symm, by omega, fun h hn => c2 ⟨hn, h⟩, nx, kf, er, jp⟩

/-- The ring of the numbers below `N`, with `P` at the front. -/
theorem suffix_of_front {c : Cfg} {s : St} {N P : Nat} {l : List Nat} (i : Inv c s (List.range N) l) (hpos : s.pos = P % c.q) (hlast : s.last = N % c.q)
    (hP : P < N) (hN : N - P < c.q) (h : s.cache (P % c.q) = some P) : l = List.range' P (N - P) := by
  obtain ⟨d, e, _⟩ := i.suf
  have hne : l ≠ [] := fun hl => by
    subst hl
    have := i.ring.nil
    rw [hpos, hlast] at this
    have := mod_inj this (by omega) (by omega)
    omega
  obtain ⟨a, t, rfl⟩ := List.exists_cons_of_ne_nil hne
  have ha := (i.ring.head).1
  rw [hpos, h] at ha
  cases ha
  have hd : d.length = P := by
    have h1 : (List.range N)[d.length]? = some P := by rw [e]; simp
    have hlt : d.length < N := by
      have := congrArg List.length e
      simp at this; omega
    rw [List.getElem?_range hlt] at h1
    exact Option.some.inj h1
  have h2 : List.range N = List.range P ++ List.range' P (N - P) := by
    rw [List.range_eq_range', List.range_eq_range']
    have := List.range'_append (s := 0) (m := P) (n := N - P) (step := 1)
    rw [show N = P + (N - P) by omega, ← this]
    simp
  rw [h2] at e
  have := List.append_inj e (by simp [hd])
  exact this.2.symm

/-- What may be published: codec headers only as the first two frames, or once there is a key frame. -/
def okNext (hist : List Fr) (fr : Fr) : Prop :=
  fr.header = true → ((∀ f ∈ hist, f.header = true) ∧ hist.length < 2) ∨ ∃ f ∈ hist, f.key = true ∧ f.header = false

theorem good_init (k : Conf) (hq : 0 < k.c.q) : Good k {} 0 0 := by
  refine ⟨?_, ?_, ?_, by omega, by omega, by omega, ?_, ?_, .inl ⟨rfl, rfl⟩, ?_, ?_, ?_, ?_⟩
  · exact sim_init hq
  · simp
  · simp
  · intro i x h; cases h
  · intro x h; omega
  · intro x _ h; exact absurd h (Nat.not_lt_zero _)
  · intro x _ h; exact absurd h (Nat.not_lt_zero _)
  · intro f h; cases h
  · intro f h; cases h

theorem specStep_taken {c : Cfg} {ts : Nat → Nat} {p : Sp} {fr : Fr} (h : p.n ∈ (specStep c ts p fr).1.acc) (hn : p.n ∉ p.acc) :
    (specStep c ts p fr).1.acc = p.acc ++ [p.n] ∧ (specStep c ts p fr).2 = .ok := by
  unfold specStep at h ⊢
  dsimp only at h ⊢
  split at h
  · exact absurd h hn
  · rename_i h1
    rw [if_neg h1]
    split at h
    · exact absurd h hn
    · rename_i h2
      rw [if_neg h2]
      exact ⟨rfl, rfl⟩

theorem specStep_info (c : Cfg) (ts : Nat → Nat) (p : Sp) (fr : Fr) : (specStep c ts p fr).1.n = p.n + 1 ∧
    (specStep c ts p fr).1.info = fun x => if x = p.n then fr else p.info x := by
  unfold specStep
  dsimp only
  split
  · exact ⟨rfl, rfl⟩
  · split <;> exact ⟨rfl, rfl⟩

theorem cachePub_some {k : Conf} {b b' : Pub} {fr : Fr} {t : Nat} (e : cachePub k b fr t = some b') :
    ∃ rc, cacheFrame k.c (fun x => if Item.av x = Item.av b.st.n then t else b.ts (.av x)) b.st fr = some (b'.st, rc) ∧ b'.ver = b.ver ∧ b'.metaMsg = b.metaMsg ∧
      (rc = .ok → b'.latA = (if fr.header = true ∧ fr.video = false then some b.st.n else b.latA) ∧
        b'.latV = if fr.header = true ∧ fr.video = true then some b.st.n else b.latV) := by
  unfold cachePub at e
  dsimp only at e
  cases ec : cacheFrame k.c (fun x => if Item.av x = Item.av b.st.n then t else b.ts (.av x)) b.st fr with
  | none => rw [ec] at e; cases e
  | some r =>
    obtain ⟨s1, rc⟩ := r
    rw [ec] at e
    cases rc with
    | again => cases e; exact ⟨_, rfl, rfl, rfl, fun h => by cases h⟩
    | ok => cases e; exact ⟨_, rfl, rfl, rfl, fun _ => ⟨rfl, rfl⟩⟩

/-- The latest header. -/
theorem lat_step {b : Pub} {fr : Fr} {info' : Nat → Fr} {lat lat' : Option Nat} {v : Bool} (hi : ∀ x, x < b.st.n → info' x = b.st.info x)
    (hn : info' b.st.n = fr) (hl : lat' = if fr.header = true ∧ fr.video = v then some b.st.n else lat)
    (h : ∀ f, lat = some f → f < b.st.n ∧ (b.st.info f).header = true ∧ (b.st.info f).video = v ∧
      ∀ g, f < g → g < b.st.n → (b.st.info g).header = true → (b.st.info g).video = !v) :
    ∀ f, lat' = some f → f < b.st.n + 1 ∧ (info' f).header = true ∧ (info' f).video = v ∧
      ∀ g, f < g → g < b.st.n + 1 → (info' g).header = true → (info' g).video = !v := by
  intro f hf
  rw [hl] at hf
  by_cases hc : fr.header = true ∧ fr.video = v
  · rw [if_pos hc] at hf
    cases hf
    refine ⟨by omega, by rw [hn]; exact hc.1, by rw [hn]; exact hc.2, fun g h1 h2 => by omega⟩
  · rw [if_neg hc] at hf
    obtain ⟨h1, h2, h3, h4⟩ := h f hf
    refine ⟨by omega, by rw [hi f h1]; exact h2, by rw [hi f h1]; exact h3, fun g g1 g2 g3 => ?_⟩
    by_cases eg : g = b.st.n
    · subst eg
      rw [hn] at g3 ⊢
      cases e : fr.video <;> cases v <;> simp_all
    · rw [hi g (by omega)] at g3 ⊢
      exact h4 g g1 (by omega) g3

theorem Good.legal {k : Conf} {b : Pub} {D m : Nat} {hist : List Fr} {fr : Fr} (hq : 3 ≤ k.c.q) (g : Good k b D m) (hh : Hist b hist) (ok : okNext hist fr) :
    Legal k.c ⟨b.st.n, b.st.info, List.range b.st.n, List.range' D (b.st.n - D)⟩ fr := by
  cases hf : fr.header with
  | false => exact .inl hf
  | true =>
    rcases g.hphase with ⟨h1, h2⟩ | ⟨h1, h2⟩
    · right; right; left
      have := g.hm
      simp only [List.length_range]
      rcases ok hf with ⟨h3, h4⟩ | ⟨f, h3, h4, h5⟩
      · rw [← hh.hn] at h4; omega
      · exfalso
        obtain ⟨x, hx, e⟩ := List.mem_iff_getElem.1 h3
        rw [← hh.hi x hx] at e
        have := g.hheads x (by rw [← hh.hn] at hx; omega)
        rw [e, h5] at this; cases this
    · right; left
      rw [List.any_eq_true]
      exact ⟨D, List.mem_range'_1.2 (by omega), by unfold IsHeader; simp [h2]⟩

theorem good_step {k : Conf} {b b' : Pub} {D m : Nat} {hist : List Fr} {fr : Fr} {t : Nat} (hq : 3 ≤ k.c.q) (g : Good k b D m) (hh : Hist b hist)
    (ok : okNext hist fr) (e : cachePub k b fr t = some b') (ht : b'.st.acq b.st.n = 1) :
    ∃ D' m', Good k b' D' m' ∧ Hist b' (hist ++ [fr]) ∧ D ≤ D' ∧ m ≤ m' ∧ (m < b.st.n → m' = m) ∧ b'.st.n = b.st.n + 1 ∧
      (∀ x, x < b.st.n → b'.st.info x = b.st.info x) ∧ b'.ver = b.ver ∧ b'.metaMsg = b.metaMsg := by
  obtain ⟨rc, ec, ev, em, el⟩ := cachePub_some e
  obtain ⟨s', e1, hs⟩ := sim_step (ts := fun x => if Item.av x = Item.av b.st.n then t else b.ts (.av x)) g.hsim (g.legal hq hh ok)
  rw [ec] at e1
  simp only [Option.some.injEq, Prod.mk.injEq] at e1
  obtain ⟨e1, e2⟩ := e1
  subst e1
  obtain ⟨hrc, hlen, hint, nx, kf, er, ip⟩ := cacheFrame_push g.hsim ec ht
  obtain ⟨elA, elV⟩ := el hrc
  simp only [List.length_range'] at hlen
  have hnn : b.st.n ∉ List.range b.st.n := by simp
  have hacc : (specStep k.c (fun x => if Item.av x = Item.av b.st.n then t else b.ts (.av x))
      ⟨b.st.n, b.st.info, List.range b.st.n, List.range' D (b.st.n - D)⟩ fr).1.acc = List.range (b.st.n + 1) := by
    rw [List.range_succ]
    refine (specStep_taken (p := ⟨b.st.n, b.st.info, List.range b.st.n, List.range' D (b.st.n - D)⟩) ?_ hnn).1
    have := hs.inv.refs.hacq b.st.n
    rw [ht] at this
    by_cases hc : b.st.n ∈ (specStep k.c (fun x => if Item.av x = Item.av b.st.n then t else b.ts (.av x))
      ⟨b.st.n, b.st.info, List.range b.st.n, List.range' D (b.st.n - D)⟩ fr).1.acc
    · exact hc
    · rw [if_neg hc] at this; cases this
  obtain ⟨en, ei⟩ := specStep_info k.c (fun x => if Item.av x = Item.av b.st.n then t else b.ts (.av x))
      ⟨b.st.n, b.st.info, List.range b.st.n, List.range' D (b.st.n - D)⟩ fr
  have hn' : b'.st.n = b.st.n + 1 := by rw [hs.n, en]
  have hi' : b'.st.info = fun x => if x = b.st.n then fr else b.st.info x := by rw [hs.info, ei]
  have hi : ∀ x, x < b.st.n → b'.st.info x = b.st.info x := fun x hx => by rw [hi']; dsimp only; rw [if_neg (by omega)]
  have hin : b'.st.info b.st.n = fr := by rw [hi']; dsimp only; rw [if_pos rfl]
  have hkey : ∀ x, x < b.st.n → isKey b'.st.info x = isKey b.st.info x := fun x hx => by unfold isKey; rw [hi x hx]
  have hiv := hs.inv
  rw [hacc] at hiv
  have hhist : Hist b' (hist ++ [fr]) := by
    refine ⟨by rw [hn', hh.hn]; simp, fun x hx => ?_⟩
    by_cases ex : x < hist.length
    · rw [hi x (by rw [hh.hn]; exact ex), hh.hi x ex, List.getElem_append_left ex]
    · have : x = hist.length := by simp at hx; omega
      subst this
      have h2 := hin
      rw [hh.hn] at h2
      rw [h2]
      simp
  have hlA := lat_step (v := false) (fr := fr) hi hin elA g.hlatA
  have hlV := lat_step (v := true) (fr := fr) hi hin elV g.hlatV
  rw [← hn'] at hlA hlV
  -- the pushed state
  have hsp : ∀ i, (push k.c { newFrame b.st fr with next := nx, keyframe := kf } b.st.n).cache i = if i = b.st.n % k.c.q then some b.st.n else b.st.cache i := by
    intro i
    show set b.st.cache b.st.last (some b.st.n) i = _
    rw [g.hlast]; rfl
  have hspl : (push k.c { newFrame b.st fr with next := nx, keyframe := kf } b.st.n).last = (b.st.n + 1) % k.c.q := by
    show nxt k.c b.st.last = _
    unfold nxt; rw [g.hlast, Nat.mod_add_mod]
  have hspp : (push k.c { newFrame b.st fr with next := nx, keyframe := kf } b.st.n).pos = D % k.c.q := g.hpos
  have hspi : (push k.c { newFrame b.st fr with next := nx, keyframe := kf } b.st.n).info = b'.st.info := by
    rw [hi']
    show set b.st.info b.st.n fr = _
    rfl
  have hDn := g.hDn
  have hslots : ∀ i x, (push k.c { newFrame b.st fr with next := nx, keyframe := kf } b.st.n).cache i = some x →
      x < b.st.n + 1 ∧ x % k.c.q = i ∧ b.st.n + 1 ≤ x + k.c.q ∧ (D ≤ x ∨ x < m) := by
    intro i x hx
    rw [hsp] at hx
    by_cases ei : i = b.st.n % k.c.q
    · rw [if_pos ei] at hx
      cases hx
      exact ⟨by omega, ei.symm, by omega, .inl hDn⟩
    · rw [if_neg ei] at hx
      obtain ⟨h1, h2, h3, h4⟩ := g.hslots i x hx
      refine ⟨by omega, h2, ?_, h4⟩
      by_cases h : b.st.n = x + k.c.q
      · exfalso; apply ei; rw [h, Nat.add_mod_right, h2]
      · omega
  by_cases hA : b.st.n = m ∧ D = m ∧ fr.header = true
  · -- one of the first headers
    obtain ⟨a1, a2, a3⟩ := hA
    have hn2 : b.st.n < 2 := by
      rcases ok a3 with ⟨_, h⟩ | ⟨f, h3, h4, h5⟩
      · rw [hh.hn]; exact h
      · exfalso
        obtain ⟨x, hx, e⟩ := List.mem_iff_getElem.1 h3
        rw [← hh.hi x hx] at e
        have := g.hheads x (by rw [← hh.hn] at hx; omega)
        rw [e, h5] at this; cases this
    have hl0 : List.range' D (b.st.n - D) ++ [b.st.n] = [b.st.n] := by rw [show b.st.n - D = 0 by omega]; rfl
    have ip2 := ip
    dsimp only at ip2
    rw [hl0] at ip2
    obtain ⟨s1, g1, g2, g3, g4, g5, g6, g7, g8⟩ := strip_spec ip2 (k := k.c.q + 1) (by simp; omega)
    have hdw : [b.st.n].dropWhile (fun f => ((push k.c { newFrame b.st fr with next := nx, keyframe := kf } b.st.n).info f).header) = [] := by
      rw [List.dropWhile_cons_of_pos]
      · rfl
      · rw [hspi, hin]; exact a3
    rw [hdw] at g2
    have hp1 : s1.pos = (b.st.n + 1) % k.c.q := by rw [g2.ring.nil, g6, hspl]
    have hc1 : s1.cache s1.pos = none := by
      rw [g7, hp1]
      cases hc : (push k.c { newFrame b.st fr with next := nx, keyframe := kf } b.st.n).cache ((b.st.n + 1) % k.c.q) with
      | none => rfl
      | some x =>
        obtain ⟨h1, h2, _⟩ := hslots _ _ hc
        rw [Nat.mod_eq_of_lt (by omega), Nat.mod_eq_of_lt (by omega)] at h2
        omega
    have hs1 : b'.st = s1 := by
      unfold resetGop at er
      rw [g1] at er
      dsimp only at er
      rw [hc1] at er
      exact (Option.some.inj er).symm
    have hl' : (specStep k.c (fun x => if Item.av x = Item.av b.st.n then t else b.ts (.av x))
        ⟨b.st.n, b.st.info, List.range b.st.n, List.range' D (b.st.n - D)⟩ fr).1.l = List.range' (b.st.n + 1) 0 := by
      have h1 := hiv.ring.hlen
      have h2 := hiv.ring.hlast
      rw [hs1, hp1, g6, hspl, Nat.mod_add_mod] at h2
      have := mod_inj h2 (by omega) (by omega)
      exact List.eq_nil_of_length_eq_zero (by omega)
    refine ⟨b.st.n + 1, b.st.n + 1, ⟨?_, ?_, ?_, by omega, by omega, by omega, ?_, ?_, .inl ⟨hn', rfl⟩, ?_, ?_, hlA, hlV⟩, hhist, by omega, by omega, by omega, hn', hi, ev, em⟩
    · rw [hl'] at hiv
      refine ⟨?_, rfl, rfl⟩
      rw [hn', Nat.sub_self]
      exact hiv
    · rw [hs1, hp1]
    · rw [hs1, g6, hspl, ← hs1, hn']
    · intro i x hx
      rw [hs1, g7] at hx
      obtain ⟨h1, h2, h3, _⟩ := hslots i x hx
      rw [hn']
      exact ⟨h1, h2, h3, .inr h1⟩
    · intro x hx
      by_cases ex : x = b.st.n
      · rw [ex, hin]; exact a3
      · rw [hi x (by omega)]; exact g.hheads x (by omega)
    · intro x h1 h2; omega
    · intro x h1 h2; omega
  · have hDf : (b'.st.info D).header = false := by
      rcases g.hphase with ⟨h1, h2⟩ | ⟨h1, h2⟩
      · rw [h2, ← h1, hin]
        cases hf : fr.header with
        | false => rfl
        | true => exact absurd ⟨h1, h2, hf⟩ hA
      · rw [hi D h1]; exact h2
    have hll : List.range' D (b.st.n - D) ++ [b.st.n] = List.range' D (b.st.n + 1 - D) := by
      have := List.range'_append (s := D) (m := b.st.n - D) (n := 1) (step := 1)
      rw [show b.st.n + 1 - D = b.st.n - D + 1 by omega, ← this, show D + 1 * (b.st.n - D) = b.st.n by omega]
      rfl
    have ip2 := ip
    dsimp only at ip2
    rw [hll, ← List.range_succ] at ip2
    have hrg : ∀ x, D ≤ x → x < b.st.n + 1 → (push k.c { newFrame b.st fr with next := nx, keyframe := kf } b.st.n).cache (x % k.c.q) = some x := by
      intro x h1 h2
      have := ip2.ring.hat (x - D) (by simp; omega)
      rw [hspp, Nat.mod_add_mod, show D + (x - D) = x by omega] at this
      rw [this]
      simp
      omega
    obtain ⟨P, p1, p2, p3, p4, p5, p6⟩ := resetGop_view (D := D) (N := b.st.n + 1) (by omega) (by omega) hspp hrg (by rw [hspi]; exact hDf) ip2.keys
      (by rw [Nat.add_sub_cancel]; exact er)
    rw [hspi] at p6
    obtain ⟨q1, q2, q3⟩ := p5
    have hcP : b'.st.cache (P % k.c.q) = some P := by
      rw [q3 _ (fun x h1 h2 h => by have := mod_inj h (by omega) (by omega); omega)]
      exact hrg P p1 p2
    have hl' := suffix_of_front hiv p3 (by rw [p4, hspl]) p2 (by omega) hcP
    have hkn : (push k.c { newFrame b.st fr with next := nx, keyframe := kf } b.st.n).keyframe = none → ∀ x, x < b.st.n + 1 → isKey b'.st.info x = false := by
      intro h x hx
      have := ip2.nokey h x (List.mem_range.2 hx)
      rw [hspi] at this
      exact this
    have hdr : ∀ x, m ≤ x → x < b'.st.n → (b'.st.info x).header = true → ∃ y, y < x ∧ isKey b'.st.info y = true := by
      intro x h1 h2 h3
      by_cases ex : x = b.st.n
      · subst ex
        rw [hin] at h3
        rcases ok h3 with ⟨h4, h5⟩ | ⟨f, h4, h5, h6⟩
        · exfalso
          rcases g.hphase with ⟨c1, c2⟩ | ⟨c1, c2⟩
          · exact hA ⟨c1, c2, h3⟩
          · have hx : D < hist.length := by rw [← hh.hn]; exact c1
            rw [hh.hi D hx] at c2
            rw [h4 _ (List.getElem_mem hx)] at c2; cases c2
        · obtain ⟨y, hy, e⟩ := List.mem_iff_getElem.1 h4
          have hy' : y < b.st.n := by rw [hh.hn]; exact hy
          refine ⟨y, hy', ?_⟩
          rw [hkey y hy']
          unfold isKey
          rw [hh.hi y hy, e, h5, h6]; rfl
      · obtain ⟨y, y1, y2⟩ := g.hhdr x h1 (by omega) (by rw [← hi x (by omega)]; exact h3)
        exact ⟨y, y1, by rw [hkey y (by omega)]; exact y2⟩
    have hfront : (b'.st.info P).header = false := by
      rcases p6 with h | h | ⟨h1, h2⟩
      · rw [h]; exact hDf
      · unfold isKey at h; simp at h; exact h.2
      · cases hf : (b'.st.info P).header with
        | false => rfl
        | true =>
          obtain ⟨y, y1, y2⟩ := hdr P (by have := g.hmD; omega) (by omega) hf
          rw [hkn h2 y (by omega)] at y2; cases y2
    refine ⟨P, m, ⟨?_, ?_, ?_, g.hm, by have := g.hmD; omega, by omega, ?_, ?_, .inr ⟨by omega, hfront⟩, hdr, ?_, hlA, hlV⟩, hhist, p1, Nat.le_refl _, fun _ => rfl, hn', hi, ev, em⟩
    · refine ⟨?_, rfl, rfl⟩
      rw [hn']
      rw [hl'] at hiv
      exact hiv
    · exact p3
    · rw [p4, hspl, hn']
    · intro i x hx
      have hx' : (push k.c { newFrame b.st fr with next := nx, keyframe := kf } b.st.n).cache i = some x := by
        rcases q1 i with h | h
        · rw [← h]; exact hx
        · rw [h] at hx; cases hx
      obtain ⟨h1, h2, h3, h4⟩ := hslots i x hx'
      rw [hn']
      refine ⟨h1, h2, h3, ?_⟩
      rcases h4 with h4 | h4
      · by_cases hc : x < P
        · have := q2 x h4 hc
          rw [h2, hx] at this; cases this
        · exact .inl (by omega)
      · exact .inr h4
    · intro x hx
      have hxn : x < b.st.n ∨ x = b.st.n := by have := g.hmD; omega
      rcases hxn with h | h
      · rw [hi x h]; exact g.hheads x hx
      · have := g.hmD; omega
    · intro x h1 h2 h3 h4 h5
      have old : ∃ y, D ≤ y ∧ y < x ∧ isKey b'.st.info y = true := by
        by_cases ex : x = b.st.n
        · subst ex
          rw [hin] at h3 h4 h5
          have hk := g.hsim.inv.keys
          cases hf : (List.range' D (b.st.n - D)).filter (isKey b.st.info) with
          | nil =>
            dsimp only at hk
            rw [hf] at hk
            exact absurd hk (hint ⟨h3, h5, h4⟩)
          | cons y t =>
            have hy : y ∈ (List.range' D (b.st.n - D)).filter (isKey b.st.info) := by rw [hf]; simp
            obtain ⟨y1, y2⟩ := List.mem_filter.1 hy
            rw [List.mem_range'_1] at y1
            exact ⟨y, y1.1, by omega, by rw [hkey y (by omega)]; exact y2⟩
        · have hx : x < b.st.n := by omega
          rw [hi x hx] at h3 h4 h5
          obtain ⟨y, y1, y2, y3⟩ := g.hkeyd x (by omega) hx h3 h4 h5
          exact ⟨y, y1, y2, by rw [hkey y (by omega)]; exact y3⟩
      rcases p6 with h | h | ⟨_, h⟩
      · rw [h]; exact old
      · by_cases ex : x = P
        · subst ex
          unfold isKey at h
          rw [h5] at h; cases h
        · exact ⟨P, Nat.le_refl _, by omega, h⟩
      · obtain ⟨y, y1, y2, y3⟩ := old
        rw [hkn h y (by omega)] at y3; cases y3

end Verif.GopSend
