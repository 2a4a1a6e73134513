import Verif.Live.GopSendWorld
import Verif.Live.GopSendQueue
/- Runs: the invariant, players that keep up, the first turn (C62). -/
namespace Verif.GopSend
open Verif Verif.Gop

variable {k : Conf} {b b' : Pub} {D m : Nat} {I : Nat → Fr} {S : Nat → Prop} {p p' : Player} {J : Nat}

theorem nth_append {l r : List Fr} {x : Nat} (h : x < l.length) : nth (l ++ r) x = l[x] := by
  unfold nth
  rw [List.getElem?_append_left h, List.getElem?_eq_getElem h]; rfl

theorem okNext_of {hist rest : List Fr} {fr : Fr} (h : Regular (hist ++ fr :: rest)) : okNext hist fr ∧ nth (hist ++ fr :: rest) hist.length = fr := by
  have e : nth (hist ++ fr :: rest) hist.length = fr := by unfold nth; simp
  refine ⟨fun hf => ?_, e⟩
  rcases h hist.length (by simp) (by rw [e]; exact hf) with ⟨h1, h2⟩ | ⟨y, h1, h2, h3⟩
  · refine .inl ⟨fun f hm => ?_, h1⟩
    obtain ⟨y, hy, rfl⟩ := List.mem_iff_getElem.1 hm
    rw [← nth_append (r := fr :: rest) hy]; exact h2 y hy
  · rw [nth_append h1] at h2 h3
    exact .inr ⟨_, List.getElem_mem h1, h2, h3⟩

theorem Tagged.nth {l : List Fr} (h : Tagged l) (x : Nat) (hk : (nth l x).key = true) : (nth l x).video = true := by
  by_cases hx : x < l.length
  · have e : GopSend.nth l x = l[x] := by unfold GopSend.nth; rw [List.getElem?_eq_getElem hx]; rfl
    rw [e] at hk ⊢
    exact h _ (List.getElem_mem hx) hk
  · have e : GopSend.nth l x = ⟨false, false, false⟩ := by unfold GopSend.nth; rw [List.getElem?_eq_none (by omega)]; rfl
    rw [e] at hk; cases hk

theorem HeadersFirst.regular {l : List Fr} (h : HeadersFirst l) : Regular l := fun x hx hh => .inl (h x hx hh)

/-- What is assumed of a stream `L`. -/
structure Stream (k : Conf) (L : List Fr) (S : Nat → Prop) : Prop where
  hq : 3 ≤ k.c.q
  hreg : Regular L
  htag : ∀ x, (nth L x).key = true → (nth L x).video = true
  hst : Strictly k (nth L) S L.length

/-- The players seen in a run. -/
def seenAll (seen : List Nat) (os : List Op) : List Nat := os.foldl seenBy seen

theorem published_cons (o : Op) (os : List Op) : published (o :: os) = frOf o ++ published os := by cases o <;> rfl

theorem WI.init (h : Stream k L S) : WI k (nth L) S [] {} [] := by
  have hq := h.hq
  refine ⟨⟨0, 0, fun j => ⟨good_init k (by omega), hq, fun x hx => ?_, h.htag, fun s => ⟨h.hst.hlow j s, fun x _ hx => ?_⟩⟩, fun j => PI.fresh⟩, ⟨rfl, fun x hx => ?_⟩, List.nodup_nil,
    fun j _ => ⟨rfl, List.not_mem_nil⟩, fun j _ => .inr rfl⟩
  · cases hx
  · cases hx
  · cases hx

theorem WI.next {L : List Fr} (hs : Stream k L S) {o : Op} {os : List Op} {w : World} {hist seen rest} (h : WI k (nth L) S seen w hist) (hL : L = hist ++ published (o :: os) ++ rest)
    (ht : AllTaken k w (o :: os)) (ha : Allowed S o) (ho : Once seen (o :: os)) :
    ∃ w', GopSend.step k w o = some w' ∧ WI k (nth L) S (seenBy seen o) w' (hist ++ frOf o) ∧
      (∀ fr t, o = .pub fr t → ∀ j ∈ w.subs, ∃ D' m' b1 b2, Ctx k b1 D' m' (nth L) (S j) ∧ b1.st.n = w.b.st.n + 1 ∧ SameB b1 w'.b ∧ PI k b1 D' m' (nth L) (S j) 1 (w.pl j) ∧
        gopSend k b1 (w.pl j) = some (b2, w'.pl j)) ∧ AllTaken k w' os ∧ Once (seenBy seen o) os ∧ (∀ i, o = .join i → i ∉ w.subs) := by
  have hj : ∀ i, o = .join i → i ∉ seen := fun i e => by subst e; exact ho.1
  obtain ⟨w', e1, e2, e3⟩ := h.step hs.hq hs.htag hs.hst (o := o)
    (fun fr t e => by
      subst e
      have hL' : L = hist ++ fr :: (published os ++ rest) := by rw [hL]; simp [published]
      obtain ⟨a1, a2⟩ := okNext_of (by rw [← hL']; exact hs.hreg)
      rw [← hL'] at a2
      exact ⟨a2, a1, by rw [hL']; simp⟩)
    (fun fr t e => by subst e; exact ht.1) ha hj
  refine ⟨w', e1, e2, e3, ht.2 w' e1, ?_, fun i e => (h.fresh i (hj i e)).2⟩
  cases o <;> first | exact ho | exact ho.2

theorem run_inv {L : List Fr} (hs : Stream k L S) : ∀ {os : List Op} {w : World} {hist : List Fr} {seen : List Nat} {rest : List Fr}, WI k (nth L) S seen w hist → L = hist ++ published os ++ rest →
    AllTaken k w os → (∀ o ∈ os, Allowed S o) → Once seen os → ∃ w', run k w os = some w' ∧ WI k (nth L) S (seenAll seen os) w' (hist ++ published os)
  | [], w, hist, seen, rest, h, _, _, _, _ => ⟨w, rfl, by show WI _ _ _ _ _ (hist ++ []); rw [List.append_nil]; exact h⟩
  | o :: os, w, hist, seen, rest, h, hL, ht, ha, ho => by
    obtain ⟨w1, e1, h1, _, ht1, ho1, _⟩ := h.next hs hL ht (ha o List.mem_cons_self) ho
    obtain ⟨w2, e2, h2⟩ := run_inv hs (os := os) (rest := rest) h1 (by rw [hL, published_cons]; simp only [List.append_assoc]) ht1 (fun o' h' => ha o' (List.mem_cons_of_mem _ h')) ho1
    refine ⟨w2, by unfold run; rw [e1]; exact e2, ?_⟩
    rw [published_cons, ← List.append_assoc]
    exact h2

/-! ### A player that keeps up -/

theorem follow_turn {S : Prop} (c : Ctx k b D m I S) (hD : D < b.st.n) (hst : p.state = 3) (hpos : p.pos = (b.st.n - 1) % k.c.q) (h : gopSend k b p = some (b', p')) (hf : p'.full = p.full) :
    avs p'.log = avs p.log ++ [b.st.n - 1] ∧ p'.state = 3 ∧ p'.pos = b.st.n % k.c.q := by
  obtain ⟨n1, n2⟩ := c.g.newest c.hq hD
  have hbd := c.g.bound
  obtain ⟨b1, p1, r, e1, s1, q1, q2, q3, q4⟩ := sendMeta_spec (k := k) (b := b) (p := p)
  unfold gopSend at h
  rw [if_pos hst, e1] at h
  cases r with
  | false =>
    simp only [Option.some.injEq, Prod.mk.injEq] at h
    obtain ⟨_, h⟩ := h
    subst h
    rcases q4 with ⟨_, q, _⟩ | ⟨q, _⟩
    · have := q.hfull; omega
    · cases q
  | true =>
    have q4 : avs p1.log = avs p.log ∧ p1.full = p.full := by
      rcases q4 with ⟨q, _⟩ | ⟨_, _, ⟨a1, _, _, a2⟩ | ⟨v, a⟩⟩
      · cases q
      · exact ⟨by rw [a1], a2⟩
      · exact ⟨by rw [a.hlog, avs_md], a.hfull⟩
    dsimp only at h
    have hb1 : b1.st = b.st := by rw [s1]
    have one : sendNext k b1 p1 = sendOne k b1 p1 := by
      unfold sendNext
      dsimp only
      rw [hb1, n1, n2]
      dsimp only
      rw [if_neg (show ¬ (k.low = true ∧ (b.st.n - 1) % k.c.q ≠ p1.pos) from fun e => e.2 (by rw [q1, hpos]))]
      split
      · rfl
      · rw [q1, hpos, n2]
    rw [one] at h
    unfold sendOne at h
    rw [hb1, q1, hpos, n2] at h
    have hal : alive b1 (.av (b.st.n - 1)) = true := by
      have := c.g.live (x := b.st.n - 1) (by omega) (by omega)
      unfold alive at this ⊢
      dsimp only at this ⊢
      rw [hb1]; exact this
    obtain ⟨b2, p2, r2, e2, s2, t1, t2⟩ := link_spec (k := k) (b := b1) (p := p1) hal
    simp only [Option.map_some, linkOpt] at h
    rw [e2] at h
    rcases t2 with ⟨e, t2⟩ | ⟨e, t2⟩
    · subst e
      simp only [Option.some.injEq, Prod.mk.injEq] at h
      obtain ⟨_, h⟩ := h
      subst h
      have := t2.hfull
      omega
    · subst e
      simp only [Option.some.injEq, Prod.mk.injEq] at h
      obtain ⟨_, h⟩ := h
      subst h
      refine ⟨?_, t1.hstate.trans (q2.trans hst), ?_⟩
      · show avs p2.log = _
        rw [t2.hlog, avs_av, q4.1]
      · show nxt k.c p2.pos = _
        unfold nxt
        rw [t1.hpos, q1, hpos, Nat.mod_add_mod]
        congr 1
        omega

/-- The player `i` has everything there is. -/
structure Caught (k : Conf) (i : Nat) (w : World) : Prop where
  hin : i ∈ w.subs
  hst : (w.pl i).state = 3
  hpos : (w.pl i).pos = w.b.st.n % k.c.q

theorem follow_run {L : List Fr} (hs : Stream k L S) {i : Nat} : ∀ {os : List Op} {w w' : World} {hist : List Fr} {seen : List Nat} {rest : List Fr}, WI k (nth L) S seen w hist →
    L = hist ++ published os ++ rest → AllTaken k w os → (∀ o ∈ os, Allowed S o) → Once seen os → (∀ o ∈ os, Steady i o) → Caught k i w → run k w os = some w' →
    (w'.pl i).full = (w.pl i).full →
    avs (w'.pl i).log = avs (w.pl i).log ++ List.range' w.b.st.n (published os).length ∧ Caught k i w'
  | [], w, w', hist, seen, rest, h, _, _, _, _, _, hc, hr, _ => by
    cases hr
    exact ⟨by simp [published], hc⟩
  | o :: os, w, w', hist, seen, rest, h, hL, ht, ha, ho, hsd, hc, hr, hf => by
    obtain ⟨w1, e1, h1, hturn, ht1, ho1, hjn⟩ := h.next hs hL ht (ha o List.mem_cons_self) ho
    have hr' : run k w1 os = some w' := by unfold run at hr; rw [e1] at hr; exact hr
    have hn : w1.b.st.n = w.b.st.n + (frOf o).length := by rw [h1.hist.hn, h.hist.hn, List.length_append]
    have f1 := step_full e1 i
    have f2 := run_full hr' i
    have key : avs (w1.pl i).log = avs (w.pl i).log ++ List.range' w.b.st.n (frOf o).length ∧ Caught k i w1 := by
      have same : ∀ {w1 : World}, (w1.pl i).log = (w.pl i).log → (w1.pl i).state = (w.pl i).state → (w1.pl i).pos = (w.pl i).pos → w1.b.st.n = w.b.st.n → i ∈ w1.subs →
          avs (w1.pl i).log = avs (w.pl i).log ++ List.range' w.b.st.n 0 ∧ Caught k i w1 := fun a1 a2 a3 a4 a5 =>
        ⟨by rw [a1]; simp, a5, by rw [a2]; exact hc.hst, by rw [a3, a4]; exact hc.hpos⟩
      cases o with
      | pub fr t =>
        obtain ⟨D', m', b1, b2, c, g1, g2, g3, g4⟩ := hturn fr t rfl i hc.hin
        obtain ⟨J, j1, j2, j3, j4, j5⟩ := g3.high (by rw [hc.hst]; omega)
        have hDn : D' < b1.st.n := by rcases c.g.hphase with ⟨h1, h2⟩ | ⟨h1, _⟩ <;> omega
        obtain ⟨a1, a2, a3⟩ := follow_turn c hDn hc.hst (by rw [g1, Nat.add_sub_cancel]; exact hc.hpos) g4 (by omega)
        have hsub : w1.subs = w.subs := by
          unfold step at e1
          dsimp only at e1
          split at e1
          · cases e1
          · split at e1
            · cases e1
            · cases e1; rfl
        refine ⟨?_, by rw [hsub]; exact hc.hin, a2, ?_⟩
        · rw [a1, g1, Nat.add_sub_cancel]; rfl
        · rw [a3, g1, hn]; rfl
      | data t => cases e1; exact same rfl rfl rfl rfl hc.hin
      | join j =>
        have hji : i ≠ j := fun e => hjn j rfl (e ▸ hc.hin)
        unfold step at e1
        dsimp only at e1
        rw [if_neg (hjn j rfl)] at e1
        split at e1
        · cases e1; exact same rfl rfl rfl rfl (List.mem_cons_of_mem _ hc.hin)
        · split at e1
          · cases e1
          · rename_i b1 p1 e
            have hn' : b1.st.n = w.b.st.n := by cases e1; exact hn
            cases e1
            have e : set w.pl j p1 i = w.pl i := set_ne _ _ hji
            exact same (by dsimp only; rw [e]) (by dsimp only; rw [e]) (by dsimp only; rw [e]) hn' (List.mem_cons_of_mem _ hc.hin)
      | pause j =>
        have hji : j ≠ i := hsd _ List.mem_cons_self
        cases e1
        exact same rfl rfl rfl rfl (List.mem_filter.2 ⟨hc.hin, by simpa using hji.symm⟩)
      | resume j =>
        unfold step at e1
        dsimp only at e1
        split at e1
        · cases e1; exact same rfl rfl rfl rfl hc.hin
        · cases e1; exact same rfl rfl rfl rfl (List.mem_cons_of_mem _ hc.hin)
      | drain j n =>
        cases e1
        by_cases e : i = j
        · subst e
          refine same ?_ ?_ ?_ rfl hc.hin <;> (dsimp only; rw [set_same]; rfl)
        · have e : set w.pl j (drainPl (w.pl j) n) i = w.pl i := set_ne _ _ e
          exact same (by dsimp only; rw [e]) (by dsimp only; rw [e]) (by dsimp only; rw [e]) rfl hc.hin
    obtain ⟨k1, k2⟩ := key
    obtain ⟨r1, r2⟩ := follow_run hs (os := os) (rest := rest) h1 (by rw [hL, published_cons]; simp only [List.append_assoc]) ht1 (fun o' h' => ha o' (List.mem_cons_of_mem _ h')) ho1
      (fun o' h' => hsd o' (List.mem_cons_of_mem _ h')) k2 hr' (by omega)
    refine ⟨?_, r2⟩
    rw [r1, k1, published_cons, List.length_append, hn, List.append_assoc, List.range'_append_1]

/-! ### The first turn -/

theorem burst_all {S : Prop} (hall : k.sendAll = true) : ∀ (j : Nat) {fuel : Nat} {b b' : Pub} {p p' : Player} {J : Nat}, Ctx k b D m I S → D ≤ J → J + j = b.st.n → (J < b.st.n ∨ b.st.n % k.c.q ≠ 1) →
    burst k fuel b p (J % k.c.q) = some (b', p') → p'.full = p.full →
    ∃ E, J ≤ E ∧ E ≤ b.st.n ∧ avs p'.log = avs p.log ++ List.range' J (E - J) ∧ p'.state = 3 ∧ p'.pos = E % k.c.q ∧ (∀ x, J ≤ x → x < E → x % k.c.q ≠ 0) ∧ (E = b.st.n ∨ E % k.c.q = 0)
  | _, 0, _, _, _, _, _, _, _, _, _, h, _ => by cases h
  | j, fuel + 1, b, b', p, p', J, c, hD, hj, h1, h, hf => by
    have fin : (J = b.st.n ∨ J % k.c.q = 0) → p' = { p with state := 3, pos := J % k.c.q } →
        ∃ E, J ≤ E ∧ E ≤ b.st.n ∧ avs p'.log = avs p.log ++ List.range' J (E - J) ∧ p'.state = 3 ∧ p'.pos = E % k.c.q ∧ (∀ x, J ≤ x → x < E → x % k.c.q ≠ 0) ∧ (E = b.st.n ∨ E % k.c.q = 0) := by
      intro a e
      subst e
      exact ⟨J, Nat.le_refl _, by omega, by simp, rfl, rfl, fun x x1 x2 => by omega, a⟩
    unfold burst at h
    cases hc : b.st.cache (J % k.c.q) with
    | none =>
      rw [hc] at h
      simp only [Option.some.injEq, Prod.mk.injEq] at h
      refine fin (.inl ?_) h.2.symm
      by_cases hJ : J < b.st.n
      · rw [c.g.ring hD hJ] at hc; cases hc
      · omega
    | some x =>
      rw [hc] at h
      dsimp only at h
      by_cases h0 : J % k.c.q = 0
      · rw [if_pos h0] at h
        simp only [Option.some.injEq, Prod.mk.injEq] at h
        exact fin (.inr h0) h.2.symm
      · rw [if_neg h0, if_neg (by rw [hall]; simp)] at h
        have hJn : J < b.st.n := by
          by_cases hJ : J < b.st.n
          · exact hJ
          · exfalso
            obtain ⟨x1, x2, x3, x4⟩ := c.g.hslots _ _ hc
            have hJ : J = b.st.n := by omega
            have hm := c.g.hm
            have hq := c.hq
            have hxm : x < 2 := by
              rcases x4 with h | h
              · exfalso
                have hbd := c.g.bound
                have := mod_inj x2 (by omega) (by omega)
                omega
              · omega
            rw [Nat.mod_eq_of_lt (by omega)] at x2
            rcases h1 with h | h
            · omega
            · rw [hJ] at x2 h0
              omega
        rw [c.g.ring hD hJn] at hc
        cases hc
        obtain ⟨b1, p1, r, e1, s1, q1, q2⟩ := link_spec (k := k) (p := p) (c.g.live hD hJn)
        rw [e1] at h
        rcases q2 with ⟨e, q2⟩ | ⟨e, q2⟩
        · subst e
          simp only [Option.some.injEq, Prod.mk.injEq] at h
          rw [← h.2] at hf
          have := q2.hfull
          dsimp only at hf
          omega
        · subst e
          dsimp only at h
          have hnx : nxt k.c (J % k.c.q) = (J + 1) % k.c.q := by unfold nxt; rw [Nat.mod_add_mod]
          rw [hnx] at h
          have hn : b1.st.n = b.st.n := by rw [s1]
          have hq := c.hq
          have hfl := q2.hfull
          cases j with
          | zero => omega
          | succ j =>
          obtain ⟨E, g1, g2, g3, g4, g5, g6, g7⟩ := burst_all hall j (fuel := fuel) (J := J + 1) (c.same s1) (by omega) (by omega)
            (by
              rw [hn]
              by_cases hlt : J + 1 < b.st.n
              · exact .inl hlt
              · right
                have : b.st.n = J + 1 := by omega
                rw [this]
                intro hm
                have h3 : (J % k.c.q + 1) % k.c.q = 1 := by rw [Nat.mod_add_mod]; exact hm
                have h4 := Nat.mod_lt J (show 0 < k.c.q by omega)
                by_cases h5 : J % k.c.q + 1 < k.c.q
                · rw [Nat.mod_eq_of_lt h5] at h3; omega
                · rw [show J % k.c.q + 1 = k.c.q by omega, Nat.mod_self] at h3; omega)
            h (by omega)
          rw [hn] at g2 g7
          refine ⟨E, by omega, g2, ?_, g4, g5, fun x x1 x2 => ?_, g7⟩
          · rw [g3, q2.hlog, avs_av, List.append_assoc]
            congr 1
            rw [show E - J = (E - (J + 1)) + 1 by omega, List.range'_succ]
            rfl
          · by_cases e : x = J
            · rw [e]; exact h0
            · exact g6 x (by omega) x2

theorem linkOpt_put {o : Option Nat} (ha : ∀ f, o = some f → alive b (.av f) = true) {r : Bool} (h : linkOpt k b p (o.map .av) = some (b', p', r)) (hf : p'.full = p.full) :
    r = true ∧ avs p'.log = avs p.log ++ o.toList ∧ SameB b b' ∧ SameP p p' := by
  obtain ⟨b1, p1, r1, e1, s1, q1, q2⟩ := linkOpt_spec (k := k) (p := p) ha
  rw [e1] at h
  simp only [Option.some.injEq, Prod.mk.injEq] at h
  obtain ⟨rfl, rfl, rfl⟩ := h
  rcases q2 with ⟨_, q⟩ | ⟨e, ⟨o', q⟩ | ⟨f, o', q⟩⟩
  · have := q.hfull; omega
  · exact ⟨e, by rw [q, o']; simp, s1, q1⟩
  · exact ⟨e, by rw [q.hlog, avs_av, o']; rfl, s1, q1⟩

theorem first_turn {S : Prop} (hall : k.sendAll = true) (c : Ctx k b D m I S) (hD : D < b.st.n) (hst : p.state = 1) (h : gopSend k b p = some (b', p')) (hf : p'.full = p.full) :
    ∃ E, D ≤ E ∧ E ≤ b.st.n ∧ avs p'.log = avs p.log ++ b.st.aac.toList ++ b.st.avc.toList ++ List.range' D (E - D) ∧ p'.state = 3 ∧ p'.pos = E % k.c.q ∧
      (∀ x, D ≤ x → x < E → x % k.c.q ≠ 0) ∧ (E = b.st.n ∨ E % k.c.q = 0) := by
  unfold gopSend at h
  rw [if_neg (by omega), if_neg (by omega), if_pos hst] at h
  have hx := sendFirst_ext h
  unfold sendFirst at h
  dsimp only at h
  rw [c.g.hpos, c.g.ring (Nat.le_refl D) hD] at h
  dsimp only at h
  split at h
  · cases h
  · rename_i b1 p1 e
    exfalso
    cases h
    have := linkOpt_put (fun f hf => (c.g.liveA hf).1) e hf
    cases this.1
  · rename_i b1 p1 e
    split at h
    · cases h
    · rename_i b2 p2 e'
      exfalso
      cases h
      have f1 := (linkOpt_ext e).hfull
      have f2 := (linkOpt_ext e').hfull
      dsimp only at f1
      obtain ⟨_, _, s1, _⟩ := linkOpt_put (fun f hf => (c.g.liveA hf).1) e (by dsimp only; omega)
      have hb1 : b1.st = b.st := by rw [s1]
      have := linkOpt_put (fun f hf => ((c.same s1).g.liveV hf).1) e' (by omega)
      cases this.1
    · rename_i b2 p2 e'
      have f1 := (linkOpt_ext e).hfull
      have f2 := (linkOpt_ext e').hfull
      have f3 := (burst_ext h).hfull
      dsimp only at f1 f3
      obtain ⟨_, a1, s1, q1⟩ := linkOpt_put (fun f hf => (c.g.liveA hf).1) e (by dsimp only; omega)
      have hb1 : b1.st = b.st := by rw [s1]
      obtain ⟨_, a2, s2, q2⟩ := linkOpt_put (fun f hf => ((c.same s1).g.liveV hf).1) e' (by omega)
      have hss := s1.trans s2
      have hb2 : b2.st = b.st := by rw [hss]
      have hpos : p2.pos = D % k.c.q := by rw [q2.hpos, q1.hpos]
      rw [hpos] at h
      obtain ⟨E, g1, g2, g3, g4, g5, g6, g7⟩ := burst_all hall (b.st.n - D) (c.same hss) (Nat.le_refl D) (by rw [hb2]; omega) (.inl (by rw [hb2]; exact hD)) h (by dsimp only; omega)
      rw [hb2] at g2 g7
      refine ⟨E, g1, g2, ?_, g4, g5, g6, g7⟩
      rw [g3]
      dsimp only
      rw [a2, a1, hb1]

/-! ### The strict case -/

theorem published_append : ∀ a b : List Op, published (a ++ b) = published a ++ published b
  | [], _ => rfl
  | o :: a, b => by rw [List.cons_append, published_cons, published_cons, published_append a b, List.append_assoc]

theorem run_append : ∀ (a b : List Op) (w : World), run k w (a ++ b) = (run k w a).bind (fun w => run k w b)
  | [], _, _ => rfl
  | o :: a, b, w => by
    show (match GopSend.step k w o with | none => none | some w => run k w (a ++ b)) = Option.bind (match GopSend.step k w o with | none => none | some w => run k w a) _
    cases GopSend.step k w o with
    | none => rfl
    | some w1 => exact run_append a b w1

theorem allTaken_append : ∀ {a b : List Op} {w w' : World}, AllTaken k w (a ++ b) → AllTaken k w a ∧ (run k w a = some w' → AllTaken k w' b)
  | [], _, _, _, h => ⟨trivial, fun e => by cases e; exact h⟩
  | o :: a, b, w, w', h => by
    refine ⟨⟨h.1, fun w1 e => (allTaken_append (w' := w1) (h.2 w1 e)).1⟩, fun e => ?_⟩
    unfold run at e
    split at e
    · cases e
    · rename_i w1 e1
      exact (allTaken_append (h.2 w1 e1)).2 e

theorem once_append : ∀ {a b : List Op} {seen : List Nat}, Once seen (a ++ b) → Once seen a ∧ Once (seenAll seen a) b
  | [], _, _, h => ⟨trivial, h⟩
  | .join i :: a, b, seen, h => by
    obtain ⟨h1, h2⟩ := once_append (a := a) (seen := i :: seen) h.2
    exact ⟨⟨h.1, h1⟩, h2⟩
  | .resume i :: a, b, seen, h => once_append (a := a) (seen := i :: seen) h
  | .pub _ _ :: a, b, seen, h => once_append (a := a) (seen := seen) h
  | .data _ :: a, b, seen, h => once_append (a := a) (seen := seen) h
  | .pause _ :: a, b, seen, h => once_append (a := a) (seen := seen) h
  | .drain _ _ :: a, b, seen, h => once_append (a := a) (seen := seen) h

theorem not_seen {i : Nat} : ∀ {a : List Op} {seen : List Nat}, i ∉ seen → (∀ o ∈ a, Steady i o) → Op.join i ∉ a → i ∉ seenAll seen a
  | [], _, h, _, _ => h
  | o :: a, seen, h, hs, hj => by
    refine not_seen (a := a) (seen := seenBy seen o) ?_ (fun o' h' => hs o' (List.mem_cons_of_mem _ h')) (fun e => hj (List.mem_cons_of_mem _ e))
    cases o with
    | join j =>
      intro e
      rcases List.mem_cons.1 e with e | e
      · exact hj (e ▸ List.mem_cons_self)
      · exact h e
    | resume j =>
      intro e
      rcases List.mem_cons.1 e with e | e
      · exact hs _ List.mem_cons_self e.symm
      · exact h e
    | _ => exact h

/-- The invariant with no player in the strict case. -/
theorem plain_run {ops : List Op} (hq : 3 ≤ k.c.q) (hr : Regular (published ops)) (hg : Tagged (published ops)) (ht : AllTaken k {} ops) (ho : Once [] ops) :
    ∃ w, run k {} ops = some w ∧ WI k (nth (published ops)) (fun _ => False) (seenAll [] ops) w (published ops) := by
  have hs : Stream k (published ops) (fun _ => False) := ⟨hq, hr, hg.nth, ⟨fun _ h => h.elim, fun _ h => h.elim⟩⟩
  exact run_inv hs (os := ops) (rest := []) (WI.init hs) (by simp) ht (fun o _ => by cases o <;> simp [Allowed]) ho

/-- The invariant with the player `i` in the strict case. -/
theorem strict_run {a c : List Op} {i : Nat} (hq : 3 ≤ k.c.q) (hlow : k.low = false) (hr : HeadersFirst (published (a ++ c))) (hg : Tagged (published (a ++ c))) (ht : AllTaken k {} (a ++ c))
    (ho : Once [] (a ++ c)) (hsd : ∀ o ∈ a ++ c, Steady i o) (hj : Op.join i ∉ a) (hd : ∀ o ∈ c, NoData o) :
    ∃ w, run k {} (a ++ c) = some w ∧ WI k (nth (published (a ++ c))) (fun j => j = i) (seenAll (seenAll [] a) c) w (published (a ++ c)) := by
  have hL := published_append a c
  have hs0 : Stream k (published (a ++ c)) (fun _ => False) := ⟨hq, hr.regular, hg.nth, ⟨fun _ h => h.elim, fun _ h => h.elim⟩⟩
  have hs1 : Stream k (published (a ++ c)) (fun j => j = i) := ⟨hq, hr.regular, hg.nth, ⟨fun _ _ => hlow, fun _ _ x hx hh => (hr x hx hh).2⟩⟩
  have hA := allTaken_append (w' := ({} : World)) ht
  have hO := once_append ho
  obtain ⟨w1, e1, h1⟩ := run_inv hs0 (os := a) (rest := published c) (WI.init hs0) (by rw [hL]; rfl) hA.1 (fun o _ => by cases o <;> simp [Allowed]) hO.1
  have hni := not_seen (seen := []) List.not_mem_nil (fun o h => hsd o (List.mem_append.2 (.inl h))) hj
  have hfr := h1.fresh i hni
  have h2 : WI k (nth (published (a ++ c))) (fun j => j = i) (seenAll [] a) w1 ([] ++ published a) := by
    obtain ⟨⟨D, m, cx, hp⟩, hh, hnd, hfs, hstr⟩ := h1
    refine ⟨⟨D, m, fun j => ?_, fun j => ?_⟩, hh, hnd, hfs, fun j e => ?_⟩
    · refine ⟨(cx j).g, hq, (cx j).hI, hg.nth, fun _ => ⟨hlow, fun x x1 x2 => ?_⟩⟩
      by_cases hx : (nth (published (a ++ c)) x).header = true
      · obtain ⟨y, y1, y2⟩ := (cx j).g.hhdr x x1 x2 (by rw [(cx j).hI x x2]; exact hx)
        have hxl : x < (published (a ++ c)).length := by
          have := hh.hn
          rw [hL, List.length_append]
          simp only [List.nil_append] at this
          omega
        have := (hr x hxl hx).2 y y1
        unfold isKey at y2
        rw [(cx j).hI y (by omega), this] at y2
        simp at y2
      · simpa using hx
    · by_cases e : j = i
      · subst e
        rw [hfr.1]; exact PI.fresh
      · have e' : (j = i) = False := eq_false e
        rw [e']; exact hp j
    · subst e
      exact .inr (by rw [hfr.1])
  have hAT := (allTaken_append (w' := w1) ht).2 e1
  obtain ⟨w2, e2, h3⟩ := run_inv hs1 (os := c) (rest := []) h2 (by rw [hL]; simp) hAT (fun o hm => by
    have s := hsd o (List.mem_append.2 (.inr hm))
    have d := hd o hm
    cases o with
    | data t => exact d.elim
    | pause j => exact s
    | resume j => exact s
    | _ => trivial) hO.2
  refine ⟨w2, ?_, ?_⟩
  · rw [run_append, e1]; exact e2
  · rw [hL] at h3 ⊢; exact h3

/-- A check for `AllTaken`. -/
def takenB (k : Conf) : World → List Op → Bool
  | _, [] => true
  | w, o :: os =>
    (match o with
      | .pub fr t => match cachePub k w.b fr t with | some b => b.st.acq w.b.st.n == 1 | none => true
      | _ => true) &&
    (match GopSend.step k w o with | some w' => takenB k w' os | none => true)

theorem takenB_spec : ∀ {os : List Op} {w : World}, takenB k w os = true → AllTaken k w os
  | [], _, _ => trivial
  | o :: os, w, h => by
    unfold takenB at h
    rw [Bool.and_eq_true] at h
    refine ⟨?_, fun w' e => ?_⟩
    · cases o with
      | pub fr t =>
        intro b e
        have h1 := h.1
        dsimp only at h1
        rw [e] at h1
        simpa using h1
      | _ => trivial
    · have h2 := h.2
      rw [e] at h2
      exact takenB_spec h2

/-! ### Metadata -/

theorem mds_append : ∀ a b : List Item, mds (a ++ b) = mds a ++ mds b
  | [], _ => rfl
  | .av _ :: a, b => mds_append a b
  | .md m :: a, b => by show m :: mds (a ++ b) = m :: mds a ++ mds b; rw [mds_append a b]; rfl

/-- Nothing about metadata changed. -/
structure NoMd (b : Pub) (p : Player) (b' : Pub) (p' : Player) : Prop where
  hmd : mds p'.log = mds p.log
  hver : p'.ver = p.ver
  hb : b'.ver = b.ver ∧ b'.metaMsg = b.metaMsg

theorem NoMd.trans {b b1 b2 : Pub} {p p1 p2 : Player} (h : NoMd b p b1 p1) (g : NoMd b1 p1 b2 p2) : NoMd b p b2 p2 :=
  ⟨g.hmd.trans h.hmd, g.hver.trans h.hver, g.hb.1.trans h.hb.1, g.hb.2.trans h.hb.2⟩

theorem NoMd.pre {b : Pub} {p q : Player} (h : NoMd b q b' p') (h1 : q.log = p.log) (h2 : q.ver = p.ver) : NoMd b p b' p' := ⟨by rw [h.hmd, h1], by rw [h.hver, h2], h.hb⟩
theorem NoMd.post {b : Pub} {p q : Player} (h : NoMd b p b' q) (h1 : p'.log = q.log) (h2 : p'.ver = q.ver) : NoMd b p b' p' := ⟨by rw [h1, h.hmd], by rw [h2, h.hver], h.hb⟩
theorem NoMd.refl (b : Pub) (p : Player) : NoMd b p b p := ⟨rfl, rfl, rfl, rfl⟩

/-- A message is put in or not. -/
theorem link_log {r : Bool} {x : Item} (h : link k b p x = some (b', p', r)) : p'.ver = p.ver ∧ (b'.ver = b.ver ∧ b'.metaMsg = b.metaMsg) ∧
    ((r = true ∧ p'.log = p.log ++ [x] ∧ p'.full = p.full) ∨ (r = false ∧ p'.log = p.log ∧ p'.full = p.full + 1)) := by
  obtain ⟨h1, c1, c2, h2⟩ := restamp_spec k b p x
  have hv : ∀ q : Player, (noteHeader b q x).ver = q.ver ∧ (noteHeader b q x).log = q.log ∧ (noteHeader b q x).full = q.full := by
    intro q
    cases x with
    | md m => exact ⟨rfl, rfl, rfl⟩
    | av f =>
      unfold noteHeader
      dsimp only
      split
      · split <;> exact ⟨rfl, rfl, rfl⟩
      · exact ⟨rfl, rfl, rfl⟩
  unfold link at h
  split at h
  · cases h
  · dsimp only at h
    rw [h2] at h
    split at h
    · cases h
      exact ⟨rfl, by rw [h1]; exact ⟨rfl, rfl⟩, .inr ⟨rfl, rfl, rfl⟩⟩
    · cases h
      obtain ⟨v1, v2, v3⟩ := hv { p with csV := c1, csA := c2 }
      refine ⟨v1, by rw [h1]; exact ⟨rfl, rfl⟩, .inl ⟨rfl, ?_, v3⟩⟩
      dsimp only
      rw [v2]

theorem link_nomd {r : Bool} {f : Nat} (h : link k b p (.av f) = some (b', p', r)) : NoMd b p b' p' := by
  obtain ⟨h1, h2, h3⟩ := link_log h
  refine ⟨?_, h1, h2⟩
  rcases h3 with ⟨_, e, _⟩ | ⟨_, e, _⟩
  · rw [e, mds_append]; exact List.append_nil _
  · rw [e]

theorem linkOpt_nomd {r : Bool} {o : Option Nat} (h : linkOpt k b p (o.map .av) = some (b', p', r)) : NoMd b p b' p' := by
  cases o with
  | none => cases h; exact NoMd.refl _ _
  | some f => exact link_nomd h

theorem linkNew_nomd {r : Bool} {a l : Option Nat} (h : linkNew k b p a l = some (b', p', r)) : NoMd b p b' p' := by
  unfold linkNew at h
  split at h
  · cases h; exact NoMd.refl _ _
  · exact linkOpt_nomd h

theorem burst_nomd : ∀ {n : Nat} {b : Pub} {p : Player} {pos : Nat}, burst k n b p pos = some (b', p') → NoMd b p b' p'
  | 0, _, _, _, h => by cases h
  | n + 1, b, p, pos, h => by
    unfold burst at h
    split at h
    · cases h; exact ⟨rfl, rfl, rfl, rfl⟩
    · split at h
      · cases h; exact ⟨rfl, rfl, rfl, rfl⟩
      · split at h
        · cases h; exact ⟨rfl, rfl, rfl, rfl⟩
        · split at h
          · cases h
          · rename_i e; cases h; exact (link_nomd e).post rfl rfl
          · rename_i e; exact (link_nomd e).trans (burst_nomd h)

theorem sendFirst_nomd (h : sendFirst k b p = some (b', p')) : NoMd b p b' p' := by
  unfold sendFirst at h
  dsimp only at h
  split at h
  · cases h; exact ⟨rfl, rfl, rfl, rfl⟩
  · split at h
    · cases h
    · rename_i e; cases h; exact (linkOpt_nomd e).pre rfl rfl
    · rename_i e
      split at h
      · cases h
      · rename_i e'; cases h; exact ((linkOpt_nomd e).trans (linkOpt_nomd e')).pre rfl rfl
      · rename_i e'
        have e2 := burst_nomd h
        exact ((linkOpt_nomd e).trans ((linkOpt_nomd e').trans (e2.pre rfl rfl))).pre rfl rfl

theorem sendRest_nomd (h : sendRest k b p = some (b', p')) : NoMd b p b' p' := by
  unfold sendRest at h
  split at h
  · have e2 := burst_nomd h
    exact e2.pre rfl rfl
  · exact burst_nomd h

theorem sendOne_nomd (h : sendOne k b p = some (b', p')) : NoMd b p b' p' := by
  unfold sendOne at h
  split at h
  · cases h
  · rename_i e; cases h; exact linkOpt_nomd e
  · rename_i e; cases h; exact (linkOpt_nomd e).post rfl rfl

theorem sendHeaders_nomd {a v : Option Nat} {pos : Nat} (h : sendHeaders k b p a v pos = some (b', p')) : NoMd b p b' p' := by
  unfold sendHeaders at h
  split at h
  · cases h
  · rename_i e; cases h; exact linkNew_nomd e
  · rename_i e
    split at h
    · cases h
    · rename_i e'; cases h; exact (linkNew_nomd e).trans (linkNew_nomd e')
    · rename_i e'
      have e2 := sendOne_nomd h
      exact (linkNew_nomd e).trans ((linkNew_nomd e').trans (e2.pre rfl rfl))

theorem sendNext_nomd (h : sendNext k b p = some (b', p')) : NoMd b p b' p' := by
  unfold sendNext at h
  dsimp only at h
  split at h
  · cases h
  · split at h
    · split at h
      · have e2 := sendHeaders_nomd h
        exact e2.pre rfl rfl
      · exact sendOne_nomd h
    · split at h
      · exact sendHeaders_nomd h
      · exact sendOne_nomd h

/-- The metadata of a turn. -/
def MdTurn (b : Pub) (p p' : Player) : Prop := (mds p'.log = mds p.log ∧ p'.ver = p.ver) ∨ (p.ver ≠ b.ver ∧ mds p'.log = mds p.log ++ b.metaMsg.toList ∧ p'.ver = b.ver)

theorem sendMeta_md {r : Bool} (h : sendMeta k b p = some (b', p', r)) : MdTurn b p p' ∧ (b'.ver = b.ver ∧ b'.metaMsg = b.metaMsg) ∧ (p'.full = p.full → r = true) ∧ (r = true → p'.ver = b.ver) := by
  unfold sendMeta at h
  split at h
  · rename_i e
    cases h
    exact ⟨.inl ⟨rfl, rfl⟩, ⟨rfl, rfl⟩, fun _ => rfl, fun _ => e⟩
  · rename_i e
    cases hm : b.metaMsg with
    | none =>
      rw [hm] at h
      cases h
      exact ⟨.inr ⟨e, by rw [hm]; simp, rfl⟩, ⟨rfl, hm⟩, fun _ => rfl, fun _ => rfl⟩
    | some v =>
      rw [hm] at h
      simp only [Option.map_some, linkOpt] at h
      split at h
      · cases h
      · rename_i e1
        cases h
        obtain ⟨h1, h2, h3⟩ := link_log e1
        rcases h3 with ⟨c, _⟩ | ⟨_, e2, e3⟩
        · cases c
        · exact ⟨.inl ⟨by rw [e2], h1⟩, ⟨h2.1, h2.2.trans hm⟩, fun e => by omega, fun e => by cases e⟩
      · rename_i e1
        cases h
        obtain ⟨h1, h2, h3⟩ := link_log e1
        rcases h3 with ⟨_, e2, e3⟩ | ⟨c, _⟩
        · refine ⟨.inr ⟨e, ?_, h2.1⟩, ⟨h2.1, h2.2.trans hm⟩, fun _ => rfl, fun _ => h2.1⟩
          dsimp only
          rw [e2, mds_append, hm]; rfl
        · cases c

theorem MdTurn.nomd {b1 b2 : Pub} {q q' : Player} (h : MdTurn b p q) (g : NoMd b1 q b2 q') : MdTurn b p q' := by
  rcases h with ⟨a1, a2⟩ | ⟨a1, a2, a3⟩
  · exact .inl ⟨g.hmd.trans a1, g.hver.trans a2⟩
  · exact .inr ⟨a1, g.hmd.trans a2, g.hver.trans a3⟩

theorem gopSend_md (h : gopSend k b p = some (b', p')) : MdTurn b p p' ∧ (b'.ver = b.ver ∧ b'.metaMsg = b.metaMsg) ∧ (p.state = 3 → p'.full = p.full → p'.ver = b.ver) ∧
    (p.state = 0 → p'.full = p.full → p'.ver = b.ver) := by
  unfold gopSend at h
  split at h
  · rename_i h3
    split at h
    · cases h
    · rename_i e
      cases h
      obtain ⟨a1, a2, a3, a4⟩ := sendMeta_md e
      exact ⟨a1, a2, fun _ hf => a4 (a3 hf), fun h => by omega⟩
    · rename_i e
      have g := sendNext_nomd h
      obtain ⟨a1, a2, a3, a4⟩ := sendMeta_md e
      refine ⟨a1.nomd g, ⟨g.hb.1.trans a2.1, g.hb.2.trans a2.2⟩, fun _ _ => by rw [g.hver]; exact a4 rfl, fun h => by omega⟩
  · rename_i h3
    split at h
    · rename_i h0
      split at h
      · cases h
      · rename_i e
        cases h
        obtain ⟨a1, a2, a3, a4⟩ := sendMeta_md e
        exact ⟨a1, a2, fun h => absurd h h3, fun _ hf => a4 (a3 hf)⟩
      · rename_i e
        cases h
        obtain ⟨a1, a2, a3, a4⟩ := sendMeta_md e
        exact ⟨a1, a2, fun h => absurd h h3, fun _ _ => a4 rfl⟩
    · rename_i h0
      have g : NoMd b p b' p' := by
        split at h
        · exact sendFirst_nomd h
        · exact sendRest_nomd h
      exact ⟨.inl ⟨g.hmd, g.hver⟩, g.hb, fun h => absurd h h3, fun h => absurd h h0⟩

/-- The metadata a player has got. -/
structure MdInv (b : Pub) (p : Player) : Prop where
  hver : p.ver ≤ b.ver
  hlt : ∀ m ∈ mds p.log, m < p.ver
  hsort : (mds p.log).Pairwise (· < ·)
  hlast : 0 < p.ver → (mds p.log).getLast? = some (p.ver - 1)

/-- The publisher's newest metadata. -/
def MdPub (b : Pub) : Prop := b.metaMsg = if b.ver = 0 then none else some (b.ver - 1)

theorem MdInv.turn (h : MdInv b p) (hb : MdPub b) (t : MdTurn b p p') : MdInv b p' := by
  rcases t with ⟨a1, a2⟩ | ⟨a1, a2, a3⟩
  · exact ⟨by rw [a2]; exact h.hver, by rw [a1, a2]; exact h.hlt, by rw [a1]; exact h.hsort, by rw [a1, a2]; exact h.hlast⟩
  · have hv := h.hver
    have hpos : 0 < b.ver := by omega
    unfold MdPub at hb
    rw [if_neg (by omega)] at hb
    rw [hb] at a2
    refine ⟨by omega, ?_, ?_, fun _ => ?_⟩
    · rw [a2, a3]
      intro m hm
      rcases List.mem_append.1 hm with e | e
      · have := h.hlt m e; omega
      · have : m = b.ver - 1 := by simpa using e
        omega
    · rw [a2, List.pairwise_append]
      refine ⟨h.hsort, by simp, fun x hx y hy => ?_⟩
      have : y = b.ver - 1 := by simpa using hy
      have := h.hlt x hx
      omega
    · rw [a2, a3]; simp

theorem MdInv.same {b1 : Pub} (h : MdInv b p) (hb : b1.ver = b.ver) : MdInv b1 p := ⟨by rw [hb]; exact h.hver, h.hlt, h.hsort, h.hlast⟩

theorem fan_md : ∀ {is : List Nat} {b : Pub} {pl pl' : Nat → Player}, MdPub b → (∀ j, MdInv b (pl j)) → fan k is b pl = some (b', pl') →
    (b'.ver = b.ver ∧ b'.metaMsg = b.metaMsg) ∧ ∀ j, MdInv b (pl' j)
  | [], _, _, _, _, h, e => by cases e; exact ⟨⟨rfl, rfl⟩, h⟩
  | i :: is, b, pl, pl', hb, h, e => by
    unfold fan at e
    split at e
    · cases e
    · rename_i b1 p1 e1
      obtain ⟨a1, a2, _⟩ := gopSend_md e1
      have hb1 : MdPub b1 := by unfold MdPub; rw [a2.1, a2.2]; exact hb
      obtain ⟨c1, c2⟩ := fan_md (is := is) hb1 (pl := set pl i p1) (fun j => by
        by_cases ej : j = i
        · subst ej; rw [set_same]; exact ((h j).turn hb a1).same a2.1
        · rw [set_ne _ _ ej]; exact (h j).same a2.1) e
      exact ⟨⟨c1.1.trans a2.1, c1.2.trans a2.2⟩, fun j => (c2 j).same a2.1.symm⟩

theorem step_md {w w' : World} {o : Op} (hb : MdPub w.b) (h : ∀ j, MdInv w.b (w.pl j)) (e : GopSend.step k w o = some w') : MdPub w'.b ∧ ∀ j, MdInv w'.b (w'.pl j) := by
  cases o with
  | pub fr t =>
    unfold GopSend.step at e
    dsimp only at e
    split at e
    · cases e
    · rename_i b1 e1
      have hv : b1.ver = w.b.ver ∧ b1.metaMsg = w.b.metaMsg := by
        obtain ⟨rc, _, ev, em, _⟩ := cachePub_some e1
        exact ⟨ev, em⟩
      split at e
      · cases e
      · rename_i b2 pl2 e2
        cases e
        obtain ⟨c1, c2⟩ := fan_md (by unfold MdPub; rw [hv.1, hv.2]; exact hb) (fun j => (h j).same hv.1) e2
        refine ⟨?_, fun j => (c2 j).same c1.1⟩
        unfold MdPub
        rw [c1.1, c1.2, hv.1, hv.2]; exact hb
  | data t =>
    cases e
    refine ⟨rfl, fun j => ?_⟩
    have := h j
    exact ⟨by have := this.hver; dsimp only; omega, this.hlt, this.hsort, this.hlast⟩
  | join i =>
    unfold GopSend.step at e
    dsimp only at e
    split at e
    · cases e; exact ⟨hb, h⟩
    · split at e
      · cases e; exact ⟨hb, h⟩
      · split at e
        · cases e
        · rename_i b1 p1 e1
          cases e
          obtain ⟨a1, a2, _⟩ := gopSend_md e1
          refine ⟨by unfold MdPub; dsimp only; rw [a2.1, a2.2]; exact hb, fun j => ?_⟩
          dsimp only
          by_cases ej : j = i
          · subst ej; rw [set_same]; exact ((h j).turn hb a1).same a2.1
          · rw [set_ne _ _ ej]; exact (h j).same a2.1
  | pause i => cases e; exact ⟨hb, h⟩
  | resume i =>
    unfold GopSend.step at e
    dsimp only at e
    split at e <;> (cases e; exact ⟨hb, h⟩)
  | drain i n =>
    cases e
    refine ⟨hb, fun j => ?_⟩
    dsimp only
    by_cases ej : j = i
    · subst ej; rw [set_same]; exact ⟨(h j).hver, (h j).hlt, (h j).hsort, (h j).hlast⟩
    · rw [set_ne _ _ ej]; exact h j

theorem run_md : ∀ {os : List Op} {w w' : World}, MdPub w.b → (∀ j, MdInv w.b (w.pl j)) → run k w os = some w' → MdPub w'.b ∧ ∀ j, MdInv w'.b (w'.pl j)
  | [], _, _, hb, h, e => by cases e; exact ⟨hb, h⟩
  | o :: os, w, w', hb, h, e => by
    unfold run at e
    split at e
    · cases e
    · rename_i e1
      obtain ⟨c1, c2⟩ := step_md hb h e1
      exact run_md c1 c2 e

end Verif.GopSend
