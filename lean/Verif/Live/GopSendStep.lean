import Verif.Live.GopSendPlayer
/- `ngx_rtmp_gop_send` keeps the invariant of a player (C62). -/
namespace Verif.GopSend
open Verif Verif.Gop

variable {k : Conf} {b : Pub} {D m : Nat} {I : Nat → Fr} {S : Prop} {p p' : Player} {J : Nat}

/-- What is known of the publisher's side. -/
structure Ctx (k : Conf) (b : Pub) (D m : Nat) (I : Nat → Fr) (S : Prop) : Prop where
  g : Good k b D m
  hq : 3 ≤ k.c.q
  hI : ∀ x, x < b.st.n → b.st.info x = I x
  hK : ∀ x, (I x).key = true → (I x).video = true
  hS : S → k.low = false ∧ ∀ x, m ≤ x → x < b.st.n → (I x).header = false

theorem Ctx.same {b' : Pub} (c : Ctx k b D m I S) (h : SameB b b') : Ctx k b' D m I S := by
  refine ⟨c.g.same h, c.hq, ?_, c.hK, ?_⟩
  · rw [h]; exact c.hI
  · rw [h]; exact c.hS

/-- The invariant of a player; `e` is 1 between the publication of a frame and the player's turn, otherwise 0. -/
structure PI (k : Conf) (b : Pub) (D m : Nat) (I : Nat → Fr) (S : Prop) (e : Nat) (p : Player) : Prop where
  base : Base I b.st.n p
  st : p.state ≤ 3
  ver : S → p.state ≠ 0 → p.ver = b.ver
  low : p.state ≤ 1 → (∀ x ∈ avs p.log, (I x).header = true) ∧ (S → ∀ x ∈ avs p.log, (b.st.aac = some x ∨ b.st.avc = some x) ∧ m < b.st.n)
  high : 2 ≤ p.state → ∃ J, p.pos = J % k.c.q ∧ Pl b D m I S p J ∧ J + e ≤ b.st.n ∧ (S → b.st.n + 1 ≤ J + k.c.q + e) ∧ m < b.st.n

theorem PI.same {b' : Pub} {e : Nat} (h : PI k b D m I S e p) (hb : SameB b b') : PI k b' D m I S e p := by
  refine ⟨?_, h.st, ?_, ?_, fun h2 => ?_⟩
  · rw [hb]; exact h.base
  · rw [hb]; exact h.ver
  · rw [hb]; exact h.low
  · obtain ⟨J, j1, j2, j3, j4, j5⟩ := h.high h2
    have j2' := j2.same hb
    rw [hb]
    rw [hb] at j2'
    exact ⟨J, j1, j2', j3, j4, j5⟩

/-- The loop. -/
theorem burst_spec : ∀ (j : Nat) {fuel : Nat} {b : Pub} {p : Player} {J : Nat}, Ctx k b D m I S → Base I b.st.n p → Pl b D m I S p J → D ≤ J → J + j = b.st.n →
    (J < b.st.n ∨ b.st.n % k.c.q ≠ 1) → j < fuel →
    ∃ b' p' J', burst k fuel b p (J % k.c.q) = some (b', p') ∧ SameB b b' ∧ Base I b.st.n p' ∧ Pl b D m I S p' J' ∧ p'.pos = J' % k.c.q ∧ J ≤ J' ∧ J' ≤ b.st.n ∧
      (p'.state = 3 ∨ p'.state = p.state) ∧ p'.ver = p.ver
  | _, 0, _, _, _, _, _, _, _, _, _, hf => absurd hf (Nat.not_lt_zero _)
  | 0, fuel + 1, b, p, J, c, hb, h, hD, hj, h1, _ => by
    have hJ : J = b.st.n := hj
    have fin : ∃ b' p' J', some (b, { p with state := 3, pos := J % k.c.q }) = some (b', p') ∧ SameB b b' ∧ Base I b.st.n p' ∧ Pl b D m I S p' J' ∧ p'.pos = J' % k.c.q ∧ J ≤ J' ∧
        J' ≤ b.st.n ∧ (p'.state = 3 ∨ p'.state = p.state) ∧ p'.ver = p.ver :=
      ⟨_, _, J, rfl, SameB.refl _, hb.core rfl rfl rfl, h.core rfl rfl rfl, rfl, Nat.le_refl _, by omega, .inl rfl, rfl⟩
    unfold burst
    cases hc : b.st.cache (J % k.c.q) with
    | none => exact fin
    | some x =>
      dsimp only
      have hp : J % k.c.q = 0 := by
        obtain ⟨x1, x2, x3, x4⟩ := c.g.hslots _ _ hc
        have hbd := c.g.bound
        have hxm : x < 2 := by
          have := c.g.hm
          rcases x4 with h | h
          · exfalso
            have := mod_inj x2 (by omega) (by omega)
            omega
          · omega
        have hq := c.hq
        rw [Nat.mod_eq_of_lt (by omega)] at x2
        rcases h1 with h | h
        · omega
        · rw [hJ] at x2 ⊢
          omega
      rw [if_pos hp]
      exact fin
  | j + 1, fuel + 1, b, p, J, c, hb, h, hD, hj, h1, hf => by
    have hJn : J < b.st.n := by omega
    have fin : ∃ b' p' J', some (b, { p with state := 3, pos := J % k.c.q }) = some (b', p') ∧ SameB b b' ∧ Base I b.st.n p' ∧ Pl b D m I S p' J' ∧ p'.pos = J' % k.c.q ∧ J ≤ J' ∧
        J' ≤ b.st.n ∧ (p'.state = 3 ∨ p'.state = p.state) ∧ p'.ver = p.ver :=
      ⟨_, _, J, rfl, SameB.refl _, hb.core rfl rfl rfl, h.core rfl rfl rfl, rfl, Nat.le_refl _, by omega, .inl rfl, rfl⟩
    unfold burst
    rw [c.g.ring hD hJn]
    dsimp only
    by_cases h0 : J % k.c.q = 0
    · rw [if_pos h0]; exact fin
    · rw [if_neg h0]
      split
      · exact fin
      · obtain ⟨b1, p1, r, e1, hs, hp, hr⟩ := link_spec (k := k) (p := p) (c.g.live hD hJn)
        rw [e1]
        rcases hr with ⟨er, hr⟩ | ⟨er, hr⟩
        · subst er
          exact ⟨_, _, J, rfl, hs, hb.core hr.hlog hr.hA hr.hV, (h.core hr.hlog hr.hA hr.hV).core rfl rfl rfl, rfl, Nat.le_refl _, by omega, .inr hp.hstate, hp.hver⟩
        · subst er
          dsimp only
          have hn : b1.st.n = b.st.n := by rw [hs]
          have hb1 : Base I b.st.n p1 := hb.put c.hI (fun x hx => by cases hx; exact hJn) hr
          have hp1 : Pl b D m I S p1 (J + 1) := h.adv c.g c.hI c.hK (fun s => (c.hS s).2) hb hD hJn hr
          have hnx : nxt k.c (J % k.c.q) = (J + 1) % k.c.q := by unfold nxt; rw [Nat.mod_add_mod]
          rw [hnx]
          have hq := c.hq
          obtain ⟨b2, p2, J2, g1, g2, g3, g4, g5, g6, g7, g8, g9⟩ := burst_spec j (fuel := fuel) (b := b1) (p := p1) (J := J + 1) (c.same hs)
            (by rw [hn]; exact hb1) (hp1.same hs) (by omega) (by omega)
            (by
              rw [hn]
              by_cases hlt : J + 1 < b.st.n
              · exact .inl hlt
              · right
                have : b.st.n = J + 1 := by omega
                rw [this]
                intro hm
                have h3 : (J % k.c.q + 1) % k.c.q = 1 := by rw [Nat.mod_add_mod]; exact hm
                have h4 := Nat.mod_lt J (show 0 < k.c.q by omega)
                by_cases h5 : J % k.c.q + 1 < k.c.q
                · rw [Nat.mod_eq_of_lt h5] at h3; omega
                · rw [show J % k.c.q + 1 = k.c.q by omega, Nat.mod_self] at h3; omega)
            (by omega)
          rw [hn] at g3 g7
          refine ⟨b2, p2, J2, g1, hs.trans g2, g3, ?_, g5, by omega, g7, ?_, ?_⟩
          · have e : SameB b1 b := by
              unfold SameB
              rw [hs]
            exact g4.same e
          · rcases g8 with h | h
            · exact .inl h
            · exact .inr (h.trans hp.hstate)
          · exact g9.trans hp.hver

/-- The post-condition of a turn. -/
def Done (k : Conf) (b : Pub) (D m : Nat) (I : Nat → Fr) (S : Prop) (r : Option (Pub × Player)) : Prop :=
  ∃ b' p', r = some (b', p') ∧ SameB b b' ∧ PI k b D m I S 0 p'

theorem SameB.symm {b b' : Pub} (h : SameB b b') : SameB b' b := by unfold SameB; rw [h]

theorem Done.of {b1 : Pub} {r : Option (Pub × Player)} (hs : SameB b b1) (h : Done k b1 D m I S r) : Done k b D m I S r := by
  obtain ⟨b', p', h1, h2, h3⟩ := h
  exact ⟨b', p', h1, hs.trans h2, h3.same hs.symm⟩

/-- In states 2 and 3, from the position. -/
theorem PI.mk' (c : Ctx k b D m I S) (hb : Base I b.st.n p) (hst : p.state = 2 ∨ p.state = 3) (hv : S → p.ver = b.ver) (hpos : p.pos = J % k.c.q) (hp : Pl b D m I S p J)
    (hn : J ≤ b.st.n) (hl : S → D ≤ J ∨ b.st.n + 1 ≤ J + k.c.q) (hm : m < b.st.n) : PI k b D m I S 0 p := by
  refine ⟨hb, by omega, fun s _ => hv s, fun h => by omega, fun _ => ⟨J, hpos, hp, hn, fun s => ?_, hm⟩⟩
  have := c.g.bound
  rcases hl s with h | h <;> omega

theorem sendRest_spec (c : Ctx k b D m I S) (h : PI k b D m I S 1 p) (hst : p.state = 2) : Done k b D m I S (sendRest k b p) := by
  obtain ⟨J, j1, j2, j3, j4, j5⟩ := h.high (by omega)
  have hDn : D < b.st.n := by rcases c.g.hphase with ⟨h1, h2⟩ | ⟨h1, _⟩ <;> omega
  have fin : ∀ {p : Player} {X : Nat}, p.state = 2 → Base I b.st.n p → Pl b D m I S p X → D ≤ X → X < b.st.n → (S → p.ver = b.ver) →
      Done k b D m I S (burst k (k.c.q + 1) b p (X % k.c.q)) := by
    intro p X hs hb hx h1 h2 hv
    have := c.g.bound
    obtain ⟨b', p', J', g1, g2, g3, g4, g5, g6, g7, g8, g9⟩ := burst_spec (b.st.n - X) (fuel := k.c.q + 1) c hb hx h1 (by omega) (.inl h2) (by omega)
    exact ⟨b', p', g1, g2, PI.mk' c g3 (by rw [hs] at g8; omega) (fun s => by rw [g9]; exact hv s) g5 g4 g7 (fun _ => .inl (by omega)) (by omega)⟩
  have hv : S → p.ver = b.ver := fun s => h.ver s (by omega)
  unfold sendRest
  cases hc : b.st.cache p.pos with
  | none =>
    dsimp only
    have hJD : J ≤ D := by
      by_cases hle : J ≤ D
      · exact hle
      · have := c.g.ring (x := J) (by omega) (by omega)
        rw [← j1, hc] at this; cases this
    rw [c.g.hpos]
    refine fin (p := { p with pos := D % k.c.q }) hst (h.base.core rfl rfl rfl) ?_ (Nat.le_refl _) hDn hv
    exact (j2.up hJD (fun _ => .inl (Nat.le_refl _))).core rfl rfl rfl
  | some x =>
    dsimp only
    rw [j1] at hc ⊢
    obtain ⟨x1, x2, x3, x4⟩ := c.g.at j2.hmJ (by omega) hc
    rw [← x4]
    refine fin hst h.base (j2.up x2 (fun s => .inr ?_)) x1 x3 hv
    exact (mod_inj x4.symm x2 (by have := j4 s; omega)).symm

/-- One frame. -/
theorem sendOne_spec (c : Ctx k b D m I S) (hb : Base I b.st.n p) (hst : p.state = 3) (hv : S → p.ver = b.ver) (j1 : p.pos = J % k.c.q) (j2 : Pl b D m I S p J)
    (j3 : J + 1 ≤ b.st.n) (j4 : S → b.st.n ≤ J + k.c.q) (j5 : m < b.st.n) : Done k b D m I S (sendOne k b p) := by
  unfold sendOne
  cases hc : b.st.cache p.pos with
  | none =>
    have hJD : J < D := by
      by_cases hle : J < D
      · exact hle
      · have := c.g.ring (x := J) (by omega) (by omega)
        rw [← j1, hc] at this; cases this
    simp only [Option.map_none, linkOpt]
    refine ⟨_, _, rfl, SameB.refl _, ?_⟩
    refine PI.mk' (J := J + 1) c (hb.core rfl rfl rfl) (.inr hst) hv ?_ ((j2.up (Nat.le_succ J) (fun _ => .inl (by omega))).core rfl rfl rfl) j3
      (fun s => .inr (by have := j4 s; omega)) j5
    show nxt k.c p.pos = _
    unfold nxt; rw [j1, Nat.mod_add_mod]
  | some x =>
    rw [j1] at hc
    obtain ⟨x1, x2, x3, x4⟩ := c.g.at j2.hmJ (by omega) hc
    have j2' : Pl b D m I S p x := j2.up x2 (fun s => .inr (mod_inj x4.symm x2 (by have := j4 s; omega)).symm)
    have j1' : p.pos = x % k.c.q := by rw [j1, x4]
    obtain ⟨b1, p1, r, e1, hs, hp, hr⟩ := link_spec (k := k) (p := p) (c.g.live x1 x3)
    simp only [Option.map_some, linkOpt]
    rw [e1]
    rcases hr with ⟨er, hr⟩ | ⟨er, hr⟩
    · subst er
      refine ⟨_, _, rfl, hs, ?_⟩
      exact PI.mk' (J := x) c (hb.core hr.hlog hr.hA hr.hV) (.inr (hp.hstate.trans hst)) (fun s => by rw [hp.hver]; exact hv s) (by rw [hp.hpos]; exact j1')
        (j2'.core hr.hlog hr.hA hr.hV) (by omega) (fun _ => .inl x1) j5
    · subst er
      refine ⟨_, _, rfl, hs, ?_⟩
      have hb1 : Base I b.st.n p1 := hb.put c.hI (fun y hy => by cases hy; exact x3) hr
      have hp1 : Pl b D m I S p1 (x + 1) := j2'.adv c.g c.hI c.hK (fun s => (c.hS s).2) hb x1 x3 hr
      refine PI.mk' (J := x + 1) c (hb1.core rfl rfl rfl) (.inr (hp.hstate.trans hst)) (fun s => by rw [show ({ p1 with pos := nxt k.c p1.pos } : Player).ver = p1.ver from rfl, hp.hver]; exact hv s) ?_
        (hp1.core rfl rfl rfl) (by omega) (fun _ => .inl (by omega)) j5
      show nxt k.c p1.pos = _
      unfold nxt; rw [hp.hpos, j1', Nat.mod_add_mod]

/-- A header that is not the player's latest. -/
theorem linkNew_spec (c : Ctx k b D m I S) (hb : Base I b.st.n p) (hst : p.state = 3) (j2 : Pl b D m I S p J) {a lat : Option Nat}
    (ha : ∀ f, a = some f → alive b (.av f) = true ∧ f < b.st.n ∧ (b.st.info f).header = true) (hs : S → a = lat) :
    ∃ b' p' r, linkNew k b p a lat = some (b', p', r) ∧ SameB b b' ∧ Base I b.st.n p' ∧ Pl b D m I S p' J ∧ SameP p p' ∧ (S → r = true ∧ p' = p) := by
  unfold linkNew
  by_cases e : a = lat
  · rw [if_pos e]
    exact ⟨_, _, _, rfl, SameB.refl _, hb, j2, ⟨rfl, rfl, rfl⟩, fun _ => ⟨rfl, rfl⟩⟩
  · rw [if_neg e]
    cases a with
    | none => exact ⟨_, _, _, rfl, SameB.refl _, hb, j2, ⟨rfl, rfl, rfl⟩, fun _ => ⟨rfl, rfl⟩⟩
    | some f =>
      obtain ⟨a1, a2, a3⟩ := ha f rfl
      have hns : ¬ S := fun s => e (hs s)
      obtain ⟨b1, p1, r, e1, hsb, hp, hr⟩ := link_spec (k := k) (p := p) a1
      simp only [Option.map_some, linkOpt]
      refine ⟨b1, p1, r, e1, hsb, ?_, ?_, hp, fun s => absurd s hns⟩
      · rcases hr with ⟨_, hr⟩ | ⟨_, hr⟩
        · exact hb.core hr.hlog hr.hA hr.hV
        · exact hb.put c.hI (fun y hy => by cases hy; exact a2) hr
      · rcases hr with ⟨_, hr⟩ | ⟨_, hr⟩
        · exact j2.core hr.hlog hr.hA hr.hV
        · exact j2.hdr hns (by rw [← c.hI f a2]; exact a3) hr

theorem sendHeaders_spec (c : Ctx k b D m I S) (hb : Base I b.st.n p) (hst : p.state = 3) (hv : S → p.ver = b.ver) (j1 : p.pos = J % k.c.q) (j2 : Pl b D m I S p J)
    (j3 : J + 1 ≤ b.st.n) (j5 : m < b.st.n) {a v : Option Nat} {T : Nat}
    (ha : ∀ f, a = some f → alive b (.av f) = true ∧ f < b.st.n ∧ (b.st.info f).header = true)
    (hvv : ∀ f, v = some f → alive b (.av f) = true ∧ f < b.st.n ∧ (b.st.info f).header = true)
    (hs : S → a = p.latA ∧ v = p.latV) (hT : J ≤ T) (hTn : T < b.st.n) (hTD : D ≤ T) (hTS : S → T = D) :
    Done k b D m I S (sendHeaders k b p a v (T % k.c.q)) := by
  unfold sendHeaders
  obtain ⟨b1, p1, r1, e1, s1, q1, q2, q3, q4⟩ := linkNew_spec c hb hst j2 ha (fun s => (hs s).1)
  rw [e1]
  cases r1 with
  | false =>
    refine ⟨_, _, rfl, s1, ?_⟩
    have hns : ¬ S := fun s => by cases (q4 s).1
    exact PI.mk' (J := J) c q1 (.inr (q3.hstate.trans hst)) (fun s => absurd s hns) (by rw [q3.hpos]; exact j1) q2 (by omega) (fun s => absurd s hns) j5
  | true =>
    dsimp only
    have hn : b1.st = b.st := by rw [s1]
    have c1 := c.same s1
    have hal : ∀ it, alive b1 it = alive b it := fun it => by unfold alive; rw [hn]
    obtain ⟨b2, p2, r2, e2, s2, t1, t2, t3, t4⟩ := linkNew_spec (p := p1) (J := J) c1 (by rw [hn]; exact q1) (q3.hstate.trans hst) (q2.same s1) (a := v) (lat := p1.latV)
      (fun f hf => by rw [hal, hn]; exact hvv f hf) (fun s => by rw [(q4 s).2]; exact (hs s).2)
    rw [e2]
    rw [hn] at t1
    have hss := s1.trans s2
    have t2' : Pl b D m I S p2 J := t2.same s1.symm
    cases r2 with
    | false =>
      refine ⟨_, _, rfl, hss, ?_⟩
      have hns : ¬ S := fun s => by cases (t4 s).1
      exact PI.mk' (J := J) c t1 (.inr (t3.hstate.trans (q3.hstate.trans hst))) (fun s => absurd s hns) (by rw [t3.hpos, q3.hpos]; exact j1) t2' (by omega) (fun s => absurd s hns) j5
    | true =>
      dsimp only
      refine Done.of hss ?_
      have c2 := c.same hss
      have hn2 : b2.st.n = b.st.n := by rw [hss]
      have hbd := c.g.bound
      refine sendOne_spec (p := { p2 with pos := T % k.c.q }) (J := T) c2 (by rw [hn2]; exact t1.core rfl rfl rfl) (t3.hstate.trans (q3.hstate.trans hst)) (fun s => ?_) rfl
        (((t2'.up hT (fun s => .inl (by rw [hTS s]; exact Nat.le_refl _))).core (p' := { p2 with pos := T % k.c.q }) rfl rfl rfl).same hss) (by rw [hn2]; omega) (fun _ => by rw [hn2]; omega) (by rw [hn2]; exact j5)
      show p2.ver = b2.ver
      rw [t3.hver, q3.hver, hv s, hss]

theorem Good.newest (g : Good k b D m) (hq : 3 ≤ k.c.q) (h : D < b.st.n) : prv k.c b.st.last = (b.st.n - 1) % k.c.q ∧ b.st.cache ((b.st.n - 1) % k.c.q) = some (b.st.n - 1) := by
  refine ⟨?_, g.ring (by omega) (by omega)⟩
  rw [g.hlast]
  unfold prv
  have h1 := Nat.mod_lt b.st.n (show 0 < k.c.q by omega)
  have h2 := Nat.mod_lt (b.st.n - 1) (show 0 < k.c.q by omega)
  have h3 : ((b.st.n - 1) % k.c.q + 1) % k.c.q = b.st.n % k.c.q := by rw [Nat.mod_add_mod]; congr 1; omega
  by_cases e : (b.st.n - 1) % k.c.q + 1 < k.c.q
  · rw [Nat.mod_eq_of_lt e] at h3
    rw [if_neg (by omega)]; omega
  · rw [show (b.st.n - 1) % k.c.q + 1 = k.c.q by omega, Nat.mod_self] at h3
    rw [if_pos h3.symm]; omega

theorem sendNext_spec (c : Ctx k b D m I S) (h : PI k b D m I S 1 p) (hst : p.state = 3) : Done k b D m I S (sendNext k b p) := by
  obtain ⟨J, j1, j2, j3, j4, j5⟩ := h.high (by omega)
  have hDn : D < b.st.n := by rcases c.g.hphase with ⟨h1, h2⟩ | ⟨h1, _⟩ <;> omega
  have hv : S → p.ver = b.ver := fun s => h.ver s (by omega)
  have hbd := c.g.bound
  obtain ⟨n1, n2⟩ := c.g.newest c.hq hDn
  have one : Done k b D m I S (sendOne k b p) := sendOne_spec c h.base hst hv j1 j2 j3 (fun s => by have := j4 s; omega) j5
  unfold sendNext
  dsimp only
  rw [n1, n2]
  dsimp only
  by_cases hk : (b.st.info (b.st.n - 1)).key = true ∧ (b.st.info (b.st.n - 1)).header = false
  · rw [if_pos hk]
    by_cases hl : k.low = true ∧ (b.st.n - 1) % k.c.q ≠ p.pos
    · rw [if_pos hl]
      have hns : ¬ S := fun s => by have := (c.hS s).1; rw [hl.1] at this; cases this
      refine sendHeaders_spec (p := { p with queue := [], lost := p.lost ++ p.queue, pos := (b.st.n - 1) % k.c.q }) (J := b.st.n - 1) (T := b.st.n - 1) c (h.base.core rfl rfl rfl) hst hv rfl ?_ (by omega) j5 ?_ ?_ (fun s => absurd s hns)
        (Nat.le_refl _) (by omega) (by omega) (fun s => absurd s hns)
      · exact (j2.up (J' := b.st.n - 1) (by omega) (fun s => absurd s hns)).core rfl rfl rfl
      · intro f hf
        obtain ⟨l1, l2, l3, _⟩ := c.g.liveLatA hf
        exact ⟨l1, l2, l3⟩
      · intro f hf
        obtain ⟨l1, l2, l3, _⟩ := c.g.liveLatV hf
        exact ⟨l1, l2, l3⟩
    · rw [if_neg hl]; exact one
  · rw [if_neg hk]
    cases hc : b.st.cache p.pos with
    | some x => exact one
    | none =>
      dsimp only
      have hJD : J ≤ D := by
        by_cases hle : J ≤ D
        · exact hle
        · have := c.g.ring (x := J) (by omega) (by omega)
          rw [← j1, hc] at this; cases this
      rw [c.g.hpos]
      refine sendHeaders_spec (J := J) (T := D) c h.base hst hv j1 j2 (by omega) j5 ?_ ?_ (fun s => ⟨(j2.hst s).1.symm, (j2.hst s).2.1.symm⟩) hJD hDn (Nat.le_refl _) (fun _ => rfl)
      · intro f hf
        obtain ⟨l1, l2, l3, _⟩ := c.g.liveA hf
        exact ⟨l1, by omega, l3⟩
      · intro f hf
        obtain ⟨l1, l2, l3, _⟩ := c.g.liveV hf
        exact ⟨l1, by omega, l3⟩

/-! ### The headers of the beginning and the metadata -/

theorem linkOpt_spec {o : Option Nat} (ha : ∀ f, o = some f → alive b (.av f) = true) :
    ∃ b' p' r, linkOpt k b p (o.map .av) = some (b', p', r) ∧ SameB b b' ∧ SameP p p' ∧
      ((r = false ∧ Refused p p') ∨ (r = true ∧ ((o = none ∧ p' = p) ∨ ∃ f, o = some f ∧ Put b p (.av f) p'))) := by
  cases o with
  | none => exact ⟨_, _, _, rfl, SameB.refl _, ⟨rfl, rfl, rfl⟩, .inr ⟨rfl, .inl ⟨rfl, rfl⟩⟩⟩
  | some f =>
    obtain ⟨b', p', r, h1, h2, h3, h4⟩ := link_spec (k := k) (p := p) (ha f rfl)
    refine ⟨b', p', r, h1, h2, h3, ?_⟩
    rcases h4 with h | ⟨h, h'⟩
    · exact .inl h
    · exact .inr ⟨h, .inr ⟨f, rfl, h'⟩⟩

theorem sendMeta_spec : ∃ b' p' r, sendMeta k b p = some (b', p', r) ∧ SameB b b' ∧ p'.pos = p.pos ∧ p'.state = p.state ∧
      (p.ver = b.ver → r = true ∧ p' = p ∧ b' = b) ∧
      ((r = false ∧ Refused p p' ∧ p'.ver = p.ver) ∨ (r = true ∧ p'.ver = b.ver ∧ ((p'.log = p.log ∧ p'.latA = p.latA ∧ p'.latV = p.latV ∧ p'.full = p.full) ∨ ∃ v, Put b p (.md v) p'))) := by
  unfold sendMeta
  by_cases e : p.ver = b.ver
  · rw [if_pos e]
    exact ⟨_, _, _, rfl, SameB.refl _, rfl, rfl, fun _ => ⟨rfl, rfl, rfl⟩, .inr ⟨rfl, e, .inl ⟨rfl, rfl, rfl, rfl⟩⟩⟩
  · rw [if_neg e]
    cases b.metaMsg with
    | none => exact ⟨_, _, _, rfl, SameB.refl _, rfl, rfl, fun h => absurd h e, .inr ⟨rfl, rfl, .inl ⟨rfl, rfl, rfl, rfl⟩⟩⟩
    | some v =>
      obtain ⟨b', p', r, h1, h2, h3, h4⟩ := link_spec (k := k) (b := b) (p := p) (it := .md v) rfl
      simp only [Option.map_some, linkOpt]
      rw [h1]
      rcases h4 with ⟨h, h'⟩ | ⟨h, h'⟩
      · subst h
        exact ⟨_, _, _, rfl, h2, h3.hpos, h3.hstate, fun h => absurd h e, .inl ⟨rfl, h', h3.hver⟩⟩
      · subst h
        refine ⟨_, _, _, rfl, h2, h3.hpos, h3.hstate, fun h => absurd h e, .inr ⟨rfl, ?_, .inr ⟨v, h'.hfull, h'.hlog, h'.hA, h'.hV⟩⟩⟩
        show b'.ver = b.ver
        rw [h2]

/-- All frames so far are headers, in the strict case the two of the cache. -/
def Heads (b : Pub) (I : Nat → Fr) (S : Prop) (p : Player) : Prop :=
  (∀ x ∈ avs p.log, (I x).header = true) ∧ (S → ∀ x ∈ avs p.log, b.st.aac = some x ∨ b.st.avc = some x)

theorem Heads.core (h : Heads b I S p) (e : p'.log = p.log) : Heads b I S p' := by unfold Heads; rw [e]; exact h

theorem Heads.put {f : Nat} (h : Heads b I S p) (hp : Put b p (.av f) p') (hf : (I f).header = true) (ha : b.st.aac = some f ∨ b.st.avc = some f) : Heads b I S p' := by
  unfold Heads
  rw [hp.hlog, avs_av]
  constructor
  · intro x hx
    rcases List.mem_append.1 hx with h1 | h1
    · exact h.1 x h1
    · rw [List.mem_singleton.1 h1]; exact hf
  · intro s x hx
    rcases List.mem_append.1 hx with h1 | h1
    · exact h.2 s x h1
    · rw [List.mem_singleton.1 h1]; exact ha

theorem lastOf_mem {I : Nat → Fr} {v : Bool} {l : List Nat} {f : Nat} (hf : f ∈ l) (h1 : (I f).header = true) (h2 : (I f).video = v)
    (h : ∀ x ∈ l, (I x).header = true → (I x).video = v → x = f) : lastOf I v l = some f := by
  cases e : lastOf I v l with
  | some x =>
    obtain ⟨a1, a2, a3⟩ := lastOf_some e
    rw [h x a1 a2 a3]
  | none =>
    unfold lastOf at e
    rw [List.getLast?_eq_none_iff, List.filter_eq_nil_iff] at e
    exact absurd (by simp [h1, h2]) (e f hf)

/-- The position right after the headers. -/
theorem Heads.pl (c : Ctx k b D m I S) (hb : Base I b.st.n p) (h : Heads b I S p) (ha : ∀ f, b.st.aac = some f → f ∈ avs p.log)
    (hv : ∀ f, b.st.avc = some f → f ∈ avs p.log) : Pl b D m I S p D := by
  have nomedia : ∀ x ∈ avs p.log, Media I x = false := fun x hx => by unfold Media; rw [h.1 x hx]; rfl
  have kA : ∀ f, b.st.aac = some f → (I f).header = true ∧ (I f).video = false := fun f hf => by
    obtain ⟨_, l2, l3, l4⟩ := c.g.liveA hf
    have := c.g.hDn
    rw [← c.hI f (by omega)]; exact ⟨l3, l4⟩
  have kV : ∀ f, b.st.avc = some f → (I f).header = true ∧ (I f).video = true := fun f hf => by
    obtain ⟨_, l2, l3, l4⟩ := c.g.liveV hf
    have := c.g.hDn
    rw [← c.hI f (by omega)]; exact ⟨l3, l4⟩
  refine ⟨c.g.hmD, ?_, fun x hx hm => absurd hm (by rw [nomedia x hx]; decide), fun s => ⟨?_, ?_, fun z z1 z2 => by omega, ?_, ?_⟩⟩
  · unfold Ordered
    rw [List.filter_eq_nil_iff.2 (fun x hx => by rw [nomedia x hx]; decide)]
    exact List.Pairwise.nil
  · rw [hb.hA]
    cases e : b.st.aac with
    | none =>
      refine lastOf_none (fun f hf hc => ?_)
      rcases h.2 s f hf with h1 | h1
      · rw [e] at h1; cases h1
      · have := (kV f h1).2; rw [hc.2] at this; cases this
    | some f =>
      refine lastOf_mem (ha f e) (kA f e).1 (kA f e).2 (fun x hx _ x2 => ?_)
      rcases h.2 s x hx with h1 | h1
      · rw [e] at h1; cases h1; rfl
      · have := (kV x h1).2; rw [x2] at this; cases this
  · rw [hb.hV]
    cases e : b.st.avc with
    | none =>
      refine lastOf_none (fun f hf hc => ?_)
      rcases h.2 s f hf with h1 | h1
      · have := (kA f h1).2; rw [hc.2] at this; cases this
      · rw [e] at h1; cases h1
    | some f =>
      refine lastOf_mem (hv f e) (kV f e).1 (kV f e).2 (fun x hx _ x2 => ?_)
      rcases h.2 s x hx with h1 | h1
      · have := (kA x h1).2; rw [x2] at this; cases this
      · rw [e] at h1; cases h1; rfl
  · intro a x d e hi
    have := h.1 x (mem_avs e)
    unfold Inter at hi
    rw [this] at hi
    simp at hi
  · intro a x d e hi
    rw [h.1 x (mem_avs e)] at hi; cases hi

theorem sendFirst_spec (c : Ctx k b D m I S) {e : Nat} (h : PI k b D m I S e p) (hst : p.state = 1) : Done k b D m I S (sendFirst k b p) := by
  have hv : S → p.ver = b.ver := fun s => h.ver s (by omega)
  have early : ∀ {p' : Player}, p'.state = 1 → p'.ver = p.ver → Base I b.st.n p' → Heads b I S p' → (S → m < b.st.n ∨ p'.log = p.log) → PI k b D m I S 0 p' := by
    intro p' h1 h2 h3 h4 h5
    refine ⟨h3, by omega, fun s _ => by rw [h2]; exact hv s, fun _ => ⟨h4.1, fun s x hx => ⟨h4.2 s x hx, ?_⟩⟩, fun h => by omega⟩
    rcases h5 s with h | h
    · exact h
    · rw [h] at hx
      exact (((‹PI k b D m I S e p›).low (by omega)).2 s x hx).2
  have hh : Heads b I S p := ⟨(h.low (by omega)).1, fun s x hx => ((h.low (by omega)).2 s x hx).1⟩
  unfold sendFirst
  dsimp only
  cases hc : b.st.cache b.st.pos with
  | none => exact ⟨_, _, rfl, SameB.refl _, early hst rfl (h.base.core rfl rfl rfl) (hh.core rfl) (fun _ => .inr rfl)⟩
  | some f0 =>
    dsimp only
    have hDn : D < b.st.n ∧ m < b.st.n := by
      rcases c.g.hphase with ⟨h1, h2⟩ | ⟨h1, _⟩
      · exfalso
        obtain ⟨x1, x2, x3, x4⟩ := c.g.hslots _ _ hc
        rw [c.g.hpos] at x2
        have := c.hq
        have := c.g.hm
        rw [Nat.mod_eq_of_lt (show f0 < k.c.q by omega), Nat.mod_eq_of_lt (by omega)] at x2
        omega
      · have := c.g.hmD
        omega
    obtain ⟨hDn, hmn⟩ := hDn
    have kA : ∀ f, b.st.aac = some f → alive b (.av f) = true ∧ f < b.st.n ∧ (I f).header = true := fun f hf => by
      obtain ⟨l1, l2, l3, l4⟩ := c.g.liveA hf
      have hf : f < b.st.n := by omega
      rw [← c.hI f hf]; exact ⟨l1, hf, l3⟩
    have kV : ∀ f, b.st.avc = some f → alive b (.av f) = true ∧ f < b.st.n ∧ (I f).header = true := fun f hf => by
      obtain ⟨l1, l2, l3, l4⟩ := c.g.liveV hf
      have hf : f < b.st.n := by omega
      rw [← c.hI f hf]; exact ⟨l1, hf, l3⟩
    obtain ⟨b1, p1, r1, e1, s1, q1, q2⟩ := linkOpt_spec (k := k) (p := { p with pos := b.st.pos }) (fun f hf => (kA f hf).1)
    rw [e1]
    have base1 : Base I b.st.n p1 := by
      rcases q2 with ⟨_, q⟩ | ⟨_, ⟨_, q⟩ | ⟨f, hf, q⟩⟩
      · exact h.base.core q.hlog q.hA q.hV
      · rw [q]; exact h.base.core rfl rfl rfl
      · exact (h.base.core (p' := { p with pos := b.st.pos }) rfl rfl rfl).put c.hI (fun x hx => by cases hx; exact (kA f hf).2.1) q
    have heads1 : Heads b I S p1 := by
      rcases q2 with ⟨_, q⟩ | ⟨_, ⟨_, q⟩ | ⟨f, hf, q⟩⟩
      · exact hh.core q.hlog
      · rw [q]; exact hh.core rfl
      · exact (hh.core (p' := { p with pos := b.st.pos }) rfl).put q (kA f hf).2.2 (.inl hf)
    cases r1 with
    | false => exact ⟨_, _, rfl, s1, early (q1.hstate.trans hst) q1.hver base1 heads1 (fun _ => .inl hmn)⟩
    | true =>
      dsimp only
      have hb1 : b1.st = b.st := by rw [s1]
      rw [hb1]
      have hal : ∀ it, alive b1 it = alive b it := fun it => by unfold alive; rw [hb1]
      obtain ⟨b2, p2, r2, e2, s2, t1, t2⟩ := linkOpt_spec (k := k) (b := b1) (p := p1) (o := b.st.avc) (fun f hf => by rw [hal]; exact (kV f hf).1)
      rw [e2]
      have put' : ∀ {f}, Put b1 p1 (.av f) p2 → Put b p1 (.av f) p2 := fun {f} q => by
        refine ⟨q.hfull, q.hlog, ?_, ?_⟩
        · rw [q.hA]; unfold newA; rw [hb1]
        · rw [q.hV]; unfold newV; rw [hb1]
      have base2 : Base I b.st.n p2 := by
        rcases t2 with ⟨_, q⟩ | ⟨_, ⟨_, q⟩ | ⟨f, hf, q⟩⟩
        · exact base1.core q.hlog q.hA q.hV
        · rw [q]; exact base1
        · exact base1.put c.hI (fun x hx => by cases hx; exact (kV f hf).2.1) (put' q)
      have heads2 : Heads b I S p2 := by
        rcases t2 with ⟨_, q⟩ | ⟨_, ⟨_, q⟩ | ⟨f, hf, q⟩⟩
        · exact heads1.core q.hlog
        · rw [q]; exact heads1
        · exact heads1.put (put' q) (kV f hf).2.2 (.inr hf)
      have hss := s1.trans s2
      cases r2 with
      | false => exact ⟨_, _, rfl, hss, early (t1.hstate.trans (q1.hstate.trans hst)) (t1.hver.trans q1.hver) base2 heads2 (fun _ => .inl hmn)⟩
      | true =>
        dsimp only
        have mA : ∀ f, b.st.aac = some f → f ∈ avs p2.log := by
          intro f hf
          have m1 : f ∈ avs p1.log := by
            rcases q2 with ⟨q, _⟩ | ⟨_, ⟨q, _⟩ | ⟨g, hg, q⟩⟩
            · cases q
            · rw [hf] at q; cases q
            · rw [hf] at hg; cases hg
              rw [q.hlog, avs_av]; simp
          rcases t2 with ⟨q, _⟩ | ⟨_, ⟨_, q⟩ | ⟨g, hg, q⟩⟩
          · cases q
          · rw [q]; exact m1
          · rw [q.hlog, avs_av]; exact List.mem_append.2 (.inl m1)
        have mV : ∀ f, b.st.avc = some f → f ∈ avs p2.log := by
          intro f hf
          rcases t2 with ⟨q, _⟩ | ⟨_, ⟨q, _⟩ | ⟨g, hg, q⟩⟩
          · cases q
          · rw [hf] at q; cases q
          · rw [hf] at hg; cases hg
            rw [q.hlog, avs_av]; simp
        have pl2 := heads2.pl c base2 mA mV
        have hbd := c.g.bound
        have hn2 : b2.st.n = b.st.n := by rw [hss]
        have hpos2 : p2.pos = D % k.c.q := by rw [t1.hpos, q1.hpos]; exact c.g.hpos
        rw [hpos2]
        obtain ⟨b3, p3, J3, g1, g2, g3, g4, g5, g6, g7, g8, g9⟩ := burst_spec (b.st.n - D) (fuel := k.c.q + 1) (p := { p2 with pos := D % k.c.q, state := 2, first := b2.ts (.av f0) }) (J := D) (c.same hss)
          (by rw [hn2]; exact base2.core rfl rfl rfl) ((pl2.core (p' := { p2 with pos := D % k.c.q, state := 2, first := b2.ts (.av f0) }) rfl rfl rfl).same hss) (Nat.le_refl _) (by rw [hn2]; omega) (.inl (by rw [hn2]; omega)) (by omega)
        rw [hn2] at g3 g7
        refine ⟨b3, p3, g1, hss.trans g2, ?_⟩
        refine PI.mk' (J := J3) c g3 ?_ (fun s => ?_) g5 (g4.same hss.symm) g7 (fun _ => .inl g6) hmn
        · rcases g8 with h | h
          · exact .inr h
          · exact .inl h
        · rw [g9]
          show p2.ver = b.ver
          rw [t1.hver, q1.hver]; exact hv s

/-- One turn. -/
theorem gopSend_spec (c : Ctx k b D m I S) (h : PI k b D m I S 1 p) : Done k b D m I S (gopSend k b p) := by
  obtain ⟨b1, p1, r, e1, s1, q1, q2, q3, q4⟩ := sendMeta_spec (k := k) (b := b) (p := p)
  have hn1 : b1.st.n = b.st.n := by rw [s1]
  have base1 : Base I b.st.n p1 := by
    rcases q4 with ⟨_, q, _⟩ | ⟨_, _, ⟨a1, a2, a3, _⟩ | ⟨v, q⟩⟩
    · exact h.base.core q.hlog q.hA q.hV
    · exact h.base.core a1 a2 a3
    · exact h.base.put c.hI (fun x hx => by cases hx) q
  have avs1 : avs p1.log = avs p.log := by
    rcases q4 with ⟨_, q, _⟩ | ⟨_, _, ⟨a1, a2, a3, _⟩ | ⟨v, q⟩⟩
    · rw [q.hlog]
    · rw [a1]
    · rw [q.hlog, avs_md]
  unfold gopSend
  by_cases h3 : p.state = 3
  · rw [if_pos h3, e1]
    obtain ⟨J, j1, j2, j3, j4, j5⟩ := h.high (by omega)
    have hv : S → p.ver = b.ver := fun s => h.ver s (by omega)
    have pl1 : Pl b D m I S p1 J := by
      rcases q4 with ⟨_, q, _⟩ | ⟨_, _, ⟨a1, a2, a3, _⟩ | ⟨v, q⟩⟩
      · exact j2.core q.hlog q.hA q.hV
      · exact j2.core a1 a2 a3
      · exact j2.md q
    cases r with
    | false =>
      have hns : ¬ S := fun s => by have := (q3 (hv s)).1; cases this
      exact ⟨_, _, rfl, s1, PI.mk' (J := J) c base1 (.inr (q2.trans h3)) (fun s => absurd s hns) (q1.trans j1) pl1 (by omega) (fun s => absurd s hns) j5⟩
    | true =>
      dsimp only
      refine Done.of s1 (sendNext_spec (c.same s1) ?_ (q2.trans h3))
      refine PI.same ?_ s1
      refine ⟨base1, by omega, fun s _ => by rw [(q3 (hv s)).2.1]; exact hv s, fun h => by omega, fun _ => ⟨J, q1.trans j1, pl1, j3, j4, j5⟩⟩
  · rw [if_neg h3]
    by_cases h0 : p.state = 0
    · rw [if_pos h0, e1]
      have hlow := h.low (by omega)
      rw [← avs1] at hlow
      cases r with
      | false =>
        exact ⟨_, _, rfl, s1, base1, by omega, fun _ h => absurd (q2.trans h0) h, fun _ => hlow, fun h => by omega⟩
      | true =>
        refine ⟨_, _, rfl, s1, base1.core rfl rfl rfl, by show 1 ≤ 3; omega, fun _ _ => ?_, fun _ => hlow, fun h => by have : 2 ≤ 1 := h; omega⟩
        rcases q4 with ⟨q, _⟩ | ⟨_, q, _⟩
        · cases q
        · exact q
    · rw [if_neg h0]
      by_cases h1 : p.state = 1
      · rw [if_pos h1]; exact sendFirst_spec c h h1
      · rw [if_neg h1]; exact sendRest_spec c h (by have := h.st; omega)

end Verif.GopSend
