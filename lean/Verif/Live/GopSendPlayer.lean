import Verif.Live.GopSendPub
import Verif.Live.GopSendSpec
/- Invariant of one player (C62). -/
namespace Verif.GopSend
open Verif Verif.Gop

/-! ### Lists of messages -/

theorem avs_append : ∀ a b : List Item, avs (a ++ b) = avs a ++ avs b
  | [], _ => rfl
  | .av f :: a, b => by show f :: avs (a ++ b) = f :: avs a ++ avs b; rw [avs_append a b]; rfl
  | .md _ :: a, b => avs_append a b

theorem avs_av (a : List Item) (f : Nat) : avs (a ++ [.av f]) = avs a ++ [f] := avs_append _ _
theorem avs_md (a : List Item) (m : Nat) : avs (a ++ [.md m]) = avs a := by rw [avs_append]; exact List.append_nil _

theorem lastOf_snoc (I : Nat → Fr) (v : Bool) (l : List Nat) (f : Nat) :
    lastOf I v (l ++ [f]) = if (I f).header = true ∧ (I f).video = v then some f else lastOf I v l := lastHdr_snoc I v l f

theorem lastOf_congr {I I' : Nat → Fr} {v : Bool} {l : List Nat} (h : ∀ f ∈ l, I' f = I f) : lastOf I' v l = lastOf I v l := lastHdr_congr h

theorem lastOf_none {I : Nat → Fr} {v : Bool} {l : List Nat} (h : ∀ f ∈ l, ¬ ((I f).header = true ∧ (I f).video = v)) : lastOf I v l = none := by
  unfold lastOf
  rw [List.filter_eq_nil_iff.2]
  · rfl
  · intro a ha hc
    simp only [Bool.and_eq_true, beq_iff_eq] at hc
    exact h a ha hc

/-- No header in between. -/
theorem lastOf_range {I : Nat → Fr} {v : Bool} {m : Nat} : ∀ {x : Nat}, m ≤ x → (∀ y, m ≤ y → y < x → (I y).header = false) →
    lastOf I v (List.range x) = lastOf I v (List.range m)
  | 0, h, _ => by rw [show m = 0 by omega]
  | x + 1, h, hh => by
    by_cases e : m = x + 1
    · rw [e]
    · rw [List.range_succ, lastOf_snoc, if_neg (fun hc => by rw [hh x (by omega) (by omega)] at hc; cases hc.1)]
      exact lastOf_range (by omega) (fun y h1 h2 => hh y h1 (by omega))

theorem lastOf_some {I : Nat → Fr} {v : Bool} {l : List Nat} {f : Nat} (h : lastOf I v l = some f) : f ∈ l ∧ (I f).header = true ∧ (I f).video = v := by
  have := List.mem_of_getLast? h
  obtain ⟨h1, h2⟩ := List.mem_filter.1 this
  simp only [Bool.and_eq_true, beq_iff_eq] at h2
  exact ⟨h1, h2⟩

theorem snoc_split {α : Type} {l a c : List α} {x y : α} (h : l ++ [y] = a ++ x :: c) : (∃ c', c = c' ++ [y] ∧ l = a ++ x :: c') ∨ (c = [] ∧ a = l ∧ x = y) := by
  rcases List.eq_nil_or_concat c with e | ⟨c', z, e⟩
  · subst e
    have := List.append_inj' h rfl
    exact .inr ⟨rfl, this.1.symm, by cases this.2; rfl⟩
  · rw [List.concat_eq_append] at e
    subst e
    have h : l ++ [y] = (a ++ x :: c') ++ [z] := by rw [h]; simp
    have := List.append_inj' h rfl
    left
    refine ⟨c', ?_, this.1⟩
    cases this.2; rfl

theorem Decodable.snoc {I : Nat → Fr} {log : List Item} {it : Item} (h : Decodable I log)
    (hx : ∀ x, it = .av x → Inter I x = true → ∃ y, ((avs log).filter (Video I)).getLast? = some y ∧ y < x ∧ ∀ z, y < z → z < x → Video I z = false) :
    Decodable I (log ++ [it]) := by
  intro a x c e hi
  rcases snoc_split e with ⟨c', e1, e2⟩ | ⟨_, e2, e3⟩
  · exact h a x c' e2 hi
  · subst e2; exact hx x e3.symm hi

theorem Configured.snoc {I : Nat → Fr} {log : List Item} {it : Item} (h : Configured I log)
    (hx : ∀ x, it = .av x → (I x).header = false → ∀ v, lastOf I v (avs log) = lastOf I v (List.range x)) : Configured I (log ++ [it]) := by
  intro a x c e hi
  rcases snoc_split e with ⟨c', e1, e2⟩ | ⟨_, e2, e3⟩
  · exact h a x c' e2 hi
  · subst e2; exact hx x e3.symm hi

theorem mem_avs {log a c : List Item} {x : Nat} (h : log = a ++ .av x :: c) : x ∈ avs log := by
  rw [h, avs_append]
  exact List.mem_append.2 (.inr (List.mem_cons_self))

/-! ### What the player finds in the cache -/

variable {k : Conf} {b : Pub} {D m : Nat} {I : Nat → Fr}

theorem Good.bound (g : Good k b D m) : b.st.n - D < k.c.q := by
  have := g.hsim.inv.ring.hlen
  simpa using this

theorem Good.ring (g : Good k b D m) {x : Nat} (h1 : D ≤ x) (h2 : x < b.st.n) : b.st.cache (x % k.c.q) = some x := by
  have := g.hsim.inv.ring.hat (x - D) (by simp; omega)
  rw [g.hpos, Nat.mod_add_mod, show D + (x - D) = x by omega] at this
  rw [this]
  simp
  omega

theorem Good.live (g : Good k b D m) {x : Nat} (h1 : D ≤ x) (h2 : x < b.st.n) : alive b (.av x) = true := by
  have r := g.hsim.inv.refs
  have ha := r.hacq x
  have hr := r.hrel x
  dsimp only at ha hr
  rw [if_pos (List.mem_range.2 h2)] at ha
  rw [if_neg (fun h => h.2.1 (List.mem_range'_1.2 (by omega)))] at hr
  unfold alive
  dsimp only
  rw [ha, hr]; rfl

theorem Good.split (g : Good k b D m) : b.st.aac = lastHdr b.st.info false (List.range D) ∧ b.st.avc = lastHdr b.st.info true (List.range D) := by
  obtain ⟨d, e, h1, h2⟩ := g.hsim.inv.suf
  dsimp only at e
  have hl : List.range b.st.n = List.range D ++ List.range' D (b.st.n - D) := by
    rw [List.range_eq_range', List.range_eq_range']
    have := List.range'_append (s := 0) (m := D) (n := b.st.n - D) (step := 1)
    have hD := g.hDn
    rw [show b.st.n = D + (b.st.n - D) by omega, ← this]
    simp
  rw [hl] at e
  have := (List.append_inj' e rfl).1
  rw [← this] at h1 h2
  exact ⟨h1, h2⟩

theorem Good.liveA (g : Good k b D m) {f : Nat} (h : b.st.aac = some f) : alive b (.av f) = true ∧ f < D ∧ (b.st.info f).header = true ∧ (b.st.info f).video = false := by
  have r := g.hsim.inv.refs
  have ha := r.hacq f
  have hr := r.hrel f
  have hm := (r.haac f h).1
  rw [if_pos hm] at ha
  rw [if_neg (fun h' => h'.2.2.1 h)] at hr
  have hl := g.split.1
  rw [h] at hl
  obtain ⟨h1, h2, h3⟩ := lastOf_some (I := b.st.info) (v := false) hl.symm
  refine ⟨?_, List.mem_range.1 h1, h2, h3⟩
  unfold alive
  dsimp only
  rw [ha, hr]; rfl

theorem Good.liveV (g : Good k b D m) {f : Nat} (h : b.st.avc = some f) : alive b (.av f) = true ∧ f < D ∧ (b.st.info f).header = true ∧ (b.st.info f).video = true := by
  have r := g.hsim.inv.refs
  have ha := r.hacq f
  have hr := r.hrel f
  have hm := (r.havc f h).1
  rw [if_pos hm] at ha
  rw [if_neg (fun h' => h'.2.2.2 h)] at hr
  have hl := g.split.2
  rw [h] at hl
  obtain ⟨h1, h2, h3⟩ := lastOf_some (I := b.st.info) (v := true) hl.symm
  refine ⟨?_, List.mem_range.1 h1, h2, h3⟩
  unfold alive
  dsimp only
  rw [ha, hr]; rfl

theorem lastHdr_is {info : Nat → Fr} {v : Bool} {D f : Nat} : ∀ {E : Nat}, f < E → E ≤ D → (info f).header = true → (info f).video = v →
    (∀ g, f < g → g < D → (info g).header = true → (info g).video = !v) → lastHdr info v (List.range E) = some f
  | 0, h, _, _, _, _ => absurd h (Nat.not_lt_zero _)
  | E + 1, h, hE, h1, h2, h3 => by
    rw [List.range_succ, lastHdr_snoc]
    by_cases e : f = E
    · subst e; rw [if_pos ⟨h1, h2⟩]
    · rw [if_neg]
      · exact lastHdr_is (by omega) (by omega) h1 h2 h3
      · rintro ⟨g1, g2⟩
        have := h3 E (by omega) (by omega) g1
        rw [g2] at this
        cases v <;> cases this

theorem Good.liveLatA (g : Good k b D m) {f : Nat} (h : b.latA = some f) : alive b (.av f) = true ∧ f < b.st.n ∧ (b.st.info f).header = true ∧ (b.st.info f).video = false := by
  obtain ⟨h1, h2, h3, h4⟩ := g.hlatA f h
  refine ⟨?_, h1, h2, h3⟩
  by_cases hf : D ≤ f
  · exact g.live hf h1
  · have hl := g.split.1
    rw [lastHdr_is (D := b.st.n) (f := f) (by omega) g.hDn h2 h3 h4] at hl
    exact (g.liveA hl).1

theorem Good.liveLatV (g : Good k b D m) {f : Nat} (h : b.latV = some f) : alive b (.av f) = true ∧ f < b.st.n ∧ (b.st.info f).header = true ∧ (b.st.info f).video = true := by
  obtain ⟨h1, h2, h3, h4⟩ := g.hlatV f h
  refine ⟨?_, h1, h2, h3⟩
  by_cases hf : D ≤ f
  · exact g.live hf h1
  · have hl := g.split.2
    rw [lastHdr_is (D := b.st.n) (f := f) (by omega) g.hDn h2 h3 h4] at hl
    exact (g.liveV hl).1

/-- What a player finds at its position. -/
theorem Good.at (g : Good k b D m) {J x : Nat} (hJ : m ≤ J) (hn : J < b.st.n) (h : b.st.cache (J % k.c.q) = some x) :
    D ≤ x ∧ J ≤ x ∧ x < b.st.n ∧ x % k.c.q = J % k.c.q := by
  obtain ⟨h1, h2, h3, h4⟩ := g.hslots _ _ h
  have hJx : J ≤ x := by
    by_cases hc : J ≤ x
    · exact hc
    · have := mod_inj h2 (by omega) (by omega)
      omega
  exact ⟨by omega, hJx, h1, h2⟩

/-! ### Linking -/

/-- Only time stamps differ. -/
def SameB (b b' : Pub) : Prop := b' = { b with ts := b'.ts }

theorem SameB.refl (b : Pub) : SameB b b := rfl
theorem SameB.trans {a b c : Pub} (h1 : SameB a b) (h2 : SameB b c) : SameB a c := by
  unfold SameB at *
  rw [h1] at h2
  exact h2

theorem Good.same {b' : Pub} (g : Good k b D m) (h : SameB b b') : Good k b' D m := by
  rw [h]
  exact ⟨g.hsim, g.hpos, g.hlast, g.hm, g.hmD, g.hDn, g.hslots, g.hheads, g.hphase, g.hhdr, g.hkeyd, g.hlatA, g.hlatV⟩

/-- Everything but queue, time stamps and ghosts of sending. -/
structure SameP (p p' : Player) : Prop where
  hpos : p'.pos = p.pos
  hstate : p'.state = p.state
  hver : p'.ver = p.ver

/-- The latest headers after a message. -/
def newA (b : Pub) (p : Player) : Item → Option Nat
  | .av f => if (b.st.info f).header = true ∧ (b.st.info f).video = false then some f else p.latA
  | .md _ => p.latA
def newV (b : Pub) (p : Player) : Item → Option Nat
  | .av f => if (b.st.info f).header = true ∧ (b.st.info f).video = true then some f else p.latV
  | .md _ => p.latV

/-- The message was put in. -/
structure Put (b : Pub) (p : Player) (it : Item) (p' : Player) : Prop where
  hfull : p'.full = p.full
  hlog : p'.log = p.log ++ [it]
  hA : p'.latA = newA b p it
  hV : p'.latV = newV b p it

/-- The message was refused. -/
structure Refused (p p' : Player) : Prop where
  hfull : p'.full = p.full + 1
  hlog : p'.log = p.log
  hA : p'.latA = p.latA
  hV : p'.latV = p.latV

theorem restamp_spec (k : Conf) (b : Pub) (p : Player) (it : Item) : SameB b (restamp k b p it).1 ∧ ∃ c1 c2, (restamp k b p it).2 = { p with csV := c1, csA := c2 } := by
  unfold restamp
  split
  · exact ⟨rfl, _, _, rfl⟩
  · split
    · exact ⟨rfl, _, _, rfl⟩
    · exact ⟨rfl, _, _, rfl⟩

theorem link_spec {p : Player} {it : Item} (ha : alive b it = true) :
    ∃ b' p' r, link k b p it = some (b', p', r) ∧ SameB b b' ∧ SameP p p' ∧ ((r = false ∧ Refused p p') ∨ (r = true ∧ Put b p it p')) := by
  obtain ⟨h1, c1, c2, h2⟩ := restamp_spec k b p it
  unfold link
  rw [if_neg (by simp [ha])]
  dsimp only
  rw [h2]
  split
  · exact ⟨_, _, _, rfl, h1, ⟨rfl, rfl, rfl⟩, .inl ⟨rfl, rfl, rfl, rfl, rfl⟩⟩
  · refine ⟨_, _, _, rfl, h1, ?_, .inr ⟨rfl, ?_⟩⟩
    · cases it with
      | md m => exact ⟨rfl, rfl, rfl⟩
      | av f =>
        unfold noteHeader
        dsimp only
        split
        · split <;> exact ⟨rfl, rfl, rfl⟩
        · exact ⟨rfl, rfl, rfl⟩
    · cases it with
      | md m => exact ⟨rfl, rfl, rfl, rfl⟩
      | av f =>
        unfold noteHeader
        dsimp only
        cases e1 : (b.st.info f).header <;> cases e2 : (b.st.info f).video <;>
          exact ⟨rfl, rfl, by simp [newA, e1, e2], by simp [newV, e1, e2]⟩

/-! ### The invariant -/

variable {S : Prop} {p p' : Player} {J : Nat}

/-- What the player remembers of the headers, and that it has only seen frames of the publisher. -/
structure Base (I : Nat → Fr) (n : Nat) (p : Player) : Prop where
  hA : p.latA = lastOf I false (avs p.log)
  hV : p.latV = lastOf I true (avs p.log)
  hlt : ∀ x ∈ avs p.log, x < n

/-- The player has the frames before `J`, as far as they were not left out. `S`: the strict case. -/
structure Pl (b : Pub) (D m : Nat) (I : Nat → Fr) (S : Prop) (p : Player) (J : Nat) : Prop where
  hmJ : m ≤ J
  hsort : Ordered I p.log
  hltJ : ∀ x ∈ avs p.log, Media I x = true → x < J
  hst : S → p.latA = b.st.aac ∧ p.latV = b.st.avc ∧
    (∀ z, D ≤ z → z < J → Video I z = true →
      ∃ y, ((avs p.log).filter (Video I)).getLast? = some y ∧ y < J ∧ ∀ w, y < w → w < J → Video I w = false) ∧
    Decodable I p.log ∧ Configured I p.log

theorem Base.core (h : Base I b.st.n p) (hl : p'.log = p.log) (ha : p'.latA = p.latA) (hv : p'.latV = p.latV) : Base I b.st.n p' :=
  ⟨by rw [ha, hl]; exact h.hA, by rw [hv, hl]; exact h.hV, by rw [hl]; exact h.hlt⟩

theorem Base.put (h : Base I b.st.n p) {it : Item} (hI : ∀ x, x < b.st.n → b.st.info x = I x) (hx : ∀ x, it = .av x → x < b.st.n) (hp : Put b p it p') :
    Base I b.st.n p' := by
  cases it with
  | md v =>
    refine ⟨?_, ?_, ?_⟩
    · rw [hp.hA, hp.hlog, avs_md]; exact h.hA
    · rw [hp.hV, hp.hlog, avs_md]; exact h.hV
    · rw [hp.hlog, avs_md]; exact h.hlt
  | av f =>
    have hf := hx f rfl
    refine ⟨?_, ?_, ?_⟩
    · rw [hp.hA, hp.hlog, avs_av, lastOf_snoc]; unfold newA; dsimp only; rw [hI f hf, h.hA]
    · rw [hp.hV, hp.hlog, avs_av, lastOf_snoc]; unfold newV; dsimp only; rw [hI f hf, h.hV]
    · rw [hp.hlog, avs_av]
      intro x hx
      rcases List.mem_append.1 hx with h1 | h1
      · exact h.hlt x h1
      · rw [List.mem_singleton.1 h1]; exact hf

theorem Pl.core (h : Pl b D m I S p J) (hl : p'.log = p.log) (ha : p'.latA = p.latA) (hv : p'.latV = p.latV) : Pl b D m I S p' J :=
  ⟨h.hmJ, by rw [hl]; exact h.hsort, by rw [hl]; exact h.hltJ, by rw [hl, ha, hv]; exact h.hst⟩

theorem Pl.same {b' : Pub} (h : Pl b D m I S p J) (hb : SameB b b') : Pl b' D m I S p J := by
  rw [hb]; exact ⟨h.hmJ, h.hsort, h.hltJ, h.hst⟩

theorem Pl.up {J' : Nat} (h : Pl b D m I S p J) (hJ : J ≤ J') (hs : S → J' ≤ D ∨ J' = J) : Pl b D m I S p J' := by
  refine ⟨by have := h.hmJ; omega, h.hsort, fun x hx hm => by have := h.hltJ x hx hm; omega, fun s => ?_⟩
  obtain ⟨h1, h2, h3, h4, h5⟩ := h.hst s
  rcases hs s with hd | he
  · exact ⟨h1, h2, fun z z1 z2 => by omega, h4, h5⟩
  · subst he; exact ⟨h1, h2, h3, h4, h5⟩

theorem Pl.md (h : Pl b D m I S p J) {v : Nat} (hp : Put b p (.md v) p') : Pl b D m I S p' J := by
  have e : avs p'.log = avs p.log := by rw [hp.hlog, avs_md]
  refine ⟨h.hmJ, by unfold Ordered; rw [e]; exact h.hsort, by rw [e]; exact h.hltJ, fun s => ?_⟩
  obtain ⟨h1, h2, h3, h4, h5⟩ := h.hst s
  refine ⟨by rw [hp.hA]; exact h1, by rw [hp.hV]; exact h2, by rw [e]; exact h3, ?_, ?_⟩
  · rw [hp.hlog]; exact h4.snoc (fun x hx => by cases hx)
  · rw [hp.hlog]; exact h5.snoc (fun x hx => by cases hx)

theorem Pl.hdr (h : Pl b D m I S p J) {f : Nat} (hs : ¬ S) (hf : (I f).header = true) (hp : Put b p (.av f) p') : Pl b D m I S p' J := by
  have e : avs p'.log = avs p.log ++ [f] := by rw [hp.hlog, avs_av]
  have hm : Media I f = false := by unfold Media; rw [hf]; rfl
  refine ⟨h.hmJ, ?_, fun x hx hxm => ?_, fun s => absurd s hs⟩
  · unfold Ordered
    rw [e, List.filter_append, List.filter_cons_of_neg (by simp [hm]), List.filter_nil, List.append_nil]
    exact h.hsort
  · rw [e] at hx
    rcases List.mem_append.1 hx with h1 | h1
    · exact h.hltJ x h1 hxm
    · rw [List.mem_singleton.1 h1, hm] at hxm; cases hxm

/-- The next frame. -/
theorem Pl.adv (g : Good k b D m) (hI : ∀ x, x < b.st.n → b.st.info x = I x) (hK : ∀ x, (I x).key = true → (I x).video = true)
    (hS : S → ∀ x, m ≤ x → x < b.st.n → (I x).header = false)
    (hb : Base I b.st.n p) (h : Pl b D m I S p J) (hD : D ≤ J) (hn : J < b.st.n) (hp : Put b p (.av J) p') : Pl b D m I S p' (J + 1) := by
  have e : avs p'.log = avs p.log ++ [J] := by rw [hp.hlog, avs_av]
  refine ⟨by have := h.hmJ; omega, ?_, fun x hx hm => ?_, fun s => ?_⟩
  · unfold Ordered
    rw [e, List.filter_append]
    refine List.pairwise_append.2 ⟨h.hsort, ?_, fun x hx y hy => ?_⟩
    · by_cases hm : Media I J = true
      · rw [List.filter_cons_of_pos hm]; simp
      · rw [List.filter_cons_of_neg hm]; simp
    · have := List.mem_singleton.1 (List.mem_filter.1 hy).1
      subst this
      obtain ⟨h1, h2⟩ := List.mem_filter.1 hx
      exact h.hltJ x h1 h2
  · rw [e] at hx
    rcases List.mem_append.1 hx with h1 | h1
    · have := h.hltJ x h1 hm; omega
    · rw [List.mem_singleton.1 h1]; omega
  · obtain ⟨h1, h2, h3, h4, h5⟩ := h.hst s
    have hnh := hS s
    have hJh : (I J).header = false := hnh J h.hmJ hn
    have hin := hI J hn
    refine ⟨?_, ?_, ?_, ?_, ?_⟩
    · rw [hp.hA]; unfold newA; dsimp only; rw [hin, hJh, if_neg (fun h => by cases h.1)]; exact h1
    · rw [hp.hV]; unfold newV; dsimp only; rw [hin, hJh, if_neg (fun h => by cases h.1)]; exact h2
    · intro z z1 z2 z3
      rw [e, List.filter_append]
      by_cases hv : Video I J = true
      · rw [List.filter_cons_of_pos hv]
        exact ⟨J, by simp, by omega, fun w w1 w2 => by omega⟩
      · rw [List.filter_cons_of_neg hv, List.filter_nil, List.append_nil]
        have hz : z ≠ J := fun e => hv (e ▸ z3)
        obtain ⟨y, y1, y2, y3⟩ := h3 z z1 (by omega) z3
        refine ⟨y, y1, by omega, fun w w1 w2 => ?_⟩
        by_cases ew : w = J
        · rw [ew]; simpa using hv
        · exact y3 w w1 (by omega)
    · rw [hp.hlog]
      refine h4.snoc (fun x hx hi => ?_)
      cases hx
      unfold Inter at hi
      simp only [Bool.and_eq_true, Bool.not_eq_true'] at hi
      rw [← hin] at hi
      obtain ⟨z, z1, z2, z3⟩ := g.hkeyd J hD hn hi.1.1 hi.1.2 hi.2
      have hz : Video I z = true := by
        have hzv := hI z (by omega)
        unfold isKey at z3
        rw [hzv] at z3
        simp only [Bool.and_eq_true, Bool.not_eq_true'] at z3
        unfold Video
        rw [hK z z3.1, z3.2]; rfl
      exact h3 z z1 z2 hz
    · rw [hp.hlog]
      refine h5.snoc (fun x hx _ v => ?_)
      cases hx
      have hr : lastOf I v (List.range J) = lastOf I v (List.range D) := by
        rw [lastOf_range h.hmJ (fun y y1 y2 => hnh y y1 (by omega)), lastOf_range g.hmD (fun y y1 y2 => hnh y y1 (by omega))]
      have hc : ∀ v, lastOf I v (List.range D) = lastHdr b.st.info v (List.range D) := fun v =>
        lastOf_congr (fun f hf => (hI f (by have := List.mem_range.1 hf; omega)).symm)
      rw [hr, hc]
      cases v
      · rw [← hb.hA, h1, g.split.1]
      · rw [← hb.hV, h2, g.split.2]

end Verif.GopSend
