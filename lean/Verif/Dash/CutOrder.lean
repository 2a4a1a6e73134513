import Verif.Dash.CutStep
import Verif.Base.ListInd
/-
The parts of a stream, and of one whose frames come in order, for C68 (`CutProps`).
-/
namespace Verif.Dash
open Verif Verif.Mp4

/-- The parts are the stream, none is empty, and the playlist knows the tracks they have. -/
structure Gen (xs : List Item) (s : St) (gs : List Part) (cur : List Item) : Prop where
  all : gs.flatMap (·.items) ++ cur = xs
  ne : ∀ p ∈ gs, p.items ≠ []
  flags : (xs.any (·.1) = true → s.hasVideo = true) ∧ (xs.any (fun x => !x.1) = true → s.hasAudio = true)
  known : ∀ pre p post, gs = pre ++ p :: post → ((pre.flatMap (·.items) ++ p.items).any (·.1) = true → p.hasVideo = true) ∧
    ((pre.flatMap (·.items) ++ p.items).any (fun x => !x.1) = true → p.hasAudio = true)

theorem Gen.listed {xs : List Item} {s : St} {gs : List Part} {cur : List Item} (h : Gen xs s gs cur) :
    ∀ p ∈ gs, (p.items.any (·.1) = true → p.hasVideo = true) ∧ (p.items.any (fun x => !x.1) = true → p.hasAudio = true) := by
  intro p hp
  obtain ⟨pre, post, e⟩ := List.append_of_mem hp
  have := h.known pre p post e
  exact ⟨fun e => this.1 (by rw [List.any_append, e]; simp), fun e => this.2 (by rw [List.any_append, e]; simp)⟩

theorem known_concat {gs : List Part} {q : Part} (h : ∀ pre p post, gs = pre ++ p :: post → ((pre.flatMap (·.items) ++ p.items).any (·.1) = true → p.hasVideo = true) ∧
    ((pre.flatMap (·.items) ++ p.items).any (fun x => !x.1) = true → p.hasAudio = true))
    (hq : ((gs.flatMap (·.items) ++ q.items).any (·.1) = true → q.hasVideo = true) ∧ ((gs.flatMap (·.items) ++ q.items).any (fun x => !x.1) = true → q.hasAudio = true)) :
    ∀ pre p post, gs ++ [q] = pre ++ p :: post → ((pre.flatMap (·.items) ++ p.items).any (·.1) = true → p.hasVideo = true) ∧
    ((pre.flatMap (·.items) ++ p.items).any (fun x => !x.1) = true → p.hasAudio = true) := by
  intro pre p post e
  rcases List.eq_nil_or_concat post with rfl | ⟨l, z, rfl⟩
  · obtain ⟨h1, h2⟩ := List.append_inj' e rfl
    rw [← (List.cons.inj h2).1, ← h1]
    exact hq
  · have e1 : gs ++ [q] = (pre ++ p :: l) ++ [z] := by rw [e]; simp
    exact h pre p l (List.append_inj' e1 rfl).1

theorem Gen.item {cfg : Cfg} {s : St} {gs : List Part} {cur xs : List Item} {x : Item} {gs' : List Part} {cur' : List Item}
    (h : Gen xs s gs cur) (hm : Moved cfg s (step cfg s (opOf x)) gs cur x gs' cur') : Gen (xs ++ [x]) (step cfg s (opOf x)) gs' cur' := by
  have hf := step_flags cfg s x
  have hfl : ((xs ++ [x]).any (·.1) = true → (step cfg s (opOf x)).hasVideo = true) ∧
      ((xs ++ [x]).any (fun x => !x.1) = true → (step cfg s (opOf x)).hasAudio = true) := by
    rw [hf.1, hf.2, List.any_append, List.any_append]
    have a := h.flags
    constructor
    · intro e
      simp only [Bool.or_eq_true, List.any_cons, List.any_nil, Bool.or_false] at e ⊢
      exact e.imp a.1 id
    · intro e
      simp only [Bool.or_eq_true, List.any_cons, List.any_nil, Bool.or_false] at e ⊢
      exact e.imp a.2 id
  cases hm with
  | first e hg hcur =>
    subst e hg hcur
    exact ⟨by rw [← h.all]; simp, h.ne, hfl, h.known⟩
  | more e hb hg hcur hd =>
    subst hg hcur
    exact ⟨by rw [← h.all]; simp, h.ne, hfl, h.known⟩
  | cut e hb hg hcur =>
    subst hg hcur
    refine ⟨by rw [← h.all]; simp, ?_, hfl, ?_⟩
    · intro p hp
      rcases List.mem_append.1 hp with hp | hp
      · exact h.ne p hp
      · rw [List.mem_singleton.1 hp]; exact e
    · refine known_concat h.known ?_
      dsimp only
      rw [h.all]
      exact ⟨fun e => by simp [h.flags.1 e], fun e => by simp [h.flags.2 e]⟩

theorem Gen.stop {cfg : Cfg} {s : St} {gs : List Part} {cur xs : List Item} (h : Gen xs s gs cur) :
    Gen xs (step cfg s .close) (if cur = [] then gs else gs ++ [⟨cur, curDur cfg s, s.hasVideo, s.hasAudio⟩]) [] := by
  have hf : (step cfg s .close).hasVideo = s.hasVideo ∧ (step cfg s .close).hasAudio = s.hasAudio := close_flags cfg s
  have hfl : (xs.any (·.1) = true → (step cfg s .close).hasVideo = true) ∧ (xs.any (fun x => !x.1) = true → (step cfg s .close).hasAudio = true) := by
    rw [hf.1, hf.2]; exact h.flags
  by_cases hc : cur = []
  · subst hc
    rw [if_pos rfl]
    exact ⟨h.all, h.ne, hfl, h.known⟩
  · rw [if_neg hc]
    refine ⟨by rw [← h.all]; simp, ?_, hfl, ?_⟩
    · intro p hp
      rcases List.mem_append.1 hp with hp | hp
      · exact h.ne p hp
      · rw [List.mem_singleton.1 hp]; exact hc
    · refine known_concat h.known ?_
      dsimp only
      rw [h.all]
      exact h.flags

theorem run_concat (cfg : Cfg) (s : St) (ops : List Op) (op : Op) : run cfg s (ops ++ [op]) = step cfg (run cfg s ops) op := by
  unfold run
  rw [List.foldl_append]
  rfl

theorem run_gen (cfg : Cfg) (frags : Nat → Slot) (ops : List Op) :
    ∃ gs cur, Rel cfg (run cfg (init frags) ops) gs cur ∧ Gen (items ops) (run cfg (init frags) ops) gs cur := by
  induction ops using snocInd with
  | nil => exact ⟨[], [], Rel.init cfg frags, ⟨rfl, by simp, by simp [items], by simp⟩⟩
  | snoc ops op ih =>
    obtain ⟨gs, cur, hr, hg⟩ := ih
    rw [run_concat, items_append]
    rcases ops_cases op with rfl | ⟨x, rfl⟩
    · exact ⟨_, _, hr.stop, by simpa [items] using hg.stop⟩
    · obtain ⟨gs', cur', h1, h2⟩ := hr.item x
      exact ⟨gs', cur', h1, by rw [items_opOf]; exact hg.item h2⟩

/-! ### In order -/

theorem kept_sum (fs : List Frame) : (((kept fs).map (·.bytes)).flatten).length ≤ (fs.map (·.bytes.length)).sum := by
  unfold kept
  generalize 1024 = n
  induction fs generalizing n with
  | nil => simp
  | cons f l ih =>
    cases n with
    | zero => simp
    | succ n =>
      have := ih n
      simp only [List.take_succ_cons, List.map_cons, List.flatten_cons, List.length_append, List.sum_cons, List.length_take] at this ⊢
      omega

theorem mdat_le (id : Nat) (v : Bool) (l : List Item) : (record id v (track v l)).mdatSize ≤ size v l := by
  have h := record_holds id v (track v l)
  rw [h.mdat, h.raw]
  exact kept_sum _

theorem inside_true {cfg : Cfg} {s : St} {key : Bool} {ts : Nat} (h : inside cfg s key ts = true) (hf : s.hasVideo = true ∨ s.hasAudio = true) :
    maxMdat ≤ s.audio.mdatSize ∨ maxMdat ≤ s.video.mdatSize ∨
      (hit cfg s ts = true ∧ (key = true ∨ cfg.fraglen * 2 ≤ since cfg s ts ∨ s.hasVideo = false)) := by
  unfold inside at h
  generalize hit cfg s ts = b at h ⊢
  generalize hd : (2 : Nat) ^ 31 = lim at h
  dsimp only at h
  by_cases h1 : maxMdat ≤ s.audio.mdatSize
  · exact .inl h1
  by_cases h2 : maxMdat ≤ s.video.mdatSize
  · exact .inr (.inl h2)
  refine .inr (.inr ?_)
  rw [if_neg h1, if_neg h2] at h
  cases hv : s.hasVideo with
  | true =>
    simp only [hv, Bool.not_true, Bool.false_and, Bool.true_and, Bool.false_eq_true, if_false] at h
    cases b with
    | false => simp at h
    | true =>
      refine ⟨rfl, ?_⟩
      simp only [Bool.not_true, Bool.false_eq_true, if_false] at h
      split at h
      · rename_i h3; exact .inr (.inl h3.2)
      · exact .inl h
  | false =>
    have ha : s.hasAudio = true := by rcases hf with hf | hf; · rw [hv] at hf; cases hf
                                      · exact hf
    simp only [hv, ha, Bool.not_false, Bool.true_and, if_true] at h
    exact ⟨h, .inr (.inr rfl)⟩

theorem inside_false {cfg : Cfg} {s : St} {key : Bool} {ts : Nat} (h : inside cfg s key ts = false) (hf : s.hasVideo = true ∨ s.hasAudio = true)
    (hts : since cfg s ts < 2 ^ 31) (hh : hit cfg s ts = true) : s.hasVideo = true ∧ key = false ∧ since cfg s ts < cfg.fraglen * 2 := by
  unfold inside at h
  rw [hh] at h
  dsimp only at h
  by_cases h1 : maxMdat ≤ s.audio.mdatSize
  · rw [if_pos h1] at h
    split at h <;> cases h
  by_cases h2 : maxMdat ≤ s.video.mdatSize
  · rw [if_pos h2] at h
    cases h
  rw [if_neg h1, if_neg h2] at h
  cases hv : s.hasVideo with
  | true =>
    simp only [hv, Bool.not_true, Bool.false_and, Bool.true_and, Bool.false_eq_true, if_false] at h
    split at h
    · cases h
    · rename_i h3
      refine ⟨rfl, h, ?_⟩
      have : ¬ cfg.fraglen * 2 ≤ since cfg s ts := fun e => h3 ⟨hts, e⟩
      omega
  | false =>
    have ha : s.hasAudio = true := by rcases hf with hf | hf; · rw [hv] at hf; cases hf
                                      · exact hf
    simp only [hv, ha, Bool.not_false, Bool.true_and, if_true] at h
    cases h

theorem hit_lt {cfg : Cfg} {s : St} {ts : Nat} (h : since cfg s ts < 2 ^ 31) : hit cfg s ts = decide (cfg.fraglen ≤ since cfg s ts) := by
  unfold hit
  rw [if_pos h]

theorem flagged_some (s : St) (x : Item) : (flagged s x).hasVideo = true ∨ (flagged s x).hasAudio = true := by
  obtain ⟨b, f⟩ := x
  cases b
  · exact .inr rfl
  · exact .inl rfl

theorem sub_mod {a b n : Nat} (h1 : a ≤ b) (h2 : b < n) : (b + n - a) % n = b - a := by
  rw [show b + n - a = (b - a) + n by omega, Nat.add_mod_right, Nat.mod_eq_of_lt (by omega)]

theorem pow31_lt : (2 : Nat) ^ 31 < 2 ^ 32 := by decide

/-- The time since the start of the open part. -/
theorem since_eq {cfg : Cfg} {s : St} {gs : List Part} {cur : List Item} (h : Rel cfg s gs cur) (hc : cur ≠ []) {ts : Nat} (h1 : start cur ≤ ts) (h2 : ts < 2 ^ 31) :
    since cfg s ts = ts - start cur ∧ since cfg s ts < 2 ^ 31 := by
  rw [h.since hc, sub_mod h1 (Nat.lt_trans h2 pow31_lt)]
  exact ⟨rfl, Nat.lt_of_le_of_lt (Nat.sub_le _ _) h2⟩

theorem told_eq {cfg : Cfg} {s : St} {ts : Nat} (h : since cfg s ts < 2 ^ 31) : toldDur cfg s ts = since cfg s ts := by
  unfold toldDur
  rw [if_pos h]

/-- Why a part ends before `x`. -/
def Cut (cfg : Cfg) (p : Part) (x : Item) : Prop :=
  (start p.items + cfg.fraglen ≤ x.2.timestamp ∧ (isKey x = true ∨ start p.items + cfg.fraglen * 2 ≤ x.2.timestamp ∨ p.hasVideo = false)) ∨
    10485760 ≤ size true p.items ∨ 10485760 ≤ size false p.items

/-- A frame that does not begin a part. -/
def Inner (cfg : Cfg) (st : Nat) (withVideo : Bool) (x : Item) : Prop :=
  st ≤ x.2.timestamp ∧ (x.2.timestamp < st + cfg.fraglen ∨ (isKey x = false ∧ x.2.timestamp < st + cfg.fraglen * 2 ∧ withVideo = true))

theorem Inner.mono {cfg : Cfg} {st : Nat} {b b' : Bool} {x : Item} (h : Inner cfg st b x) (hb : b = true → b' = true) : Inner cfg st b' x :=
  ⟨h.1, h.2.imp id fun e => ⟨e.1, e.2.1, hb e.2.2⟩⟩

/-- The parts of a stream in order: each lasts to the next. -/
structure Ord (cfg : Cfg) (s : St) (gs : List Part) (cur : List Item) : Prop where
  inner : ∀ x ∈ cur.tail, Inner cfg (start cur) s.hasVideo x
  parts : ∀ p ∈ gs, ∀ x ∈ p.items.tail, Inner cfg (start p.items) p.hasVideo x
  join : Adjacent (fun a b => start a.items + a.dur = start b.items ∧ ∀ x l, b.items = x :: l → Cut cfg a x) gs
  last : ∀ p, gs.getLast? = some p → start p.items + p.dur = start cur ∧ ∀ x l, cur = x :: l → Cut cfg p x
  dur : 2 ≤ cur.length → ∀ x, cur.getLast? = some x → start cur + curDur cfg s = x.2.timestamp

theorem adjacent_concat {α : Type} {R : α → α → Prop} {l : List α} {b : α} (h : Adjacent R l) (hl : ∀ a, l.getLast? = some a → R a b) : Adjacent R (l ++ [b]) := by
  intro pre x y post e
  rcases List.eq_nil_or_concat post with rfl | ⟨q, z, rfl⟩
  · have e1 : l ++ [b] = (pre ++ [x]) ++ [y] := by rw [e]; simp
    obtain ⟨h1, h2⟩ := List.append_inj' e1 rfl
    rw [← (List.cons.inj h2).1]
    exact hl x (by rw [h1]; simp)
  · have e1 : l ++ [b] = (pre ++ x :: y :: q) ++ [z] := by rw [e]; simp
    obtain ⟨h1, h2⟩ := List.append_inj' e1 rfl
    exact h pre x y q h1

theorem getLast_cut {l : List Part} {b : Part} {P : Part → Prop} (h : P b) : ∀ p, (l ++ [b]).getLast? = some p → P p := by
  intro p hp
  simp at hp
  rw [← hp]; exact h

theorem Ord.item {cfg : Cfg} {s : St} {gs : List Part} {cur xs : List Item} {x : Item} {gs' : List Part} {cur' : List Item} (hr : Rel cfg s gs cur)
    (hg : Gen xs s gs cur) (h : Ord cfg s gs cur) (hm : Moved cfg s (step cfg s (opOf x)) gs cur x gs' cur') (ho : Ordered (xs ++ [x]))
    (hxs : xs ≠ [] → cur ≠ []) : Ord cfg (step cfg s (opOf x)) gs' cur' := by
  have hf := step_flags cfg s x
  have hmono : s.hasVideo = true → (step cfg s (opOf x)).hasVideo = true := by intro e; rw [hf.1, e]; rfl
  have hx : x.2.timestamp < 2 ^ 31 := ho.1 x (by simp)
  have hle : cur ≠ [] → start cur ≤ x.2.timestamp := by
    intro hc
    cases cur with
    | nil => exact absurd rfl hc
    | cons y l =>
      have : y ∈ xs := by rw [← hg.all]; simp
      exact (List.pairwise_append.1 ho.2).2.2 y this x (by simp)
  cases hm with
  | first e h1 h2 =>
    subst e h1 h2
    have : xs = [] := by
      cases xs with
      | nil => rfl
      | cons a l => exact absurd rfl (hxs (by simp))
    have hgs : gs' = [] := by
      have ha := hg.all
      rw [this, List.append_nil] at ha
      cases gs' with
      | nil => rfl
      | cons p l =>
        have := hg.ne p List.mem_cons_self
        simp at ha
        exact absurd ha.1 this
    subst hgs
    exact ⟨by simp, by simp, by intro pre a b post e; simp at e, by simp, by simp⟩
  | more hc hb h1 h2 hd =>
    subst h1 h2
    obtain ⟨s1, s2⟩ := since_eq hr hc (hle hc) hx
    have hin : Inner cfg (start cur) (step cfg s (opOf x)).hasVideo x := by
      refine ⟨hle hc, ?_⟩
      have hop : (flagged s x).opened = true := by
        rw [(flagged_same s x).2.2.2.2.2, hr.hO]
        cases cur with
        | nil => exact absurd rfl hc
        | cons a l => rfl
      have hb' : inside cfg (flagged s x) (isKey x) x.2.timestamp = false := (boundary_open cfg _ _ _ hop).symm.trans hb
      have e1 := flagged_since cfg s x x.2.timestamp
      have l1 : Dash.since cfg (flagged s x) x.2.timestamp < 2 ^ 31 := by rw [e1]; exact s2
      cases hh : hit cfg (flagged s x) x.2.timestamp with
      | true =>
        obtain ⟨a, b, c⟩ := inside_false hb' (flagged_some s x) l1 hh
        rw [e1, s1] at c
        have := hle hc
        refine .inr ⟨b, by omega, ?_⟩
        rw [hf.1, ← (flagged_flags s x).1]; exact a
      | false =>
        rw [hit_lt l1, e1, s1] at hh
        have := of_decide_eq_false hh
        have := hle hc
        exact .inl (by omega)
    refine ⟨?_, h.parts, h.join, ?_, ?_⟩
    · rw [start_append hc]
      intro y hy
      have : (cur ++ [x]).tail = cur.tail ++ [x] := by
        cases cur with
        | nil => exact absurd rfl hc
        | cons a l => rfl
      rw [this] at hy
      rcases List.mem_append.1 hy with hy | hy
      · exact (h.inner y hy).mono hmono
      · rw [List.mem_singleton.1 hy]; exact hin
    · rw [start_append hc]
      intro p hp
      refine ⟨(h.last p hp).1, ?_⟩
      intro y l e
      cases cur with
      | nil => exact absurd rfl hc
      | cons a q =>
        simp at e
        rw [← e.1]
        exact (h.last p hp).2 a q rfl
    · intro _ y hy
      rw [start_append hc, hd, told_eq s2, s1]
      have := hle hc
      simp at hy
      rw [← hy]
      omega
  | cut hc hb h1 h2 =>
    subst h1 h2
    obtain ⟨s1, s2⟩ := since_eq hr hc (hle hc) hx
    have hl := hle hc
    have e1 := flagged_since cfg s x x.2.timestamp
    have l1 : Dash.since cfg (flagged s x) x.2.timestamp < 2 ^ 31 := by rw [e1]; exact s2
    have hcut : Cut cfg ⟨cur, toldDur cfg s x.2.timestamp, s.hasVideo || x.1, s.hasAudio || !x.1⟩ x := by
      have hop : (flagged s x).opened = true := by
        rw [(flagged_same s x).2.2.2.2.2, hr.hO]
        cases cur with
        | nil => exact absurd rfl hc
        | cons a l => rfl
      have hb' : inside cfg (flagged s x) (isKey x) x.2.timestamp = true := (boundary_open cfg _ _ _ hop).symm.trans hb
      rcases inside_true hb' (flagged_some s x) with a | a | ⟨a, b⟩
      · rw [(flagged_same s x).2.2.2.2.1, hr.hA hc] at a
        exact .inr (.inr (Nat.le_trans a (mdat_le _ _ _)))
      · rw [(flagged_same s x).2.2.2.1, hr.hV hc] at a
        exact .inr (.inl (Nat.le_trans a (mdat_le _ _ _)))
      · rw [hit_lt l1, e1, s1] at a
        have a' := of_decide_eq_true a
        rw [e1, s1, (flagged_flags s x).1] at b
        refine .inl ⟨by dsimp only; omega, ?_⟩
        rcases b with b | b | b
        · exact .inl b
        · exact .inr (.inl (by dsimp only; omega))
        · exact .inr (.inr b)
    have hj : start cur + toldDur cfg s x.2.timestamp = x.2.timestamp := by
      rw [told_eq s2, s1]; omega
    refine ⟨by simp, ?_, ?_, ?_, by simp⟩
    · intro p hp
      rcases List.mem_append.1 hp with hp | hp
      · exact h.parts p hp
      · rw [List.mem_singleton.1 hp]
        exact fun y hy => (h.inner y hy).mono fun e => by simp [e]
    · exact adjacent_concat h.join h.last
    · apply getLast_cut
      refine ⟨hj, ?_⟩
      intro y l e
      rw [← (List.cons.inj e).1]
      exact hcut

theorem run_ord (cfg : Cfg) (frags : Nat → Slot) (xs : List Item) (ho : Ordered xs) :
    ∃ gs cur, Rel cfg (run cfg (init frags) (xs.map opOf)) gs cur ∧ Gen xs (run cfg (init frags) (xs.map opOf)) gs cur ∧
      Ord cfg (run cfg (init frags) (xs.map opOf)) gs cur ∧ (xs ≠ [] → cur ≠ []) := by
  induction xs using snocInd with
  | nil =>
    exact ⟨[], [], Rel.init cfg frags, ⟨rfl, by simp, by simp, by simp⟩, ⟨by simp, by simp, by intro pre a b post e; simp at e, by simp, by simp⟩, id⟩
  | snoc xs x ih =>
    obtain ⟨gs, cur, hr, hg, hO, hn⟩ := ih ⟨fun y hy => ho.1 y (by simp [hy]), (List.pairwise_append.1 ho.2).1⟩
    rw [List.map_append, List.map_singleton, run_concat]
    obtain ⟨gs', cur', h1, h2⟩ := hr.item x
    refine ⟨gs', cur', h1, hg.item h2, hO.item hr hg h2 ho hn, fun _ => ?_⟩
    cases h2 with
    | first _ _ e => rw [e]; simp
    | more _ _ _ e _ => rw [e]; simp
    | cut _ _ _ e => rw [e]; simp

end Verif.Dash
