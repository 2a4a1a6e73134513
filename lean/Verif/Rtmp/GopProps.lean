import Verif.Rtmp.GopLemmas
/- C34: the GOP cache of a publisher. -/
namespace Verif.Gop
open Verif

/-! ### Specification: lists of frames, no ring, no pointers -/

/-- What has been published, what the cache has taken, what it holds. -/
structure Sp where
  n : Nat := 0
  info : Nat → Fr := fun _ => ⟨false, false, false⟩
  acc : List Nat := []
  l : List Nat := []

/-- Age in 32-bit milliseconds. -/
def age (ts : Nat → Nat) (new old : Nat) : Int := ((ts new : Int) - ts old) % 4294967296

def IsHeader (info : Nat → Fr) (f : Nat) : Bool := (info f).header
def IsKey (info : Nat → Fr) (f : Nat) : Bool := (info f).key && !(info f).header

/-- What stays of the frames `l` when the frame `f` has come in last. -/
def keep (c : Cfg) (ts : Nat → Nat) (info : Nat → Fr) (f : Nat) (l : List Nat) : List Nat :=
  match l.filter (IsKey info) with
  | [] => match l with
    | [] => []
    | h :: t => if age ts f h > c.cacheTime then t else h :: t
  | [_] => l
  | _ :: k :: _ => if l.length + 2 ≥ c.q ∨ ((info f).video = true ∧ age ts f k ≥ c.cacheTime) then l.dropWhile (fun x => x != k) else l

/-- Specification of one published frame. -/
def specStep (c : Cfg) (ts : Nat → Nat) (p : Sp) (fr : Fr) : Sp × Rc :=
  let info := fun x => if x = p.n then fr else p.info x
  let p' : Sp := { p with n := p.n + 1, info := info }
  if p.l.length + 1 ≥ c.q then (p', .again)
  else if p.acc.all (fun x => !IsKey info x) && (fr.video && !fr.key && !fr.header) then (p', .ok)
  else ({ p' with acc := p.acc ++ [p.n], l := keep c ts info p.n ((p.l ++ [p.n]).dropWhile (IsHeader info)) }, .ok)

/-- The case for which the ring stays sound: the cache, with the new frame, does not consist of codec headers only, or the ring has not come
round once. -/
def Legal (c : Cfg) (p : Sp) (fr : Fr) : Prop :=
  fr.header = false ∨ p.l.any (fun x => !IsHeader p.info x) = true ∨ p.acc.length + 1 < c.q ∨ c.q ≤ p.l.length + 1

instance (c : Cfg) (p : Sp) (fr : Fr) : Decidable (Legal c p fr) := by unfold Legal; infer_instance

/-- A sequence of frames, each with the time stamps at that moment. -/
abbrev Input := List ((Nat → Nat) × Fr)

def specRun (c : Cfg) (p : Sp) : Input → Sp × List Rc
  | [] => (p, [])
  | (ts, fr) :: rest => let r := specStep c ts p fr; let t := specRun c r.1 rest; (t.1, r.2 :: t.2)

def LegalRun (c : Cfg) (p : Sp) : Input → Prop
  | [] => True
  | (ts, fr) :: rest => Legal c p fr ∧ LegalRun c (specStep c ts p fr).1 rest

instance LegalRun.dec (c : Cfg) : ∀ (i : Input) (p : Sp), Decidable (LegalRun c p i)
  | [], _ => .isTrue trivial
  | (ts, fr) :: rest, p => by
    have := LegalRun.dec c rest (specStep c ts p fr).1
    unfold LegalRun; infer_instance

/-- The frames of the model's ring, from `gop_pos` to `gop_last`. -/
def held (c : Cfg) (s : St) : List (Option Nat) := (List.range ((c.q + s.last - s.pos) % c.q)).map fun i => s.cache ((s.pos + i) % c.q)

/-- The code on a sequence of frames. -/
def run (c : Cfg) (s : St) : Input → Option (St × List Rc)
  | [] => some (s, [])
  | (ts, fr) :: rest =>
    match cacheFrame c ts s fr with
    | none => none
    | some (s', rc) => (run c s' rest).map fun r => (r.1, rc :: r.2)

/-! ### The code follows the specification -/

theorem all_of_dropWhile {p : Nat → Bool} : ∀ {l : List Nat}, l.dropWhile p = [] → ∀ x ∈ l, p x = true
  | a :: l, h, x, hx => by
    by_cases ha : p a = true
    · rw [List.dropWhile_cons_of_pos ha] at h
      rcases List.mem_cons.1 hx with e | hx
      · rw [e]; exact ha
      · exact all_of_dropWhile h x hx
    · rw [List.dropWhile_cons_of_neg ha] at h; cases h

theorem age_eq (ts : Nat → Nat) (a b : Nat) : (sub32 (ts a) (ts b) : Int) = age ts a b := by
  unfold sub32 age
  have h := Nat.mod_lt (ts b) (show 0 < 4294967296 by decide)
  have h2 := Nat.mod_add_div (ts b) 4294967296
  omega

theorem Inv.held_eq {c : Cfg} {s : St} {acc l : List Nat} (i : Inv c s acc l) : held c s = l.map some := by
  unfold held
  rw [i.ring.hlast, count_eq i.ring.hpos i.ring.hlen]
  apply List.ext_getElem
  · simp
  · intro n h1 h2
    simp only [List.length_map] at h2
    simp only [List.getElem_map, List.getElem_range]
    exact i.ring.hat n h2

theorem Inv.nil_filter {c : Cfg} {s : St} {acc l : List Nat} (i : Inv c s acc l) (h : s.keyframe = none) : l.filter (isKey s.info) = [] := by
  refine List.filter_eq_nil_iff.2 (fun a ha => ?_)
  rw [i.nokey h a (i.mem ha)]; simp

theorem resetGop_spec {c : Cfg} {ts : Nat → Nat} {s : St} {acc l : List Nat} {f : Nat} (i : Inv c s acc l)
    (hx : l.dropWhile (fun x => (s.info x).header) = [] → s.cache s.last = none) :
    ∃ s', resetGop c ts s f = some s' ∧ Inv c s' acc (keep c ts s.info f (l.dropWhile (fun x => (s.info x).header))) ∧ s'.info = s.info ∧ s'.n = s.n := by
  have hlen := i.ring.hlen
  obtain ⟨s1, g1, i1, e1, e2, e3, e4, e5, e6⟩ := strip_spec i (k := c.q + 1) (by omega)
  unfold resetGop
  rw [g1]
  dsimp only
  cases hl : l.dropWhile (fun x => (s.info x).header) with
  | nil =>
    rw [hl] at i1
    have h0 : s1.cache s1.pos = none := by rw [i1.ring.nil, e4, e5]; exact hx hl
    rw [h0]
    exact ⟨s1, rfl, i1, e1, e6⟩
  | cons h t =>
    rw [hl] at i1
    obtain ⟨h0, _⟩ := i1.ring.head
    have hh : ¬ (s.info h).header = true := by
      have := List.head_dropWhile_not (fun x => (s.info x).header) (l := l) (by rw [hl]; simp)
      simp only [hl, List.head_cons] at this
      simp [this]
    rw [h0]
    dsimp only
    have hcount : (c.q + s1.last - s1.pos) % c.q = (h :: t).length := by rw [i1.ring.hlast]; exact count_eq i1.ring.hpos i1.ring.hlen
    unfold keep
    cases hk : s1.keyframe with
    | none =>
      have hf := i1.nil_filter hk
      rw [e1] at hf
      rw [show (h :: t).filter (IsKey s.info) = [] from hf]
      dsimp only
      refine ⟨_, rfl, ?_⟩
      unfold audioTrim
      by_cases ha : sub32 (ts f) (ts h) > c.cacheTime
      · rw [if_pos ha, if_pos (by rw [← age_eq]; omega)]
        refine ⟨?_, e1, e6⟩
        have hp := i1.popDrop (fun hn => absurd hk hn)
        have hik : isKey s1.info h = false := i1.nokey hk h (i1.mem (by simp))
        rw [e1] at hik
        have ed : drop s1 s1.pos h = { free s1 h with cache := set s1.cache s1.pos none } := by
          unfold drop
          rw [e1, if_neg hh]
          rfl
        rw [ed] at hp
        dsimp only at hp
        rw [e1, hik] at hp
        simpa [free] using hp
      · rw [if_neg ha, if_neg (by rw [← age_eq]; omega)]
        exact ⟨i1, e1, e6⟩
    | some k =>
      dsimp only
      have hkeys := i1.keys
      rw [hk, e1] at hkeys
      cases hfl : (h :: t).filter (isKey s.info) with
      | nil => rw [hfl] at hkeys; cases hkeys
      | cons a b =>
        rw [hfl] at hkeys
        obtain ⟨ea, hb⟩ := hkeys
        cases ea
        cases hn : s1.next k with
        | none =>
          rw [hn] at hb
          cases b with
          | cons x y => cases hb.1
          | nil =>
            rw [show (h :: t).filter (IsKey s.info) = [k] from hfl]
            exact ⟨s1, rfl, i1, e1, e6⟩
        | some k2 =>
          rw [hn] at hb
          cases b with
          | nil => cases hb
          | cons x y =>
            have hb := hb.1
            cases hb
            rw [show (h :: t).filter (IsKey s.info) = k :: k2 :: y from hfl]
            dsimp only
            have hm : k2 ∈ (h :: t).filter (isKey s.info) := by rw [hfl]; simp
            have hkk : isKey s.info k2 = true := (List.mem_filter.1 hm).2
            have htrim : ∃ s', trim c k2 (c.q + 1) s1 s1.pos = some s' ∧ Inv c s' acc ((h :: t).dropWhile (fun x => x != k2)) ∧ s'.info = s.info ∧ s'.n = s.n := by
              obtain ⟨l1, l2, el⟩ := List.append_of_mem (List.mem_filter.1 hm).1
              have hnd := i1.nodup_l
              rw [el] at hnd
              have hn1 : k2 ∉ l1 := fun h => (List.nodup_append.1 hnd).2.2 k2 h k2 (by simp) rfl
              have hd : (h :: t).dropWhile (fun x => x != k2) = k2 :: l2 := by
                rw [el, List.dropWhile_append_of_pos (by intro a ha; simp; exact fun e => hn1 (e ▸ ha))]
                exact List.dropWhile_cons_of_neg (by simp)
              rw [hd]
              have hi : Inv c { s1 with pos := s1.pos, keyframe := s1.keyframe } acc (l1 ++ k2 :: l2) := by rw [← el]; exact i1
              have hll := i1.ring.hlen
              rw [el] at hll
              simp only [List.length_append, List.length_cons] at hll
              obtain ⟨s', t1, t2, t3, t4⟩ := trim_spec hi (by rw [e1]; exact hkk) hn1 (k := c.q + 1) (by omega)
              exact ⟨s', t1, t2, by rw [t3, e1], by rw [t4, e6]⟩
            rw [hcount, e1]
            by_cases c1 : (h :: t).length + 2 ≥ c.q
            · rw [if_pos c1, if_pos (.inl c1)]; exact htrim
            · rw [if_neg c1]
              by_cases c2 : (s.info f).video = false
              · rw [if_pos c2, if_neg (by rintro (h | ⟨h, _⟩); exact c1 h; rw [c2] at h; cases h)]
                exact ⟨s1, rfl, i1, e1, e6⟩
              · rw [if_neg c2]
                by_cases c3 : sub32 (ts f) (ts k2) < c.cacheTime
                · rw [if_pos c3, if_neg (by rintro (h | ⟨_, h⟩); exact c1 h; rw [← age_eq] at h; omega)]
                  exact ⟨s1, rfl, i1, e1, e6⟩
                · rw [if_neg c3, if_pos (.inr ⟨by simpa using c2, by rw [← age_eq]; omega⟩)]; exact htrim

/-- The relation between the code's state and the specification's. -/
structure Sim (c : Cfg) (s : St) (p : Sp) : Prop where
  inv : Inv c s p.acc p.l
  n : s.n = p.n
  info : s.info = p.info

theorem sim_init {c : Cfg} (hq : 0 < c.q) : Sim c init {} := by
  refine ⟨⟨⟨hq, hq, by simp [init], fun i h => by simp at h⟩, ⟨[], rfl, rfl, rfl⟩, by simp, by simp, rfl, by simp, ⟨?_, ?_, ?_, ?_⟩, fun _ => ⟨rfl, fun _ _ => rfl⟩⟩, rfl, rfl⟩ <;> simp [init]

theorem set_eq {α : Type} (g : Nat → α) (n : Nat) (v : α) : set g n v = fun x => if x = n then v else g x := rfl

theorem all_nokey {c : Cfg} {s : St} {acc l : List Nat} (i : Inv c s acc l) : (acc.all fun x => !IsKey s.info x) = decide (s.keyframe = none) := by
  by_cases h : s.keyframe = none
  · rw [decide_eq_true h, List.all_eq_true]
    intro x hx
    rw [show IsKey s.info x = isKey s.info x from rfl, i.nokey h x hx]; rfl
  · rw [decide_eq_false h, List.all_eq_false]
    cases e : l.filter (isKey s.info) with
    | nil =>
      have := i.keys
      rw [e] at this
      exact absurd this h
    | cons a b =>
      have hm : a ∈ l.filter (isKey s.info) := by rw [e]; simp
      refine ⟨a, i.mem (List.mem_filter.1 hm).1, ?_⟩
      rw [show IsKey s.info a = isKey s.info a from rfl, (List.mem_filter.1 hm).2]; simp

theorem sim_step {c : Cfg} {ts : Nat → Nat} {s : St} {p : Sp} {fr : Fr} (h : Sim c s p) (hl : Legal c p fr) :
    ∃ s', cacheFrame c ts s fr = some (s', (specStep c ts p fr).2) ∧ Sim c s' (specStep c ts p fr).1 := by
  obtain ⟨i, hn, hinfo⟩ := h
  have j := i.new fr
  have hcount : (c.q + (newFrame s fr).last - (newFrame s fr).pos) % c.q = p.l.length := by
    rw [j.ring.hlast]; exact count_eq j.ring.hpos j.ring.hlen
  have hni : (newFrame s fr).info = fun x => if x = p.n then fr else p.info x := by
    show set s.info s.n fr = _
    rw [set_eq, hn, hinfo]
  have hnn : (newFrame s fr).n = p.n + 1 := by show s.n + 1 = _; rw [hn]
  unfold cacheFrame specStep
  dsimp only
  rw [hcount]
  by_cases c1 : p.l.length + 1 ≥ c.q
  · rw [if_pos c1, if_pos c1]
    exact ⟨_, rfl, j, hnn, hni⟩
  · rw [if_neg c1, if_neg c1, ← hni, all_nokey j]
    by_cases c2 : (newFrame s fr).keyframe = none ∧ fr.video = true ∧ fr.key = false ∧ fr.header = false
    · obtain ⟨c21, c22, c23, c24⟩ := c2
      rw [if_pos ⟨c21, c22, c23, c24⟩, if_pos (by simp [c21, c22, c23, c24])]
      exact ⟨_, rfl, j, hnn, rfl⟩
    · have c2' : ¬ (decide ((newFrame s fr).keyframe = none) && (fr.video && !fr.key && !fr.header)) = true := by
        simpa [and_assoc] using c2
      rw [if_neg c2, if_neg c2']
      have hf : s.n ∉ p.acc := fun h => by have := i.lt _ h; omega
      have hfn : s.n < (newFrame s fr).n := Nat.lt_succ_self _
      have hff : (newFrame s fr).info s.n = fr := set_same _ _ _
      have key : ∃ next' kf, (if fr.key = true ∧ fr.header = false then addKey (newFrame s fr) s.n else some (newFrame s fr)) =
          some { newFrame s fr with next := next', keyframe := kf } ∧ Linked next' kf ((p.l ++ [s.n]).filter (isKey (newFrame s fr).info)) ∧
          (kf = none → (newFrame s fr).keyframe = none ∧ isKey (newFrame s fr).info s.n = false) := by
        by_cases c3 : fr.key = true ∧ fr.header = false
        · rw [if_pos c3]
          have hle : p.l.length < (newFrame s fr).n + 2 := by
            have := j.nodup_l.length_le_of_subset (l₂ := List.range (newFrame s fr).n) (fun a ha => List.mem_range.2 (j.lt a (j.mem ha)))
            rw [List.length_range] at this
            omega
          obtain ⟨nx, kf, k1, k2, k3⟩ := addKey_spec j hf (set_same _ _ _) (by unfold isKey; rw [hff, c3.1, c3.2]; rfl) hle
          exact ⟨nx, kf, k1, k2, fun h => absurd h k3⟩
        · rw [if_neg c3]
          have hk : isKey (newFrame s fr).info s.n = false := by
            unfold isKey; rw [hff]
            cases e1 : fr.key <;> cases e2 : fr.header <;> simp [e1, e2] at c3 ⊢
          refine ⟨_, _, rfl, ?_, fun h => ⟨h, hk⟩⟩
          rw [List.filter_append, List.filter_cons_of_neg (by simp [hk]), List.filter_nil, List.append_nil]
          exact j.keys
      obtain ⟨nx, kf, k1, k2, k3⟩ := key
      rw [k1]
      dsimp only
      have jp := j.push hf hfn (by omega) k2 k3
      have hlast : (push c { newFrame s fr with next := nx, keyframe := kf } s.n).last = (s.last + 1) % c.q := rfl
      have hpi : (push c { newFrame s fr with next := nx, keyframe := kf } s.n).info = (newFrame s fr).info := rfl
      obtain ⟨s', r1, r2, r3, r4⟩ := resetGop_spec (ts := ts) (f := s.n) jp (by
        intro hd
        rw [hpi] at hd
        have hall := all_of_dropWhile hd
        rcases hl with h | h | h | h
        · have := hall s.n (by simp)
          rw [hff, h] at this; cases this
        · obtain ⟨x, hx, hxh⟩ := List.any_eq_true.1 h
          have h1 := hall x (by simp [hx])
          have h2 : (newFrame s fr).info x = p.info x := by
            rw [hni]; dsimp only
            have := i.lt x (i.mem hx)
            rw [if_neg (by omega)]
          rw [h2] at h1
          unfold IsHeader at hxh
          rw [h1] at hxh; cases hxh
        · obtain ⟨f1, f2⟩ := jp.fresh (by simpa using h)
          apply f2
          rw [hlast, i.ring.hlast]
          simp only [List.length_append, List.length_cons, List.length_nil] at f1 ⊢
          have f1 : s.pos + (p.l.length + 1) = p.acc.length + 1 := f1
          rw [Nat.mod_add_mod, Nat.mod_eq_of_lt (by omega)]
          omega
        · exact absurd h c1)
      refine ⟨s', by rw [r1]; rfl, ?_, ?_, ?_⟩
      · show Inv c s' (p.acc ++ [p.n]) (keep c ts (newFrame s fr).info p.n ((p.l ++ [p.n]).dropWhile (IsHeader (newFrame s fr).info)))
        rw [hpi] at r2
        rw [← hn]
        exact r2
      · rw [r4]; exact hnn
      · rw [r3, hpi]

theorem sim_run {c : Cfg} : ∀ {i : Input} {s : St} {p : Sp}, Sim c s p → LegalRun c p i →
    ∃ s', run c s i = some (s', (specRun c p i).2) ∧ Sim c s' (specRun c p i).1
  | [], s, _, h, _ => ⟨s, rfl, h⟩
  | (ts, fr) :: rest, s, p, h, hl => by
    obtain ⟨s1, h1, h2⟩ := sim_step (ts := ts) h hl.1
    obtain ⟨s2, h3, h4⟩ := sim_run h2 hl.2
    exact ⟨s2, by unfold run; rw [h1]; dsimp only; rw [h3]; rfl, h4⟩

/-- **C34** (follows the specification, for sequences in which the cache never consists of codec headers only once the ring has come round). For
every configuration, every sequence of frames and every behaviour of the time stamps: `ngx_rtmp_gop_cache` never dereferences NULL nor loops,
answers as the specification says, and its ring holds exactly the frames of the specification, in order. -/
theorem C34_refines_partial (c : Cfg) (hq : 0 < c.q) (i : Input) (h : LegalRun c {} i) :
    ∃ s, run c init i = some (s, (specRun c {} i).2) ∧ held c s = (specRun c {} i).1.l.map some := by
  obtain ⟨s, h1, h2⟩ := sim_run (sim_init hq) h
  exact ⟨s, h1, h2.inv.held_eq⟩

/-! ### What the specification says -/

/-- The frames that left the cache, and those in it. -/
theorem keep_suffix (c : Cfg) (ts : Nat → Nat) (info : Nat → Fr) (f : Nat) (l : List Nat) : ∃ d, l = d ++ keep c ts info f l := by
  unfold keep
  split
  · split
    · exact ⟨[], rfl⟩
    · rename_i h t _
      split
      · exact ⟨[h], rfl⟩
      · exact ⟨[], rfl⟩
  · exact ⟨[], rfl⟩
  · split
    · exact ⟨_, (List.takeWhile_append_dropWhile).symm⟩
    · exact ⟨[], rfl⟩

/-- **C34** (contiguous, in order, never overfilled). The ring of the code holds the last frames among those taken, without a gap, in the order
of publication (frames are numbered in that order), and never more than `out_queue - 1` of them. -/
theorem C34_contiguous_partial (c : Cfg) (hq : 0 < c.q) (i : Input) (h : LegalRun c {} i) :
    ∃ s rcs d l, run c init i = some (s, rcs) ∧ held c s = l.map some ∧ (specRun c {} i).1.acc = d ++ l ∧ l.length < c.q ∧
      (d ++ l).Pairwise (· < ·) := by
  obtain ⟨s, h1, h2⟩ := sim_run (sim_init hq) h
  obtain ⟨d, e, _⟩ := h2.inv.suf
  have hs : ∀ (i : Input) (p : Sp), p.acc.Pairwise (· < ·) ∧ (∀ f ∈ p.acc, f < p.n) →
      (specRun c p i).1.acc.Pairwise (· < ·) ∧ (∀ f ∈ (specRun c p i).1.acc, f < (specRun c p i).1.n) := by
    intro i
    induction i with
    | nil => exact fun p h => h
    | cons x rest ih =>
      intro p hp
      refine ih _ ?_
      unfold specStep
      dsimp only
      split
      · exact ⟨hp.1, fun f hf => Nat.lt_succ_of_lt (hp.2 f hf)⟩
      · split
        · exact ⟨hp.1, fun f hf => Nat.lt_succ_of_lt (hp.2 f hf)⟩
        · refine ⟨List.pairwise_append.2 ⟨hp.1, by simp, fun a ha b hb => ?_⟩, fun f hf => ?_⟩
          · rw [List.mem_singleton.1 hb]; exact hp.2 a ha
          · rcases List.mem_append.1 hf with h | h
            · exact Nat.lt_succ_of_lt (hp.2 f h)
            · rw [List.mem_singleton.1 h]; exact Nat.lt_succ_self _
  have := (hs i {} ⟨List.Pairwise.nil, fun f hf => by cases hf⟩).1
  exact ⟨s, _, d, _, h1, h2.inv.held_eq, e, h2.inv.ring.hlen, e ▸ this⟩

/-- **C34** (references). Of the frames taken, `d` have left the ring and `l` are in it. Every frame taken has been acquired once. It has been
released once if it has left the ring and is not the last audio or the last video header of those that left; otherwise not at all. These last
headers are what the cache keeps for the players that join. -/
theorem C34_refs_partial (c : Cfg) (hq : 0 < c.q) (i : Input) (h : LegalRun c {} i) :
    ∃ s rcs d l, run c init i = some (s, rcs) ∧ held c s = l.map some ∧ (specRun c {} i).1.acc = d ++ l ∧
      s.aac = (d.filter fun f => (s.info f).header && !(s.info f).video).getLast? ∧
      s.avc = (d.filter fun f => (s.info f).header && (s.info f).video).getLast? ∧
      ∀ f, s.acq f = (if f ∈ d ++ l then 1 else 0) ∧ s.rel f = if f ∈ d ∧ s.aac ≠ some f ∧ s.avc ≠ some f then 1 else 0 := by
  obtain ⟨s, h1, h2⟩ := sim_run (sim_init hq) h
  obtain ⟨d, e, e1, e2⟩ := h2.inv.suf
  refine ⟨s, _, d, _, h1, h2.inv.held_eq, e, ?_, ?_, fun f => ⟨?_, ?_⟩⟩
  · rw [e1]; unfold lastHdr; congr 1; refine List.filter_congr fun f _ => ?_
    cases (s.info f).video <;> rfl
  · rw [e2]; unfold lastHdr; congr 1; refine List.filter_congr fun f _ => ?_
    cases (s.info f).video <;> rfl
  · rw [h2.inv.refs.hacq, e]
  · rw [h2.inv.refs.hrel]
    have hnd := h2.inv.nodup
    rw [e] at hnd ⊢
    have hdis : ∀ x ∈ d, x ∉ (specRun c {} i).1.l := fun x hx hy => (List.nodup_append.1 hnd).2.2 x hx x hy rfl
    congr 1
    simp only [List.mem_append, eq_iff_iff]
    constructor
    · rintro ⟨a | a, b, r⟩
      · exact ⟨a, r⟩
      · exact absurd a b
    · rintro ⟨a, r⟩
      exact ⟨.inl a, hdis f a, r⟩

theorem specRun_append (c : Cfg) : ∀ (i j : Input) (p : Sp), (specRun c p (i ++ j)).1 = (specRun c (specRun c p i).1 j).1
  | [], _, _ => rfl
  | (_, _) :: rest, j, _ => specRun_append c rest j _

theorem LegalRun_append (c : Cfg) : ∀ (i j : Input) (p : Sp), LegalRun c p (i ++ j) ↔ LegalRun c p i ∧ LegalRun c (specRun c p i).1 j
  | [], _, _ => ⟨fun h => ⟨trivial, h⟩, fun h => h.2⟩
  | (_, _) :: rest, j, _ => by
    rw [List.cons_append]
    dsimp only [LegalRun, specRun]
    rw [LegalRun_append c rest j, and_assoc]

theorem keep_cases {c : Cfg} {ts : Nat → Nat} {info : Nat → Fr} {f : Nat} {l1 : List Nat} (hnd : l1.Nodup) :
    keep c ts info f l1 = l1 ∨
    (∃ a, l1 = a :: keep c ts info f l1 ∧ age ts f a > c.cacheTime ∧ ∀ x ∈ l1, ((info x).key && !(info x).header) = false) ∨
    (∃ d k t, l1 = d ++ k :: t ∧ keep c ts info f l1 = k :: t ∧ (info k).key = true ∧ (info k).header = false ∧
      (d.filter fun x => (info x).key && !(info x).header).length = 1 ∧
      (l1.length + 2 ≥ c.q ∨ ((info f).video = true ∧ age ts f k ≥ c.cacheTime))) := by
  cases hk : l1.filter (IsKey info) with
  | nil =>
    cases l1 with
    | nil => exact .inl rfl
    | cons a t =>
      have e : keep c ts info f (a :: t) = if age ts f a > c.cacheTime then t else a :: t := by
        unfold keep; rw [hk]
      rw [e]
      split
      · rename_i hage
        refine .inr (.inl ⟨a, rfl, hage, fun x hx => ?_⟩)
        exact Bool.eq_false_iff.2 (List.filter_eq_nil_iff.1 hk x hx)
      · exact .inl rfl
  | cons k1 r =>
    cases r with
    | nil => left; unfold keep; rw [hk]
    | cons k r =>
      have e : keep c ts info f l1 =
          if l1.length + 2 ≥ c.q ∨ ((info f).video = true ∧ age ts f k ≥ c.cacheTime) then l1.dropWhile (fun x => x != k) else l1 := by
        unfold keep; rw [hk]
      rw [e]
      split
      · rename_i hc
        right; right
        have hm : k ∈ l1.filter (IsKey info) := by rw [hk]; simp
        obtain ⟨hm1, hm2⟩ := List.mem_filter.1 hm
        have hsp := List.takeWhile_append_dropWhile (p := fun x => x != k) (l := l1)
        have hne : l1.dropWhile (fun x => x != k) ≠ [] := fun h => by
          have := all_of_dropWhile h k hm1
          simp at this
        have hhd := List.head_dropWhile_not (fun x => x != k) hne
        cases e : l1.dropWhile (fun x => x != k) with
        | nil => exact absurd e hne
        | cons y t =>
          simp only [e, List.head_cons, bne_eq_false_iff_eq] at hhd
          subst hhd
          rw [e] at hsp
          refine ⟨_, y, t, hsp.symm, rfl, ?_, ?_, ?_, hc⟩
          · unfold IsKey at hm2; simp at hm2; exact hm2.1
          · unfold IsKey at hm2; simp at hm2; exact hm2.2
          · have hk' := hk
            have hndf : (l1.filter (IsKey info)).Nodup := List.Pairwise.filter _ hnd
            rw [← hsp, List.filter_append, List.filter_cons_of_pos hm2] at hk'
            show ((l1.takeWhile fun x => x != y).filter (IsKey info)).length = 1
            have hnot : y ∉ (l1.takeWhile fun x => x != y).filter (IsKey info) := fun h => by
              have hnd2 := hnd
              rw [← hsp] at hnd2
              exact (List.nodup_append.1 hnd2).2.2 y (List.mem_filter.1 h).1 y (by simp) rfl
            cases eF : (l1.takeWhile fun x => x != y).filter (IsKey info) with
            | nil =>
              rw [eF] at hk'
              simp only [List.nil_append, List.cons.injEq] at hk'
              rw [hk, hk'.1] at hndf
              simp at hndf
            | cons u v =>
              rw [eF] at hk' hnot
              simp only [List.cons_append, List.cons.injEq] at hk'
              cases v with
              | nil => rfl
              | cons w v' =>
                simp only [List.cons_append, List.cons.injEq] at hk'
                exact absurd hk'.2.1 (fun e => hnot (by simp [e]))
      · exact .inl rfl

/-- **C34** (trimming). When a frame comes in, either the cache is left as it was (full, or waiting for a key frame), or: the frame is
appended; codec headers at the front are put aside; and then nothing is dropped, or - no key frame in the cache - the first frame because it is older
than `cache_time`, or - two key frames or more - what stands before the second one `k`. In the last case the cache starts at a key frame and still spans
`cache_time`, unless it was about to fill the ring. -/
theorem C34_trim_partial (c : Cfg) (hq : 0 < c.q) (i : Input) (ts : Nat → Nat) (fr : Fr) (h : LegalRun c {} (i ++ [(ts, fr)])) :
    ∃ s rcs s' rc l l', run c init i = some (s, rcs) ∧ cacheFrame c ts s fr = some (s', rc) ∧ held c s = l.map some ∧ held c s' = l'.map some ∧
      ((l' = l ∧ (l.length + 1 ≥ c.q ∨ fr = ⟨true, false, false⟩)) ∨ ∃ l1, l1 = (l ++ [s.n]).dropWhile (fun x => (s'.info x).header) ∧
        (l' = l1 ∨
         (∃ a, l1 = a :: l' ∧ age ts s.n a > c.cacheTime ∧ ∀ x ∈ l1, ((s'.info x).key && !(s'.info x).header) = false) ∨
         (∃ d k t, l1 = d ++ k :: t ∧ l' = k :: t ∧ (s'.info k).key = true ∧ (s'.info k).header = false ∧
            (d.filter fun x => (s'.info x).key && !(s'.info x).header).length = 1 ∧
            (l1.length + 2 ≥ c.q ∨ (fr.video = true ∧ age ts s.n k ≥ c.cacheTime))))) := by
  rw [LegalRun_append] at h
  obtain ⟨s, h1, h2⟩ := sim_run (sim_init hq) h.1
  obtain ⟨s', h3, h4⟩ := sim_step (ts := ts) (fr := fr) h2 h.2.1
  refine ⟨s, _, s', _, _, _, h1, h3, h2.inv.held_eq, h4.inv.held_eq, ?_⟩
  rw [h4.info, h2.n]
  have hnd := h2.inv.nodup_l
  have hnn : (specRun c {} i).1.n ∉ (specRun c {} i).1.l := fun h => by
    have := h2.inv.lt _ (h2.inv.mem h)
    rw [h2.n] at this; omega
  generalize (specRun c {} i).1 = p at hnd hnn
  unfold specStep
  dsimp only
  by_cases c1 : p.l.length + 1 ≥ c.q
  · rw [if_pos c1]; exact .inl ⟨rfl, .inl c1⟩
  rw [if_neg c1]
  split
  · rename_i hw
    refine .inl ⟨rfl, .inr ?_⟩
    obtain ⟨v, hd, k⟩ := fr
    simp at hw
    rw [hw.2.1.1, hw.2.1.2, hw.2.2]
  right
  dsimp only
  refine ⟨_, rfl, ?_⟩
  generalize hinfo : (fun x => if x = p.n then fr else p.info x) = info
  have hfr : (info p.n).video = fr.video := by rw [← hinfo]; simp
  rw [← hfr]
  have hnd' : ((p.l ++ [p.n]).dropWhile (IsHeader info)).Nodup := by
    refine List.Pairwise.sublist (List.dropWhile_sublist _) ?_
    refine List.nodup_append.2 ⟨hnd, by simp, fun a ha b hb e => ?_⟩
    rw [List.mem_singleton.1 hb] at e
    exact hnn (e ▸ ha)
  subst hinfo
  exact keep_cases hnd'

/-! ### The stream ends -/

theorem freeRing_spec {c : Cfg} {last : Nat} {cache : Nat → Option Nat} : ∀ {l : List Nat} {s : St} {k : Nat}, s.cache = cache → s.last = last →
    Ring c.q cache s.pos last l → l.length < k → l.Nodup →
    ∃ s', freeRing c k s = some s' ∧ s'.acq = s.acq ∧ s'.pos = s'.last ∧ ∀ f, s'.rel f = s.rel f + if f ∈ l then 1 else 0
  | _, _, 0, _, _, _, hk, _ => absurd hk (Nat.not_lt_zero _)
  | [], s, k + 1, e1, e2, r, _, _ => by
    refine ⟨s, ?_, rfl, ?_, fun f => by simp⟩
    · unfold freeRing; rw [if_pos (by rw [e2]; exact r.nil)]
    · rw [e2]; exact r.nil
  | f :: l, s, k + 1, e1, e2, r, hk, hnd => by
    obtain ⟨h1, h2⟩ := r.head
    unfold freeRing
    rw [if_neg (by rw [e2]; exact h2), e1, h1]
    dsimp only
    rw [List.nodup_cons] at hnd
    obtain ⟨s', g1, g2, g3, g4⟩ := freeRing_spec (l := l) (s := { free s f with pos := nxt c s.pos }) (k := k) e1 e2 (r.pop fun _ _ => rfl)
      (by simp at hk; omega) hnd.2
    refine ⟨s', g1, g2, g3, fun x => ?_⟩
    rw [g4]
    show set s.rel f (s.rel f + 1) x + _ = _
    by_cases e : x = f
    · subst e; rw [set_same, if_neg hnd.1]; simp
    · rw [set_ne _ _ e]; simp [e]

/-- **C34** (end of the stream). After any legal sequence of frames the cache can be closed, and then every reference it has taken has been given
back exactly once. -/
theorem C34_close_partial (c : Cfg) (hq : 0 < c.q) (i : Input) (h : LegalRun c {} i) :
    ∃ s rcs s', run c init i = some (s, rcs) ∧ close c s = some s' ∧ ∀ f, s'.acq f = (if f ∈ (specRun c {} i).1.acc then 1 else 0) ∧ s'.rel f = s'.acq f := by
  obtain ⟨s, h1, h2⟩ := sim_run (sim_init hq) h
  have i1 := h2.inv
  generalize hs0 : freeOpt (freeOpt s s.avc) s.aac = s0
  have p1 : s0.cache = s.cache ∧ s0.last = s.last ∧ s0.pos = s.pos ∧ s0.acq = s.acq := by
    rw [← hs0]; cases s.avc <;> cases s.aac <;> exact ⟨rfl, rfl, rfl, rfl⟩
  have p2 : ∀ f, s0.rel f = s.rel f + (if s.avc = some f ∨ s.aac = some f then 1 else 0) := by
    intro f
    rw [← hs0]
    cases ea : s.avc with
    | none =>
      cases eb : s.aac with
      | none => simp [freeOpt]
      | some b =>
        show set s.rel b (s.rel b + 1) f = _
        by_cases e : f = b
        · subst e; rw [set_same]; simp
        · rw [set_ne _ _ e]; simp [Ne.symm e]
    | some a =>
      cases eb : s.aac with
      | none =>
        show set s.rel a (s.rel a + 1) f = _
        by_cases e : f = a
        · subst e; rw [set_same]; simp
        · rw [set_ne _ _ e]; simp [Ne.symm e]
      | some b =>
        have hab : a ≠ b := fun e => by
          subst e
          have h1 := (i1.refs.havc a ea).2.2
          rw [(i1.refs.haac a eb).2.2] at h1; cases h1
        show set (set s.rel a (s.rel a + 1)) b (set s.rel a (s.rel a + 1) b + 1) f = _
        by_cases e : f = b
        · subst e; rw [set_same, set_ne _ _ (Ne.symm hab)]; simp
        · rw [set_ne _ _ e]
          by_cases e' : f = a
          · subst e'; rw [set_same]; simp
          · rw [set_ne _ _ e']; simp [Ne.symm e, Ne.symm e']
  have hlen := i1.ring.hlen
  obtain ⟨s', g1, g2, g3, g4⟩ := freeRing_spec (c := c) (s := s0) (k := c.q + 1) p1.1 p1.2.1 (by rw [p1.2.2.1]; exact i1.ring) (by omega) i1.nodup_l
  refine ⟨s, _, s', h1, by unfold close; rw [hs0]; exact g1, fun f => ?_⟩
  rw [g2, p1.2.2.2, i1.refs.hacq]
  refine ⟨rfl, ?_⟩
  rw [g4, p2, i1.refs.hrel]
  by_cases m1 : f ∈ (specRun c {} i).1.l
  · have m2 := i1.mem m1
    have n1 : s.aac ≠ some f := fun h => (i1.refs.haac f h).2.1 m1
    have n2 : s.avc ≠ some f := fun h => (i1.refs.havc f h).2.1 m1
    simp [m1, m2, n1, n2]
  · by_cases m2 : f ∈ (specRun c {} i).1.acc
    · by_cases n1 : s.aac = some f
      · simp [m1, m2, n1]
      · by_cases n2 : s.avc = some f
        · simp [m1, m2, n2]
        · simp [m1, m2, n1, n2]
    · have n1 : s.aac ≠ some f := fun h => m2 (i1.refs.haac f h).1
      have n2 : s.avc ≠ some f := fun h => m2 (i1.refs.havc f h).1
      simp [m1, m2, n1, n2]

/-- Legal sequences: it is enough that a key frame has been taken before the ring comes round. -/
theorem legal_of_key {c : Cfg} (hq : 0 < c.q) {i : Input} (h : LegalRun c {} i) {k : Nat} (hk : k ∈ (specRun c {} i).1.acc)
    (hkey : IsKey (specRun c {} i).1.info k = true) (fr : Fr) : Legal c (specRun c {} i).1 fr := by
  obtain ⟨s, h1, h2⟩ := sim_run (sim_init hq) h
  have hkf : s.keyframe ≠ none := fun e => by
    have := h2.inv.nokey e k hk
    rw [h2.info] at this
    rw [show isKey (specRun c {} i).1.info k = IsKey (specRun c {} i).1.info k from rfl, hkey] at this
    cases this
  cases e : (specRun c {} i).1.l.filter (isKey s.info) with
  | nil => have := h2.inv.keys; rw [e] at this; exact absurd this hkf
  | cons a b =>
    have hm : a ∈ (specRun c {} i).1.l.filter (isKey s.info) := by rw [e]; simp
    obtain ⟨m1, m2⟩ := List.mem_filter.1 hm
    refine .inr (.inl (List.any_eq_true.2 ⟨a, m1, ?_⟩))
    rw [h2.info] at m2
    unfold isKey at m2
    unfold IsHeader
    simp at m2
    simp [m2.2]

/-! ### Where the property fails -/

/-- **C34 violated** (a long GOP): once the ring is full - one GOP of `out_queue - 1` messages - no frame is taken any more, not even a key frame:
for whatever is published afterwards, every frame is refused and the cache holds the same frames for ever. -/
theorem C34_stuck_violation (c : Cfg) (hq : 0 < c.q) (i j : Input) (h : LegalRun c {} i) (hf : (specRun c {} i).1.l.length + 1 ≥ c.q) :
    ∃ s rcs s' rcs', run c init i = some (s, rcs) ∧ run c s j = some (s', rcs') ∧ held c s' = held c s ∧ ∀ r ∈ rcs', r = Rc.again := by
  obtain ⟨s, h1, h2⟩ := sim_run (sim_init hq) h
  generalize (specRun c {} i).1 = p at h2 hf
  have key : ∀ (j : Input) (s : St) (p : Sp), Sim c s p → p.l.length + 1 ≥ c.q →
      ∃ s' rcs', run c s j = some (s', rcs') ∧ held c s' = held c s ∧ ∀ r ∈ rcs', r = Rc.again := by
    intro j
    induction j with
    | nil => exact fun s p _ _ => ⟨s, [], rfl, rfl, fun r hr => by cases hr⟩
    | cons x rest ih =>
      intro s p h2 hf
      obtain ⟨s1, g1, g2⟩ := sim_step (ts := x.1) (fr := x.2) h2 (.inr (.inr (.inr hf)))
      have e : specStep c x.1 p x.2 = ({ p with n := p.n + 1, info := fun y => if y = p.n then x.2 else p.info y }, .again) := by
        unfold specStep; dsimp only; rw [if_pos hf]
      rw [e] at g1 g2
      obtain ⟨s', rcs', g3, g4, g5⟩ := ih s1 _ g2 hf
      refine ⟨s', Rc.again :: rcs', ?_, ?_, fun r hr => ?_⟩
      · obtain ⟨ts, fr⟩ := x
        unfold run; rw [g1]; dsimp only; rw [g3]; rfl
      · rw [g4, g2.inv.held_eq, h2.inv.held_eq]
      · rcases List.mem_cons.1 hr with h | h
        · exact h
        · exact g5 r h
  obtain ⟨s', rcs', g1, g2, g3⟩ := key j s p h2 hf
  exact ⟨s, _, s', rcs', h1, g1, g2, g3⟩

/-- 100 ms between frames -/
def tick (f : Nat) : Nat := 100 * f

/-- **C34 violated** (codec headers only): a publisher that sends nothing but codec headers makes the ring come round to a slot that was never
cleared, and a frame is released a second time. -/
theorem C34_double_free_violation : ∃ (c : Cfg) (i : Input) (s : St) (rcs : List Rc) (f : Nat),
    2 ≤ c.q ∧ run c init i = some (s, rcs) ∧ s.acq f = 1 ∧ s.rel f = 2 := by
  let a : (Nat → Nat) × Fr := (tick, ⟨false, true, false⟩)
  have h : (run ⟨4, 50⟩ init [a, a, a, a]).any (fun r => r.1.acq 0 == 1 && r.1.rel 0 == 2) = true := by decide +kernel
  obtain ⟨⟨s, rcs⟩, h1, h2⟩ := Option.any_eq_true .. |>.1 h
  simp at h2
  exact ⟨⟨4, 50⟩, _, s, rcs, 0, by decide, h1, h2.1, h2.2⟩

/-! ### Examples -/

section
private def vh : (Nat → Nat) × Fr := (tick, ⟨true, true, false⟩)
private def ah : (Nat → Nat) × Fr := (tick, ⟨false, true, false⟩)
private def kf : (Nat → Nat) × Fr := (tick, ⟨true, false, true⟩)
private def pf : (Nat → Nat) × Fr := (tick, ⟨true, false, false⟩)
private def au : (Nat → Nat) × Fr := (tick, ⟨false, false, false⟩)

/-- Headers, three GOPs, a header in between: the hypotheses hold, the cache trims at key frame 8. -/
example : LegalRun ⟨10, 300⟩ {} [vh, ah, kf, pf, au, kf, pf, vh, kf, pf, pf, au, pf] := by decide +kernel
example : (specRun ⟨10, 300⟩ {} [vh, ah, kf, pf, au, kf, pf, vh, kf, pf, pf, au, pf]).1.l = [8, 9, 10, 11, 12] := by decide +kernel
/-- A GOP that fills the ring: the hypotheses of the violation. -/
example : LegalRun ⟨4, 300⟩ {} [kf, pf, pf] ∧ (specRun ⟨4, 300⟩ {} [kf, pf, pf]).1.l.length + 1 ≥ 4 := by decide +kernel
end

end Verif.Gop
