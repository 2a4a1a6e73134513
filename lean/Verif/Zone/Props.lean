import Verif.Zone.Table
/- Properties C24, C25, C26: ownership, slot accounting and crash recovery of the stream zone. -/
namespace Verif.Zone
open Verif

/-- The memory between operations: reachable with any interleaving, nobody inside a zone function now. -/
def Quiet (c : Cfg) (ok : Bytes → Prop) (m : Mem) : Prop :=
  ∃ s, Reach c ok s ∧ s.mem = m ∧ ∀ w, s.pc w = .idle

/-! ## C24 -/

/-- C24, every interleaving: at no time do two processes own the same name. -/
theorem C24_exclusive_partial {c : Cfg} (h0 : 0 < c.nb) (h1 : 0 < c.ns) {s : Sys} (h : Reach c NulFree s) (n : Bytes)
    (p q : Int) (hp : Registered c s.mem n p) (hq : Registered c s.mem n q) : p = q := by
  obtain ⟨ch, fr, pl, hi⟩ := reach_inv (N := True) h0 h1 (fun _ n hn => hn) h
  exact registered_unique hi h0 hp hq

/-- C24, every interleaving: each event does to the table exactly what the specification allows. In particular the answer of an
insert is the owner, an existing owner is kept, and only the owner removes a name. -/
theorem C24_step_partial {c : Cfg} (h0 : 0 < c.nb) (h1 : 0 < c.ns) {s s' : Sys} {w : Nat} {e : Ev} (h : Reach c NulFree s)
    (hs : Step c s w e s') (hn : ∀ n, e.asks = some n → NulFree n) :
    Allowed (Registered c s.mem) (Registered c s'.mem) e := by
  obtain ⟨ch, fr, pl, hi⟩ := reach_inv (N := True) h0 h1 (fun _ n hn => hn) h
  obtain ⟨_, _, _, _, ha, _⟩ := step_allowed h0 hi hs hn
  exact ha

/-- C24, every interleaving: processes inside the zone functions never block each other for ever; some process inside can
take a step. -/
theorem C24_no_deadlock {c : Cfg} {s : Sys} (h : ∃ w, s.pc w ≠ .idle) :
    ∃ w e s', s.pc w ≠ .idle ∧ Step c s w e s' := by
  by_cases hl : ∃ w b, c.locked (s.pc w) = some b
  · obtain ⟨w, b, hb⟩ := hl
    have : ∃ e s', Step c s w e s' := by
      cases hp : s.pc w with
      | idle => rw [hp] at hb; simp [Cfg.locked] at hb
      | clrAt b' => rw [hp] at hb; simp [Cfg.locked] at hb
      | insNeed n =>
        cases hg : getNode s.mem n w with
        | none => exact ⟨_, _, .insFull hp hg⟩
        | some x => exact ⟨_, _, .insGet (i := x.1) (m := x.2) hp hg⟩
      | insHave n i => exact ⟨_, _, .insLink hp⟩
      | delPut n i => exact ⟨_, _, .delPut hp⟩
      | clr b' cur =>
        cases hf : following s.mem b' cur with
        | none => exact ⟨_, _, .clrBucket hp hf⟩
        | some i =>
          by_cases hs : (s.mem.nodes i).slot = w
          · exact ⟨_, _, .clrUnlink hp hf hs⟩
          · exact ⟨_, _, .clrNext hp hf hs⟩
      | clrPut b' cur i => exact ⟨_, _, .clrPut hp⟩
    obtain ⟨e, s', hs⟩ := this
    exact ⟨w, e, s', fun hi => by rw [hi] at hb; simp [Cfg.locked] at hb, hs⟩
  · obtain ⟨w, hw⟩ := h
    cases hp : s.pc w with
    | idle => exact absurd hp hw
    | clrAt b =>
      by_cases hb : b < c.nb
      · exact ⟨w, _, _, hw, .clrLock hp hb (fun w' h => hl ⟨w', b, h⟩)⟩
      · exact ⟨w, _, _, hw, .clrEnd hp hb⟩
    | insNeed n => exact absurd ⟨w, _, by rw [hp]; rfl⟩ hl
    | insHave n i => exact absurd ⟨w, _, by rw [hp]; rfl⟩ hl
    | delPut n i => exact absurd ⟨w, _, by rw [hp]; rfl⟩ hl
    | clr b' cur => exact absurd ⟨w, _, by rw [hp]; rfl⟩ hl
    | clrPut b' cur i => exact absurd ⟨w, _, by rw [hp]; rfl⟩ hl

private theorem upd_upd {α} (f : Nat → α) (w : Nat) (x y : α) : upd (upd f w x) w y = upd f w y := by
  funext j; by_cases e : j = w <;> simp [upd, e]

private theorem quiet_step {c ok} {s s' : Sys} (h : Reach c ok s') (hq : ∀ w, s.pc w = .idle) {w : Nat}
    (hp : s'.pc = upd s.pc w .idle) : Quiet c ok s'.mem :=
  ⟨s', h, rfl, fun w' => by rw [hp]; by_cases e : w' = w <;> simp [upd, e, hq]⟩

/-- C24 for `ngx_stream_zone_insert_stream` as a whole: over-long names are refused; an existing owner is returned and nothing
changes; otherwise the caller becomes owner, or the zone is full and the name is refused. -/
theorem C24_insert_partial {c : Cfg} (h0 : 0 < c.nb) (h1 : 0 < c.ns) {m : Mem} (hm : Quiet c NulFree m) (w : Nat)
    {name : Bytes} (hn : NulFree name) :
    ∃ m' r, insertStream c m w name = some (m', r) ∧ Quiet c NulFree m' ∧
      (nameLen ≤ name.length → r = .error ∧ m' = m) ∧
      (name.length < nameLen → ∀ p, Registered c m name p → r = .slot p ∧ m' = m) ∧
      (name.length < nameLen → (¬ ∃ p, Registered c m name p) → ¬ Full c m → r = .slot w ∧
        ∀ k q, Registered c m' k q ↔ Registered c m k q ∨ (k = name ∧ q = w)) ∧
      (name.length < nameLen → (¬ ∃ p, Registered c m name p) → Full c m → r = .error ∧ m' = m) := by
  obtain ⟨s, hr, rfl, hq⟩ := hm
  obtain ⟨ch, fr, pl, hi⟩ := reach_inv (N := True) h0 h1 (fun _ n hn => hn) hr
  have hcan : s.canLock c (c.bucket name) := by intro w'; rw [hq w']; simp [Cfg.locked]
  have hquiet : Quiet c NulFree s.mem := ⟨s, hr, rfl, hq⟩
  by_cases hlen : nameLen ≤ name.length
  · refine ⟨s.mem, .error, by simp [insertStream, hlen], hquiet, fun _ => ⟨rfl, rfl⟩, ?_, ?_, ?_⟩ <;> (intro h; omega)
  · have hlen' : name.length < nameLen := by omega
    have hu : ∀ x, search s.mem name (c.ns + 1) none (s.mem.head (c.bucket name)) = x →
        insertStream c s.mem w name = (match x with
          | none => none
          | some (_, some i) => some (s.mem, .slot (s.mem.nodes i).slot)
          | some (_, none) =>
            match getNode s.mem name w with
            | none => some (s.mem, .error)
            | some (i, m1) => some (link m1 (c.bucket name) w i, .slot w)) := by
      intro x hx
      rw [insertStream, if_neg (by omega), hx]
      cases x with
      | none => rfl
      | some y => rcases y with ⟨_, _ | _⟩ <;> rfl
    rcases hi.search h0 name with ⟨pre, i, post, e1, e2, e3⟩ | ⟨e1, cur, e3⟩
    · have him : i ∈ ch (c.bucket name) := by rw [e1]; simp
      rw [registered_isName hi h0 him] at e2
      have hreg := (registered_bucket hi h0 name _).2 ⟨i, him, e2, rfl⟩
      refine ⟨s.mem, .slot (s.mem.nodes i).slot, by rw [hu _ e3], hquiet, fun h => by omega, ?_, ?_, ?_⟩
      · intro _ p hp
        exact ⟨by rw [registered_unique hi h0 hp hreg], rfl⟩
      · intro _ h; exact absurd ⟨_, hreg⟩ h
      · intro _ h; exact absurd ⟨_, hreg⟩ h
    · have hno : ¬ ∃ p, Registered c s.mem name p := by
        rintro ⟨p, hp⟩
        rw [registered_bucket hi h0] at hp
        obtain ⟨j, hj, e4, _⟩ := hp
        have := e1 j hj
        rw [(registered_isName hi h0 hj).2 e4] at this
        cases this
      cases fr with
      | nil =>
        have hg := hi.rep.get_none name w
        refine ⟨s.mem, .error, by rw [hu _ e3]; simp [hg], hquiet, fun h => by omega, ?_, ?_, ?_⟩
        · intro _ p hp; exact absurd ⟨p, hp⟩ hno
        · intro _ _ hnf
          exact absurd (full_of_nil hi (fun w' => by rw [hq w']; rfl)) hnf
        · intro _ _ _; exact ⟨rfl, rfl⟩
      | cons i fr =>
        obtain ⟨m1, hg, hrep1, hil, _, _, _⟩ := hi.rep.get name w w
        have st1 : Step c s w (.asked w name) { s with pc := upd s.pc w (.insNeed name) } := .insMiss (hq w) hlen' hcan e3
        have r1 := hr.step st1 (fun n h => by simp only [Ev.asks, Option.some.injEq] at h; exact h ▸ hn)
        have st2 : Step c { s with pc := upd s.pc w (.insNeed name) } w .tau
            { mem := m1, pc := upd (upd s.pc w (.insNeed name)) w (.insHave name i) } := .insGet (by simp) hg
        have r2 := r1.step st2 (fun n h => by simp [Ev.asks] at h)
        have st3 : Step c { mem := m1, pc := upd (upd s.pc w (.insNeed name)) w (.insHave name i) } w
            (.inserted w name (.slot w)) ⟨link m1 (c.bucket name) w i,
              upd (upd (upd s.pc w (.insNeed name)) w (.insHave name i)) w .idle⟩ := .insLink (by simp)
        have r3 := r2.step st3 (fun n h => by simp [Ev.asks] at h)
        have a2 := C24_step_partial h0 h1 r1 st2 (fun n h => by simp [Ev.asks] at h)
        have a3 := C24_step_partial h0 h1 r2 st3 (fun n h => by simp [Ev.asks] at h)
        simp only [Allowed] at a2 a3
        rw [a2] at a3
        refine ⟨link m1 (c.bucket name) w i, .slot w, by rw [hu _ e3]; simp [hg],
          quiet_step r3 hq (w := w) (by simp [upd_upd]), fun h => by omega, ?_, ?_, ?_⟩
        · intro _ p hp; exact absurd ⟨p, hp⟩ hno
        · intro _ _ _
          refine ⟨rfl, fun k q => ?_⟩
          obtain ⟨b1, _, _, b4, b5⟩ := a3
          by_cases e : k = name
          · subst e
            constructor
            · intro h; exact .inr ⟨rfl, b4 q h⟩
            · rintro (h | ⟨_, rfl⟩)
              · exact absurd ⟨q, h⟩ hno
              · exact b1
          · rw [b5 k e]; simp [e]
        · intro _ _ hf
          obtain ⟨l, l1, l2, l3⟩ := hf
          have := registered_len hi.rep l l1 l3
          simp at this
          omega

/-- C24 for `ngx_stream_zone_delete_stream` as a whole: the owner removes the name, anybody else changes nothing. -/
theorem C24_delete_partial {c : Cfg} (h0 : 0 < c.nb) (h1 : 0 < c.ns) {m : Mem} (hm : Quiet c NulFree m) (w : Nat)
    (name : Bytes) :
    ∃ m', deleteStream c m w name = some m' ∧ Quiet c NulFree m' ∧ (¬ Registered c m name w → m' = m) ∧
      (Registered c m name w → ∀ k q, Registered c m' k q ↔ Registered c m k q ∧ k ≠ name) := by
  obtain ⟨s, hr, rfl, hq⟩ := hm
  obtain ⟨ch, fr, pl, hi⟩ := reach_inv (N := True) h0 h1 (fun _ n hn => hn) hr
  have hcan : s.canLock c (c.bucket name) := by intro w'; rw [hq w']; simp [Cfg.locked]
  have hquiet : Quiet c NulFree s.mem := ⟨s, hr, rfl, hq⟩
  rcases hi.search h0 name with ⟨pre, i, post, e1, e2, e3⟩ | ⟨e1, cur, e3⟩
  · by_cases hsl : (s.mem.nodes i).slot = w
    · have st1 : Step c s w (.removed w name) ⟨unlink s.mem (c.bucket name) pre.getLast? i,
          upd s.pc w (.delPut name i)⟩ := .delUnlink (hq w) hcan e3 hsl
      have r1 := hr.step st1 (fun n h => by simp [Ev.asks] at h)
      have st2 : Step c { mem := unlink s.mem (c.bucket name) pre.getLast? i, pc := upd s.pc w (.delPut name i) } w .tau
          ⟨putNode (unlink s.mem (c.bucket name) pre.getLast? i) i,
            upd (upd s.pc w (.delPut name i)) w .idle⟩ := .delPut (name := name) (by simp)
      have r2 := r1.step st2 (fun n h => by simp [Ev.asks] at h)
      have a1 := C24_step_partial h0 h1 hr st1 (fun n h => by simp [Ev.asks] at h)
      have a2 := C24_step_partial h0 h1 r1 st2 (fun n h => by simp [Ev.asks] at h)
      simp only [Allowed] at a1 a2
      obtain ⟨b1, b2, b3⟩ := a1
      refine ⟨_, by simp only [deleteStream, e3]; rw [if_neg (by simpa using hsl)],
        quiet_step r2 hq (w := w) (by simp [upd_upd]), fun h => absurd b1 h, ?_⟩
      intro _ k q
      rw [a2]
      by_cases e : k = name
      · subst e
        constructor
        · intro h; exact absurd h (b2 q)
        · intro h; exact absurd rfl h.2
      · rw [b3 k e]; simp [e]
    · have st : Step c s w (.notRemoved w name) s := .delNone (hq w) hcan e3 (fun j hj => by cases hj; exact hsl)
      have a := C24_step_partial h0 h1 hr st (fun n h => by simp [Ev.asks] at h)
      exact ⟨s.mem, by simp only [deleteStream, e3]; rw [if_pos (by simpa using hsl)], hquiet, fun _ => rfl,
        fun h => absurd h a.1⟩
  · have st : Step c s w (.notRemoved w name) s := .delNone (hq w) hcan e3 (fun j hj => by cases hj)
    have a := C24_step_partial h0 h1 hr st (fun n h => by simp [Ev.asks] at h)
    exact ⟨s.mem, by simp only [deleteStream, e3], hquiet, fun _ => rfl, fun h => absurd h a.1⟩

/-! A configuration with colliding names, used for examples. -/
def exCfg : Cfg := { nb := 1, ns := 2, hash := fun _ => 0 }

example : Quiet exCfg NulFree (init exCfg) := ⟨_, .init, rfl, fun _ => rfl⟩
example : NulFree [97, 98] := by simp [NulFree]
/-- Process 3 registers "a", process 4 is told so; a second name takes the last slot, a third is refused; only the owner's
delete counts. -/
example :
    (insertStream exCfg (init exCfg) 3 [97]).bind (fun x => (insertStream exCfg x.1 4 [97]).bind (fun y =>
      (insertStream exCfg y.1 4 [98]).bind (fun z => (insertStream exCfg z.1 4 [99]).bind (fun u =>
        (deleteStream exCfg u.1 4 [97]).bind (fun v => (deleteStream exCfg v 3 [97]).bind (fun v' =>
          (insertStream exCfg v' 4 [99]).map (fun t => (x.2, y.2, z.2, u.2, t.2)))))))) =
    some (.slot 3, .slot 3, .slot 4, .error, .slot 4) := by decide +kernel

/-- C24 fails for names with a NUL byte (`ngx_strlen` on the stored name never equals the length): two processes both
become owner of the same name. -/
theorem C24_nul_violation : ∃ m m' : Mem, ∃ name : Bytes,
    insertStream exCfg (init exCfg) 3 name = some (m, .slot 3) ∧ insertStream exCfg m 4 name = some (m', .slot 4) ∧
    Registered exCfg m' name 3 ∧ Registered exCfg m' name 4 := by
  refine ⟨((insertStream exCfg (init exCfg) 3 [97, 0, 98]).getD (init exCfg, .error)).1,
    ((insertStream exCfg ((insertStream exCfg (init exCfg) 3 [97, 0, 98]).getD (init exCfg, .error)).1 4
      [97, 0, 98]).getD (init exCfg, .error)).1, [97, 0, 98], rfl, rfl, ?_, ?_⟩
  · exact ⟨0, by decide, 0, .next (i := 1) (.first rfl) rfl, rfl, rfl⟩
  · exact ⟨0, by decide, 1, .first rfl, rfl, rfl⟩

/-! ## C25 -/

/-- C25, every interleaving, all names: free list, buckets and the nodes in the hands of processes partition the slots; the
allocation counter is the number of slots not free; a node is in the hands of at most one process. -/
theorem C25_partition {c : Cfg} (h0 : 0 < c.nb) (h1 : 0 < c.ns) {s : Sys} (h : Reach c (fun _ => True) s) :
    ∃ (fr hand : List Nat) (ch : Nat → List Nat),
      Chain s.mem.nodes s.mem.free fr ∧ (∀ b, b < c.nb → Chain s.mem.nodes (s.mem.head b) (ch b)) ∧
      (fr ++ hand ++ (List.range c.nb).flatMap ch).Perm (List.range c.ns) ∧
      (∀ i, i ∈ hand ↔ ∃ w, holds (s.pc w) = some i) ∧
      (∀ w w' i, holds (s.pc w) = some i → holds (s.pc w') = some i → w = w') ∧
      s.mem.alloc = (hand ++ (List.range c.nb).flatMap ch).length := by
  obtain ⟨ch, fr, pl, hi⟩ := reach_inv (N := False) h0 h1 (fun h => h.elim) h
  have holdLt : ∀ w i, holds (s.pc w) = some i → i < c.ns := by
    intro w i hw
    have := hi.pcOk w
    cases hp : s.pc w with
    | insHave n j => rw [hp] at this hw; simp only [holds, Option.some.injEq] at hw; subst hw; exact this.1
    | delPut n j => rw [hp] at this hw; simp only [holds, Option.some.injEq] at hw; subst hw; exact this
    | clrPut b cur j => rw [hp] at this hw; simp only [holds, Option.some.injEq] at hw; subst hw; exact this.1
    | _ => rw [hp] at hw; simp [holds] at hw
  let isHeld : Place → Bool := fun p => match p with | .held _ => true | _ => false
  let hand := (List.range c.ns).filter (fun i => isHeld (pl i))
  have hhand : ∀ i, i ∈ hand ↔ i < c.ns ∧ ∃ w, pl i = .held w := by
    intro i
    simp only [hand, List.mem_filter, List.mem_range, isHeld]
    cases pl i <;> simp
  have hflat : ∀ i, i ∈ (List.range c.nb).flatMap ch ↔ i < c.ns ∧ ∃ b, pl i = .buck b := by
    intro i
    simp only [List.mem_flatMap, List.mem_range]
    constructor
    · rintro ⟨b, hb, hm⟩
      have := (hi.rep.chMem b hb i).1 hm
      exact ⟨this.1, b, this.2⟩
    · rintro ⟨hl, b, hb⟩
      have hbn := hi.rep.plb i b hl hb
      exact ⟨b, hbn, (hi.rep.chMem b hbn i).2 ⟨hl, hb⟩⟩
  have hflatNd : ((List.range c.nb).flatMap ch).Nodup := by
    rw [List.Nodup, List.pairwise_flatMap]
    refine ⟨fun b hb => hi.rep.chNd b (by simpa using hb), ?_⟩
    refine List.Pairwise.imp_of_mem ?_ List.nodup_range
    intro b b' hb hb' hne i hm j hm' e
    subst e
    have e1 := ((hi.rep.chMem b (by simpa using hb) i).1 hm).2
    have e2 := ((hi.rep.chMem b' (by simpa using hb') i).1 hm').2
    rw [e1] at e2
    exact hne (by cases e2; rfl)
  have hnd : (fr ++ hand ++ (List.range c.nb).flatMap ch).Nodup := by
    rw [List.nodup_append, List.nodup_append]
    refine ⟨⟨hi.rep.frNd, List.nodup_range.filter _, ?_⟩, hflatNd, ?_⟩
    · intro a ha b hb e
      subst e
      have e1 := ((hi.rep.frMem a).1 ha).2
      obtain ⟨_, w, e2⟩ := (hhand a).1 hb
      rw [e1] at e2; cases e2
    · intro a ha b hb e
      subst e
      obtain ⟨_, b, e2⟩ := (hflat a).1 hb
      rcases List.mem_append.1 ha with ha | ha
      · rw [((hi.rep.frMem a).1 ha).2] at e2; cases e2
      · obtain ⟨_, w, e1⟩ := (hhand a).1 ha
        rw [e1] at e2; cases e2
  have hperm : (fr ++ hand ++ (List.range c.nb).flatMap ch).Perm (List.range c.ns) := by
    rw [List.perm_ext_iff_of_nodup hnd List.nodup_range]
    intro i
    simp only [List.mem_append, hhand, hflat, hi.rep.frMem, List.mem_range]
    constructor
    · rintro ((h | h) | h) <;> exact h.1
    · intro hl
      cases hpl : pl i with
      | free => exact .inl (.inl ⟨hl, rfl⟩)
      | held w => exact .inl (.inr ⟨hl, w, rfl⟩)
      | buck b => exact .inr ⟨hl, b, rfl⟩
  refine ⟨fr, hand, ch, hi.rep.free, hi.rep.chain, hperm, ?_, ?_, ?_⟩
  · intro i
    rw [hhand]
    constructor
    · rintro ⟨hl, w, hw⟩
      exact ⟨w, (hi.held w i hl).1 hw⟩
    · rintro ⟨w, hw⟩
      have hl := holdLt w i hw
      exact ⟨hl, w, (hi.held w i hl).2 hw⟩
  · intro w w' i hw hw'
    have hl := holdLt w i hw
    have e1 := (hi.held w i hl).2 hw
    have e2 := (hi.held w' i hl).2 hw'
    rw [e1] at e2
    cases e2; rfl
  · have hlen := hperm.length_eq
    have := hi.rep.alloc
    simp only [List.length_append, List.length_range] at hlen ⊢
    omega

/-- C25, between operations: the counter is the number of registered names (entries of the table). -/
theorem C25_counter {c : Cfg} (h0 : 0 < c.nb) (h1 : 0 < c.ns) {m : Mem} (h : Quiet c NulFree m) :
    ∃ l : List Bytes, l.Nodup ∧ (∀ n, n ∈ l ↔ ∃ p, Registered c m n p) ∧ m.alloc = l.length := by
  obtain ⟨s, hr, rfl, hq⟩ := h
  obtain ⟨ch, fr, pl, hi⟩ := reach_inv (N := True) h0 h1 (fun _ n hn => hn) hr
  have hnh : ∀ i, i < c.ns → ∀ w, pl i ≠ .held w := by
    intro i hl w hw
    have := (hi.held w i hl).1 hw
    rw [hq w] at this; cases this
  let isB : Place → Bool := fun p => match p with | .buck _ => true | _ => false
  let used := (List.range c.ns).filter (fun i => isB (pl i))
  have hused : ∀ i, i ∈ used ↔ i < c.ns ∧ ∃ b, pl i = .buck b := by
    intro i
    simp only [used, List.mem_filter, List.mem_range, isB]
    cases pl i <;> simp
  have hin : ∀ i, i ∈ used → ∃ b, b < c.nb ∧ i ∈ ch b := by
    intro i hu
    obtain ⟨hl, b, hb⟩ := (hused i).1 hu
    have hbn := hi.rep.plb i b hl hb
    exact ⟨b, hbn, (hi.rep.chMem b hbn i).2 ⟨hl, hb⟩⟩
  refine ⟨used.map (fun i => (s.mem.nodes i).name), ?_, ?_, ?_⟩
  · rw [List.Nodup, List.pairwise_map]
    refine List.Pairwise.imp_of_mem ?_ (List.nodup_range.filter (fun i => isB (pl i)))
    intro i j hiu hju hne e
    obtain ⟨b, hb, hib⟩ := hin i hiu
    obtain ⟨b', hb', hjb⟩ := hin j hju
    have h1 := (hi.names trivial b hb i hib).2
    have h2 := (hi.names trivial b' hb' j hjb).2
    rw [e, h2] at h1
    subst h1
    exact hne (hi.uniq trivial b' hb' i hib j hjb e)
  · intro n
    simp only [List.mem_map]
    constructor
    · rintro ⟨i, hu, rfl⟩
      obtain ⟨b, hb, hib⟩ := hin i hu
      exact ⟨_, (registered_iff hi.rep _ _).2 ⟨b, hb, i, hib, rfl, rfl⟩⟩
    · rintro ⟨p, hp⟩
      obtain ⟨b, hb, i, hib, e1, _⟩ := (registered_iff hi.rep n p).1 hp
      have := (hi.rep.chMem b hb i).1 hib
      exact ⟨i, (hused i).2 ⟨this.1, b, this.2⟩, e1⟩
  · have hperm : (fr ++ used).Perm (List.range c.ns) := by
      rw [List.perm_ext_iff_of_nodup _ List.nodup_range]
      · intro i
        simp only [List.mem_append, hused, hi.rep.frMem, List.mem_range]
        constructor
        · rintro (h | h) <;> exact h.1
        · intro hl
          cases hpl : pl i with
          | free => exact .inl ⟨hl, rfl⟩
          | held w => exact absurd hpl (hnh i hl w)
          | buck b => exact .inr ⟨hl, b, rfl⟩
      · rw [List.nodup_append]
        refine ⟨hi.rep.frNd, List.nodup_range.filter _, ?_⟩
        intro a ha b hb e
        subst e
        have e1 := ((hi.rep.frMem a).1 ha).2
        obtain ⟨_, w, e2⟩ := (hused a).1 hb
        rw [e1] at e2; cases e2
    have hlen := hperm.length_eq
    have := hi.rep.alloc
    simp only [List.length_append, List.length_range, List.length_map] at hlen ⊢
    omega

/-- C25: the chain searches always end, for all names. -/
theorem C25_search_ends {c : Cfg} (h0 : 0 < c.nb) (h1 : 0 < c.ns) {s : Sys} (h : Reach c (fun _ => True) s) (name : Bytes) :
    ∃ r, search s.mem name (c.ns + 1) none (s.mem.head (c.bucket name)) = some r := by
  obtain ⟨ch, fr, pl, hi⟩ := reach_inv (N := False) h0 h1 (fun h => h.elim) h
  rcases hi.search h0 name with ⟨_, _, _, _, _, e3⟩ | ⟨_, _, e3⟩ <;> exact ⟨_, e3⟩

/-- A reachable state in the middle of an operation (process 3 has taken a node but not linked it). -/
example : ∃ s, Reach exCfg (fun _ => True) s ∧ holds (s.pc 3) = some 0 ∧ s.mem.alloc = 1 := by
  refine ⟨_, .step (.step .init (.insMiss (w := 3) (name := [97]) (cur := none) rfl (by decide) ?_ rfl) (fun _ _ => trivial))
    (.insGet (w := 3) (name := [97]) rfl rfl) (fun _ _ => trivial), rfl, rfl⟩
  intro w; simp [Cfg.locked]

/-! ## C26 -/

/-- One bucket of the clearing loop. -/
theorem clearBucket_spec {c : Cfg} (p : Int) {b : Nat} (hb : b < c.nb) : ∀ (post : List Nat) (k : Nat) (m : Mem) (ch fr pl)
    (pre : List Nat), Rep c m ch fr pl → ch b = pre ++ post → post.length < k → (∀ i, i < c.ns → ∀ w, pl i ≠ .held w) →
    ∃ m' fr' pl', clearBucket m p b k pre.getLast? = some m' ∧
      Rep c m' (upd ch b (pre ++ post.filter (fun i => (m.nodes i).slot ≠ p))) fr' pl' ∧
      (∀ i, i < c.ns → ∀ w, pl' i ≠ .held w) ∧
      ∀ j, (m'.nodes j).name = (m.nodes j).name ∧ (m'.nodes j).slot = (m.nodes j).slot := by
  intro post
  induction post with
  | nil =>
    intro k m ch fr pl pre h hs hk hh
    cases k with
    | zero => simp at hk
    | succ k =>
      have hch := h.chain b hb
      rw [hs] at hch
      have ha := hch.after
      have hx : following m b pre.getLast? = after m.nodes (m.head b) pre.getLast? := by cases pre.getLast? <;> rfl
      refine ⟨m, fr, pl, by simp [clearBucket, hx, ha], ?_, hh, fun _ => ⟨rfl, rfl⟩⟩
      have : upd ch b (pre ++ List.filter (fun i => (m.nodes i).slot ≠ p) []) = ch := by
        funext x; by_cases e : x = b
        · subst e; simp [hs]
        · rw [upd_ne _ _ e]
      rw [this]; exact h
  | cons i post ih =>
    intro k m ch fr pl pre h hs hk hh
    cases k with
    | zero => simp at hk
    | succ k =>
      have hch := h.chain b hb
      rw [hs] at hch
      have ha := hch.after
      have hx : following m b pre.getLast? = after m.nodes (m.head b) pre.getLast? := by cases pre.getLast? <;> rfl
      simp only [List.head?_cons] at ha
      by_cases hsl : (m.nodes i).slot = p
      · have h2 := h.unlink (i := i) 0 hb hs
        have hil := ((h.chMem b hb i).1 (by rw [hs]; simp)).1
        have h3 := h2.put (i := i) (w := 0) hil (by simp)
        have hns : ∀ j, ((putNode (unlink m b pre.getLast? i) i).nodes j).name = (m.nodes j).name ∧
            ((putNode (unlink m b pre.getLast? i) i).nodes j).slot = (m.nodes j).slot := by
          intro j
          have e1 := put_name (unlink m b pre.getLast? i) i j
          have e2 := unlink_name m b pre.getLast? i j
          exact ⟨e1.1.trans e2.1, e1.2.trans e2.2⟩
        obtain ⟨m', fr', pl', e1, e2, e3, e4⟩ := ih k _ _ _ _ pre h3 (by simp) (by simp at hk; omega) (by
          intro j hj w
          by_cases e : j = i
          · subst e; simp
          · rw [upd_ne _ _ e, upd_ne _ _ e]; exact hh j hj w)
        refine ⟨m', fr', pl', by simp only [clearBucket, hx, ha]; rw [if_pos hsl]; exact e1, ?_, e3, ?_⟩
        · have : upd (upd ch b (pre ++ post)) b (pre ++ post.filter
              (fun j => ((putNode (unlink m b pre.getLast? i) i).nodes j).slot ≠ p)) =
              upd ch b (pre ++ (i :: post).filter (fun j => (m.nodes j).slot ≠ p)) := by
            rw [upd_upd]
            congr 2
            rw [List.filter_cons_of_neg (by simp [hsl])]
            congr 1
            funext j
            rw [(hns j).2]
          rw [← this]; exact e2
        · intro j; exact ⟨(e4 j).1.trans (hns j).1, (e4 j).2.trans (hns j).2⟩
      · obtain ⟨m', fr', pl', e1, e2, e3, e4⟩ := ih k m ch fr pl (pre ++ [i]) h (by simp [hs]) (by simp at hk; omega) hh
        have hl : (pre ++ [i]).getLast? = some i := by simp
        rw [hl] at e1
        refine ⟨m', fr', pl', by simp only [clearBucket, hx, ha]; rw [if_neg hsl]; exact e1, ?_, e3, e4⟩
        rw [List.filter_cons_of_pos (by simp [hsl])]
        simpa using e2

theorem clearFrom_spec {c : Cfg} (p : Int) : ∀ (n b : Nat) (m : Mem) (ch fr pl), b + n = c.nb →
    Rep c m ch fr pl → (∀ i, i < c.ns → ∀ w, pl i ≠ .held w) →
    ∃ m' fr' pl' ch', clearFrom c m p b n = some m' ∧ Rep c m' ch' fr' pl' ∧
      (∀ b', b' < c.nb → ch' b' = if b ≤ b' then (ch b').filter (fun i => (m.nodes i).slot ≠ p) else ch b') ∧
      (∀ i, i < c.ns → ∀ w, pl' i ≠ .held w) ∧
      ∀ j, (m'.nodes j).name = (m.nodes j).name ∧ (m'.nodes j).slot = (m.nodes j).slot := by
  intro n
  induction n with
  | zero =>
    intro b m ch fr pl hbn h hh
    refine ⟨m, fr, pl, ch, rfl, h, ?_, hh, fun _ => ⟨rfl, rfl⟩⟩
    intro b' hb'
    rw [if_neg (by omega)]
  | succ n ih =>
    intro b m ch fr pl hbn h hh
    have hb : b < c.nb := by omega
    obtain ⟨m1, fr1, pl1, e1, e2, e3, e4⟩ := clearBucket_spec p hb (ch b) (c.ns + 1) m ch fr pl [] h rfl (h.chLen hb) hh
    obtain ⟨m2, fr2, pl2, ch2, f1, f2, f3, f4, f5⟩ := ih (b + 1) m1 _ fr1 pl1 (by omega) e2 e3
    refine ⟨m2, fr2, pl2, ch2, ?_, f2, ?_, f4, fun j => ⟨(f5 j).1.trans (e4 j).1, (f5 j).2.trans (e4 j).2⟩⟩
    · have e1' : clearBucket m p b (c.ns + 1) none = some m1 := by simpa using e1
      simp only [clearFrom, e1', f1]
    · intro b' hb'
      rw [f3 b' hb']
      have hsl : (fun i => decide ((m1.nodes i).slot ≠ p)) = (fun i => decide ((m.nodes i).slot ≠ p)) := by
        funext j; rw [(e4 j).2]
      rw [hsl]
      by_cases e : b' = b
      · subst e; rw [if_neg (by omega), if_pos (by omega)]; simp
      · rw [upd_ne _ _ e]
        by_cases hle : b ≤ b'
        · rw [if_pos (by omega), if_pos hle]
        · rw [if_neg (by omega), if_neg hle]

/-- C26: restarting (or ending) process slot `p` when nobody is inside a zone function removes exactly the names `p` owns; all
others keep their owner. It always ends. All names, even with NUL. -/
theorem C26_clear {c : Cfg} (h0 : 0 < c.nb) (h1 : 0 < c.ns) {m : Mem} (h : Quiet c (fun _ => True) m) (p : Int) :
    ∃ m', clear c m p = some m' ∧ ∀ n q, Registered c m' n q ↔ Registered c m n q ∧ q ≠ p := by
  obtain ⟨s, hr, rfl, hq⟩ := h
  obtain ⟨ch, fr, pl, hi⟩ := reach_inv (N := False) h0 h1 (fun h => h.elim) hr
  obtain ⟨m', fr', pl', ch', e1, e2, e3, _, e5⟩ := clearFrom_spec p c.nb 0 s.mem ch fr pl (by omega) hi.rep (by
    intro i hl w hw
    have := (hi.held w i hl).1 hw
    rw [hq w] at this; cases this)
  refine ⟨m', e1, ?_⟩
  intro n q
  rw [registered_iff e2, registered_iff hi.rep]
  constructor
  · rintro ⟨b, hb, i, him, g1, g2⟩
    rw [e3 b hb, if_pos (by omega)] at him
    simp only [List.mem_filter, decide_eq_true_eq] at him
    rw [(e5 i).1] at g1
    rw [(e5 i).2] at g2
    exact ⟨⟨b, hb, i, him.1, g1, g2⟩, by rw [← g2]; exact him.2⟩
  · rintro ⟨⟨b, hb, i, him, g1, g2⟩, hne⟩
    refine ⟨b, hb, i, ?_, by rw [(e5 i).1]; exact g1, by rw [(e5 i).2]; exact g2⟩
    rw [e3 b hb, if_pos (by omega)]
    simp only [List.mem_filter, decide_eq_true_eq]
    exact ⟨him, by rw [g2]; exact hne⟩

/-- C26 while other processes keep working: a step of a clearing process removes only a name it owns itself. -/
theorem C26_only_own {c : Cfg} (h0 : 0 < c.nb) (h1 : 0 < c.ns) {s s' : Sys} {w : Nat} {i : Nat} (h : Reach c NulFree s)
    (hs : Step c s w (.dropped w i) s') (n : Bytes) (q : Int) (hq : q ≠ w) :
    Registered c s'.mem n q ↔ Registered c s.mem n q := by
  obtain ⟨k, hk, ha⟩ := C24_step_partial h0 h1 h hs (fun n h => by simp [Ev.asks] at h)
  rw [ha n q]
  constructor
  · intro h; exact h.1
  · intro hr
    refine ⟨hr, ?_⟩
    intro e
    subst e
    exact hq (C24_exclusive_partial h0 h1 h n q w hr hk)

/-- C26 while other processes keep working: when clearing ends nothing is left of the cleared slot. -/
theorem C26_all_gone {c : Cfg} (h0 : 0 < c.nb) (h1 : 0 < c.ns) {s s' : Sys} {w : Nat} (h : Reach c NulFree s)
    (hs : Step c s w (.cleared w) s') (n : Bytes) : ¬ Registered c s'.mem n w := by
  have ha := C24_step_partial h0 h1 h hs (fun n h => by simp [Ev.asks] at h)
  rw [ha.2]
  exact ha.1 n

/-- Clearing slot 3 keeps the name of slot 4 in the same bucket. -/
example : ((insertStream exCfg (init exCfg) 3 [97]).bind (fun x => (insertStream exCfg x.1 4 [98]).bind (fun y =>
    (clear exCfg y.1 3).bind (fun m => (insertStream exCfg m 5 [98]).bind (fun z =>
      (insertStream exCfg z.1 5 [97]).map (fun u => (z.2, u.2, u.1.alloc))))))) = some (.slot 4, .slot 5, 2) := by
  decide +kernel

end Verif.Zone
