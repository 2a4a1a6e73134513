import Verif.Resolver.Count
import Verif.Resolver.Follow
/-
C86: the table of domain names that the client and the relays use.
-/
namespace Verif.Resolver

/-- Everyone who asked for a name has been called, or waits, exactly as often as it asked: nobody is forgotten and nobody is called twice, whatever is entered, removed and answered in between. -/
theorem C86_once (c : Conf) (os : List Op) (s : State) (h : run c State.init os = some s) (w : Caller) :
    (s.out.map Prod.fst).count w + (waiting s.recs s.nalloc).count w = (asked os).count w := by
  have := tally_run w os (inv_init c) h
  have z : tally w State.init = 0 := rfl
  rw [z, Nat.zero_add] at this
  exact this

/-- Nobody waits without a question under way: when all questions are answered, everyone was called. -/
theorem C86_landed (c : Conf) (os : List Op) (s : State) (h : run c State.init os = some s) (hf : s.flights = []) (w : Caller) :
    (s.out.map Prod.fst).count w = (asked os).count w := by
  have I := inv_run os (inv_init c) h
  have hw : ∀ i, (s.recs i).waiters = [] := by
    intro i
    cases e : (s.recs i).waiters with
    | nil => rfl
    | cons x y =>
      obtain ⟨n, hn⟩ := I.wait_fly i (by rw [e]; simp)
      rw [hf] at hn; cases hn
  have : ∀ n, waiting s.recs n = [] := by
    intro n
    induction n with
    | zero => rfl
    | succ n ih => simp [waiting, ih, hw]
  have h1 := C86_once c os s h w
  rw [this, List.count_nil, Nat.add_zero] at h1
  exact h1

/-- A name is looked up: the answer is one of the (at most eight) addresses of the last good answer for that name, in whatever letters it is written; there is none for a name that was not entered, was removed, or was not answered yet. Partial: no name may be removed while a question for it is under way. -/
theorem C86_lookup_partial (c : Conf) (os : List Op) (s : State) (h : run c State.init os = some s) (hq : Calm c State.init os) (n : Name) (hn : Plain c n) (r : Nat) :
    gethost c s n r = some (choose (told (events c State.init os) (small n)) r) := by
  have I := inv_run os (inv_init c) h
  have O := own_run (L := AskedFor os) os (inv_init c) (own_init c _ fun _ _ => False) (fun n w r h => ⟨r, h⟩) hq h
  generalize ht : (events c State.init os).foldl Table.after (fun _ => none) = t at O
  have ht' : told (events c State.init os) = t := ht
  rw [ht']
  obtain ⟨_, ha, ho, hl, hb⟩ := hn
  have h1 : ¬ maxDomain < n.length := by unfold maxDomain; omega
  have h2 : ¬ c.nb = 0 := by omega
  simp only [gethost, ha, ho, h1, h2, if_false, Bool.not_true, Bool.false_eq_true]
  cases hf : find c s n with
  | none =>
    cases hx : t (small n) with
    | none => rfl
    | some l =>
      obtain ⟨j, k, hk, hnm⟩ := O.known (small n) (by rw [hx]; simp)
      rw [← lower_small] at hnm
      rw [find_of I hk hnm] at hf; cases hf
  | some i =>
    obtain ⟨hi, hnm⟩ := find_some hf
    have hT := O.tab _ i hi
    rw [hnm, lower_small] at hT
    rw [hT]
    by_cases hz : (s.recs i).naddrs = 0
    · simp only [hz, if_true, List.take_zero]; rfl
    · simp only [hz, if_false]
      have hlen : ((s.recs i).addrs.take (s.recs i).naddrs).length = (s.recs i).naddrs := by
        rw [List.length_take, I.len i]; have := I.num i; omega
      cases hc : (s.recs i).addrs.take (s.recs i).naddrs with
      | nil => rw [hc] at hlen; exact absurd hlen.symm hz
      | cons a as =>
        show some _ = some ((a :: as)[r % (a :: as).length]?)
        rw [← hc, hlen, List.getElem?_take_of_lt (Nat.mod_lt _ (by omega))]

/-- Who asks for a name with known addresses is called at once with one of them, and no question is put. Partial: as for C86_lookup_partial. -/
theorem C86_direct_partial (c : Conf) (os : List Op) (s : State) (h : run c State.init os = some s) (hq : Calm c State.init os) (n : Name) (hn : Plain c n) (w : Caller) (r : Nat)
    (a : Addr) (as : List Addr) (ht : told (events c State.init os) (small n) = some (a :: as)) :
    ∃ s', step c s (.start n w r) = some s' ∧ s'.out = s.out ++ [(w, (a :: as)[r % (a :: as).length]?)] ∧ s'.flights = s.flights ∧ waiting s'.recs s'.nalloc = waiting s.recs s.nalloc := by
  have hl := C86_lookup_partial c os s h hq n hn r
  have hg := (gate_pass c n).2 hn
  rw [ht] at hl
  obtain ⟨_, ha, ho, hm, hb⟩ := hn
  have h1 : ¬ maxDomain < n.length := by unfold maxDomain; omega
  have h2 : ¬ c.nb = 0 := by omega
  simp only [gethost, ha, ho, h1, h2, if_false, Bool.not_true, Bool.false_eq_true] at hl
  have hc : choose (some (a :: as)) r = (a :: as)[r % (a :: as).length]? := rfl
  have hx : (a :: as)[r % (a :: as).length]? ≠ none := by
    rw [List.getElem?_eq_getElem (Nat.mod_lt _ (by simp))]; simp
  rw [hc] at hl
  cases hf : find c s n with
  | none => rw [hf] at hl; injection hl with hl; exact absurd hl.symm hx
  | some i =>
    rw [hf] at hl
    simp only at hl
    by_cases hz : (s.recs i).naddrs = 0
    · rw [if_pos hz] at hl; injection hl with hl; exact absurd hl.symm hx
    · rw [if_neg hz] at hl; injection hl with hl
      simp only [step, start, hg, hf, ask, hz, if_false]
      exact ⟨_, rfl, by rw [hl], rfl, rfl⟩

/-- A caller who is given an address asked for a name for which this address was answered, or for this numeric address. Partial: the address may be empty (C86_first_violation), and no name may be removed while a question for it is under way (C86_reuse_violation). -/
theorem C86_own_partial (c : Conf) (os : List Op) (s : State) (h : run c State.init os = some s) (hq : Calm c State.init os) (w : Caller) (a : Addr) (hw : (w, some a) ∈ s.out) :
    ∃ n, AskedFor os w n ∧ (a = [] ∨ c.addr n = some a ∨ Heard (events c State.init os) n a) := by
  have O := own_run (L := AskedFor os) os (inv_init c) (own_init c _ fun _ _ => False) (fun n w r h => ⟨r, h⟩) hq h
  obtain ⟨n, hn, ho⟩ := O.out w a hw
  refine ⟨n, hn, ho.imp id (Or.imp id fun h => ?_)⟩
  rcases heard_fold _ _ n a h with h | h
  · cases h
  · exact h

/-- What those who wait are given when the answer arrives: with `m` addresses (at most eight count) one in `m` of them gets the first address, and the others get an empty one. -/
theorem C86_share (c : Conf) (os : List Op) (s : State) (h : run c State.init os = some s) (k i : Nat) (n : Name) (hk : s.flights[k]? = some (i, n)) (hw : (s.recs i).waiters ≠ [])
    (a : Addr) (as : List Addr) (hs : ∀ x ∈ a :: as, x.length ≤ 16) (rnd : Nat → Nat) :
    ∃ s', step c s (.result k (a :: as) rnd) = some s' ∧
      s'.out = s.out ++ (s.recs i).waiters.zipIdx.map fun p => (p.1, some (if (rnd 0 + p.2) % min 8 (as.length + 1) = 0 then a else [])) := by
  have I := inv_run os (inv_init c) h
  have hb := I.blank i (I.wait_zero i hw)
  have hany : (((a :: as).take maxAddrs).any fun a => decide (sockaddrSize < a.length)) = false := by
    rw [List.any_eq_false]
    intro x hx
    have := hs x (List.mem_of_mem_take hx)
    have : ¬ sockaddrSize < x.length := by unfold sockaddrSize; omega
    simp [this]
  simp only [step, hk, land, hany, Bool.false_eq_true, if_false]
  refine ⟨_, rfl, ?_⟩
  show s.out ++ _ = s.out ++ _
  congr 1
  have hlen : ((a :: as).take maxAddrs).length = min 8 (as.length + 1) := by rw [List.length_take]; rfl
  have hcons : (a :: as).take maxAddrs = a :: as.take 7 := rfl
  show (fill ((a :: as).take maxAddrs).length rnd 0 ((a :: as).take maxAddrs) (s.recs i).addrs (s.recs i).waiters).2 = _
  rw [hlen, hcons, fill_out, serve_eq, hb]
  apply List.map_congr_left
  intro p _
  have hm : (rnd 0 + p.2) % min 8 (as.length + 1) < 8 := Nat.lt_of_lt_of_le (Nat.mod_lt _ (by omega)) (Nat.min_le_left _ _)
  generalize (rnd 0 + p.2) % min 8 (as.length + 1) = x at hm
  rcases x with _ | x
  · rfl
  · have e : ((List.replicate 8 ([] : Addr)).set 0 a)[x + 1]? = some [] := by
      rw [List.getElem?_set_ne (by omega), List.getElem?_replicate, if_pos hm]
    rw [e]; rfl

/-- Of an answer with one address everyone who waits is given this address. Partial: with more addresses see C86_share. -/
theorem C86_single_partial (c : Conf) (os : List Op) (s : State) (h : run c State.init os = some s) (k i : Nat) (n : Name) (hk : s.flights[k]? = some (i, n)) (hw : (s.recs i).waiters ≠ [])
    (a : Addr) (hs : a.length ≤ 16) (rnd : Nat → Nat) :
    ∃ s', step c s (.result k [a] rnd) = some s' ∧ s'.out = s.out ++ (s.recs i).waiters.map fun w => (w, some a) := by
  obtain ⟨s', h1, h2⟩ := C86_share c os s h k i n hk hw a [] (by intro x hx; cases List.mem_singleton.1 hx; exact hs) rnd
  refine ⟨s', h1, ?_⟩
  rw [h2]
  congr 1
  have : ∀ p : Caller × Nat, (p.1, some (if (rnd 0 + p.2) % min 8 (([] : List Addr).length + 1) = 0 then a else [])) = (p.1, some a) := by
    intro p
    have : min 8 (([] : List Addr).length + 1) = 1 := rfl
    show (p.1, some (if (rnd 0 + p.2) % min 8 (([] : List Addr).length + 1) = 0 then a else [])) = _
    rw [this, Nat.mod_one, if_pos rfl]
  rw [List.map_congr_left fun p _ => this p]
  rw [show (fun p : Caller × Nat => (p.1, some a)) = (fun w => (w, some a)) ∘ Prod.fst from rfl, ← List.map_map, List.zipIdx_map_fst]

/-- The addresses of an operation -/
def Short (o : Op) : Prop := ∀ k as rnd, o = .result k as rnd → ∀ a ∈ as, a.length ≤ 16

/-- With addresses of at most sixteen bytes, the size of a `struct sockaddr`, nothing undefined happens. Partial: it does with longer ones (C86_long_violation). -/
theorem C86_defined_partial (c : Conf) (hb : 0 < c.nb) (hc : ∀ n a, c.addr n = some a → a.length ≤ 16) : ∀ (os : List Op) (s : State), (∀ o ∈ os, Short o) → ∃ s', run c s os = some s'
  | [], s, _ => ⟨s, rfl⟩
  | o :: os, s, hs => by
    have hg : ∀ n, gate c n ≠ .undefined := by
      intro n h
      unfold gate at h
      revert h
      have hb : c.nb ≠ 0 := by omega
      cases ha : c.addr n with
      | none => repeat' split
                all_goals simp_all
      | some a =>
        have := hc n a ha
        have : a.length ≤ sockaddrSize := this
        simp only [this, if_true]
        split <;> simp
    have : ∃ s1, step c s o = some s1 := by
      cases o with
      | add n =>
        simp only [step, add]
        split
        · exact absurd (by assumption) (hg n)
        · split <;> exact ⟨_, rfl⟩
        · exact ⟨_, rfl⟩
      | del n =>
        simp only [step, del]
        split
        · exact absurd (by assumption) (hg n)
        · split <;> exact ⟨_, rfl⟩
        · exact ⟨_, rfl⟩
      | start n w r =>
        simp only [step, start]
        split
        · exact ⟨_, rfl⟩
        · exact absurd (by assumption) (hg n)
        · exact ⟨_, rfl⟩
        · exact ⟨_, rfl⟩
        · split <;> exact ⟨_, rfl⟩
      | timer => exact ⟨_, rfl⟩
      | result k as rnd =>
        simp only [step]
        split
        · exact ⟨_, rfl⟩
        · cases as with
          | nil => exact ⟨_, rfl⟩
          | cons a as =>
            have hany : (((a :: as).take maxAddrs).any fun a => decide (sockaddrSize < a.length)) = false := by
              rw [List.any_eq_false]
              intro x hx
              have := hs _ List.mem_cons_self k _ rnd rfl x (List.mem_of_mem_take hx)
              have : ¬ sockaddrSize < x.length := by unfold sockaddrSize; omega
              simp [this]
            simp only [land, hany, Bool.false_eq_true, if_false]
            exact ⟨_, rfl⟩
    obtain ⟨s1, h1⟩ := this
    obtain ⟨s2, h2⟩ := C86_defined_partial c hb hc os s1 fun o ho => hs o (List.mem_cons_of_mem _ ho)
    exact ⟨s2, by simp only [run, h1]; exact h2⟩

/-- Sixteen bytes as the name server's address makes them -/
def v4 (a b c d : UInt8) : Addr := [2, 0, 0, 0, a, b, c, d, 0, 0, 0, 0, 0, 0, 0, 0]

/-- `a.b` and `c.d` -/
def nameA : Name := [97, 46, 98]
def nameB : Name := [99, 46, 100]
def plainConf : Conf := ⟨true, 101, fun _ => none⟩

/-- A caller asks for a name, two addresses are answered for it, and the caller is given an empty address, that is, a failure. -/
theorem C86_first_violation : ∃ (os : List Op) (s : State), run plainConf State.init os = some s ∧ Calm plainConf State.init os ∧
    events plainConf State.init os = [.entered nameA, .answered nameA [v4 10 0 0 1, v4 10 0 0 2]] ∧ (1, some []) ∈ s.out := by
  have h : (run plainConf State.init [.start nameA 1 0, .result 0 [v4 10 0 0 1, v4 10 0 0 2] fun _ => 1]).map State.out = some [(1, some [])] := by decide +kernel
  obtain ⟨s, hs, ho⟩ := Option.map_eq_some_iff.1 h
  refine ⟨_, s, hs, ?_, by decide +kernel, by rw [ho]; simp⟩
  exact ⟨(fun n h => by cases h), fun s1 _ => ⟨(fun n h => by cases h), fun _ _ => trivial⟩⟩

/-- A name is removed while a question for it is under way. Its record is taken for another name; the answer then counts for that one: a caller who asked for `c.d` is sent to an address of `a.b`, and so is everyone who looks `c.d` up, although nothing was ever answered for `c.d`. -/
theorem C86_reuse_violation : ∃ (os : List Op) (s : State) (a : Addr), run plainConf State.init os = some s ∧ (2, some a) ∈ s.out ∧ a ≠ [] ∧
    (∀ n, AskedFor os 2 n → n = nameB) ∧ ¬ Heard (events plainConf State.init os) nameB a ∧ ∀ r, gethost plainConf s nameB r = some (some a) := by
  have h : (run plainConf State.init [.start nameA 1 0, .del nameA, .start nameB 2 0, .result 0 [v4 10 0 0 1] fun _ => 0]).map (fun s => (s.out, find plainConf s nameB, (s.recs 0).naddrs, (s.recs 0).addrs[0]?)) = some ([(1, none), (2, some (v4 10 0 0 1))], some 0, 1, some (v4 10 0 0 1)) := by decide +kernel
  obtain ⟨s, hs, ho⟩ := Option.map_eq_some_iff.1 h
  injection ho with h1 ho
  injection ho with h2 ho
  injection ho with h3 h4
  refine ⟨_, s, v4 10 0 0 1, hs, by rw [h1]; simp, by decide, ?_, ?_, ?_⟩
  · rintro n ⟨r, hr⟩
    simp only [List.mem_cons, Op.start.injEq, List.not_mem_nil, or_false, reduceCtorEq, false_or] at hr
    rcases hr with h | h
    · exact absurd h.2.1 (by decide)
    · exact h.1
  · have he : events plainConf State.init [.start nameA 1 0, .del nameA, .start nameB 2 0, .result 0 [v4 10 0 0 1] fun _ => 0] = [.entered nameA, .removed nameA, .entered nameB, .answered nameA [v4 10 0 0 1]] := by decide +kernel
    rw [he]
    rintro ⟨m, as, hm, hs, _⟩
    simp only [List.mem_cons, Event.answered.injEq, List.not_mem_nil, or_false, reduceCtorEq, false_or] at hm
    rw [hm.1] at hs
    exact absurd hs (by decide)
  · intro r
    have hz : ¬ maxDomain < nameB.length := by decide
    simp only [gethost, plainConf, hz, if_false, Bool.not_true, Bool.false_eq_true]
    have h2 : find ⟨true, 101, fun _ => none⟩ s nameB = some 0 := h2
    rw [h2]
    simp only [h3, Nat.mod_one, h4]
    rfl

/-- An address of version 6 has 28 bytes and is written over what follows the sixteen bytes kept for it; the path of a Unix socket, 110 bytes, is written over the stack. -/
theorem C86_long_violation :
    (∀ a : Addr, a.length = 28 → run plainConf State.init [.start nameA 1 0, .result 0 [a] fun _ => 0] = none) ∧
    (∀ (c : Conf) (n : Name) (a : Addr), n ≠ [] → c.addr n = some a → a.length = 110 → run c State.init [.start n 1 0] = none) := by
  constructor
  · intro a ha
    have h : (run plainConf State.init [.start nameA 1 0]).map (fun s => s.flights[0]?) = some (some (0, nameA)) := by decide +kernel
    obtain ⟨s, hs, hf⟩ := Option.map_eq_some_iff.1 h
    have hst : step plainConf State.init (.start nameA 1 0) = some s := by
      simp only [run] at hs
      cases e : step plainConf State.init (.start nameA 1 0) with
      | none => rw [e] at hs; cases hs
      | some s1 => rw [e] at hs; exact hs
    have : ([a].take maxAddrs).any (fun a => decide (sockaddrSize < a.length)) = true := by
      show (decide (16 < a.length) || false) = true
      rw [ha]; rfl
    have h2 : step plainConf s (.result 0 [a] fun _ => 0) = none := by
      simp only [step, hf, land, this, if_true]
    simp only [run, hst, Option.bind_some, h2, Option.bind_none]
  · intro c n a hn ha hl
    have hg : gate c n = .undefined := by
      unfold gate
      rw [if_neg hn, ha]
      show (if a.length ≤ 16 then _ else _) = _
      rw [hl]; rfl
    simp only [run, step, start, hg, Option.bind_none]

/-- Who asks for an address that is written in numbers is called at once with it, whether the resolver is on or not, and nothing else changes. -/
theorem C86_numeric (c : Conf) (s : State) (n : Name) (a : Addr) (hn : n ≠ []) (ha : c.addr n = some a) (hl : a.length ≤ 16) (w : Caller) (r : Nat) :
    step c s (.start n w r) = some { s with out := s.out ++ [(w, some a)] } := by
  have h : ¬ n = [] := hn
  have hl : a.length ≤ sockaddrSize := hl
  simp only [step, start, gate, h, if_false, ha, hl, if_true]

/-- Who asks for the empty name is never called. -/
theorem C86_empty_violation (c : Conf) (w : Caller) (r : Nat) : ∃ s, run c State.init [.start [] w r] = some s ∧ s.out = [] ∧ s.flights = [] ∧ waiting s.recs s.nalloc = [] :=
  ⟨State.init, rfl, rfl, rfl, rfl⟩

end Verif.Resolver
