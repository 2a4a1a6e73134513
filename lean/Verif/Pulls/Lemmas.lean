import Verif.Pulls.Spec
/-
What holds between two readings of the configuration, and what each part of a reading does.
-/
namespace Verif.Pulls

theorem upd_same {α : Type} (f : Nat → α) (i : Nat) (v : α) : upd f i v i = v := by simp [upd]
theorem upd_other {α : Type} (f : Nat → α) {i j : Nat} (v : α) (h : j ≠ i) : upd f i v j = f j := by simp [upd, h]

/-- Between two readings, as long as all went well -/
structure Inv (s : State) : Prop where
  reg : ∀ i ∈ s.pulls, ∃ d, (s.recs i).session = some d ∧ s.live d = some (s.recs i).stream ∧ s.ctx d = i
  own : ∀ d p, s.live d = some p → ∃ i ∈ s.pulls, (s.recs i).session = some d ∧ (s.recs i).stream = p
  nd : (s.pulls.map fun i => (s.recs i).stream).Nodup
  lt : ∀ i ∈ s.pulls, i < s.nalloc ∧ i ∉ s.free ∧ s.next i = none
  fnd : s.free.Nodup
  flt : ∀ i ∈ s.free, i < s.nalloc
  sid : ∀ d p, s.live d = some p → d < s.sids

theorem inv_init : Inv State.init :=
  ⟨fun i h => (by cases h), fun d p h => (by cases h), List.nodup_nil, fun i h => (by cases h), List.nodup_nil, fun i h => (by cases h), fun d p h => (by cases h)⟩

theorem inj_of_nodup {f : Nat → Nat} : ∀ {l : List Nat}, (l.map f).Nodup → ∀ i ∈ l, ∀ j ∈ l, f i = f j → i = j
  | [], _, i, hi, _, _, _ => by cases hi
  | a :: l, h, i, hi, j, hj, e => by
    rw [List.map_cons, List.nodup_cons] at h
    rcases List.mem_cons.1 hi with h1 | h1 <;> rcases List.mem_cons.1 hj with h2 | h2
    · rw [h1, h2]
    · subst h1; exact absurd (e ▸ List.mem_map_of_mem h2) h.1
    · subst h2; exact absurd (e ▸ List.mem_map_of_mem h1) h.1
    · exact inj_of_nodup h.2 i h1 j h2 e

theorem find_some {s : State} {l : List Nat} {p j : Nat} (h : find s l p = some j) : j ∈ l ∧ (s.recs j).stream = p :=
  ⟨List.mem_of_find?_eq_some h, by simpa using List.find?_some h⟩

theorem find_none {s : State} {l : List Nat} {p : Nat} (h : find s l p = none) : ∀ j ∈ l, (s.recs j).stream ≠ p := by
  intro j hj e
  have := List.find?_eq_none.1 h j hj
  simp [e] at this

/-- The records of the list that begins at `h` -/
def Chain (f : Nat → Option Nat) : Option Nat → List Nat → Prop
  | h, [] => h = none
  | h, i :: l => h = some i ∧ Chain f (f i) l

theorem chain_upd {f : Nat → Option Nat} {k : Nat} {v : Option Nat} : ∀ {l : List Nat} {h : Option Nat}, k ∉ l → Chain f h l → Chain (upd f k v) h l
  | [], _, _, hc => hc
  | i :: l, h, hk, hc => by
    refine ⟨hc.1, ?_⟩
    rw [upd_other _ _ (fun e => hk (by simp [e]))]
    exact chain_upd (fun e => hk (List.mem_cons_of_mem _ e)) hc.2

theorem chain_append {f : Nat → Option Nat} {old : Nat} (ho : f old = none) : ∀ {l : List Nat} {h : Option Nat} {k : Nat}, l.getLast? = some k → l.Nodup → old ∉ l → Chain f h l → Chain (upd f k (some old)) h (l ++ [old])
  | [], _, _, hl, _, _, _ => by cases hl
  | [i], h, k, hl, _, hn, hc => by
    have : i = k := by simpa using hl
    subst this
    refine ⟨hc.1, ?_⟩
    rw [upd_same]
    refine ⟨rfl, ?_⟩
    rw [upd_other _ _ (fun e => hn (by simp [e]))]
    exact ho
  | i :: j :: l, h, k, hl, hd, hn, hc => by
    have hl' : (j :: l).getLast? = some k := by simpa using hl
    have hk : k ∈ j :: l := List.mem_of_getLast? hl'
    have e : i ≠ k := fun e => (List.nodup_cons.1 hd).1 (e ▸ hk)
    refine ⟨hc.1, ?_⟩
    rw [upd_other _ _ e]
    exact chain_append ho hl' (List.nodup_cons.1 hd).2 (fun e => hn (List.mem_cons_of_mem _ e)) hc.2

/-- In the loop over the configuration, after the streams `done` -/
structure Mid (s0 : State) (done links : List Nat) (w : Work) : Prop where
  pulls : w.s.pulls = s0.pulls
  live : w.s.live = s0.live
  ctx : w.s.ctx = s0.ctx
  sids : w.s.sids = s0.sids
  stopped : w.s.stopped = s0.stopped
  old : ∀ i ∈ s0.pulls, w.s.recs i = s0.recs i ∧ i < w.s.nalloc ∧ i ∉ w.s.free
  new : w.new.map (fun i => (w.s.recs i).stream) = done
  fresh : ∀ i ∈ w.new, i ∉ s0.pulls ∧ i ∉ w.s.free ∧ i < w.s.nalloc ∧ w.s.next i = none
  sess : ∀ i ∈ w.new, (w.s.recs i).session = (find s0 s0.pulls (w.s.recs i).stream).bind fun j => (s0.recs j).session
  fnd : w.s.free.Nodup
  flt : ∀ i ∈ w.s.free, i < w.s.nalloc
  chain : Chain w.s.next w.head links
  last : w.last = links.getLast?
  lnd : links.Nodup
  lsub : ∀ i ∈ links, i ∈ s0.pulls ∧ (s0.recs i).stream ∈ done
  lall : ∀ i ∈ s0.pulls, (s0.recs i).stream ∈ done → i ∈ links
  nxt : ∀ i ∈ s0.pulls, i ∉ links → w.s.next i = none
  nlast : ∀ k, links.getLast? = some k → w.s.next k = none
  len : links.length ≤ w.new.length

theorem mid_init {s0 : State} (I : Inv s0) : Mid s0 [] [] ⟨s0, [], none, none⟩ :=
  ⟨rfl, rfl, rfl, rfl, rfl, fun i h => ⟨rfl, (I.lt i h).1, (I.lt i h).2.1⟩, rfl, fun i h => (by cases h), fun i h => (by cases h), I.fnd, I.flt, rfl, rfl, List.nodup_nil,
    fun i h => (by cases h), fun i _ h => (by cases h), fun i h _ => (I.lt i h).2.2, fun k h => (by cases h), Nat.le_refl _⟩

/-- A record is taken. -/
theorem get_spec {s : State} (fnd : s.free.Nodup) (flt : ∀ i ∈ s.free, i < s.nalloc) (p : Nat) :
    ∃ i s1, get s p = (s1, i) ∧ s1.pulls = s.pulls ∧ s1.live = s.live ∧ s1.ctx = s.ctx ∧ s1.sids = s.sids ∧ s1.stopped = s.stopped ∧
      s1.recs = upd s.recs i ⟨p, none⟩ ∧ s1.next = upd s.next i none ∧ s1.free.Nodup ∧ (∀ j ∈ s1.free, j ∈ s.free) ∧ i ∉ s1.free ∧ i < s1.nalloc ∧ s.nalloc ≤ s1.nalloc ∧ (i ∈ s.free ∨ i = s.nalloc) := by
  unfold get
  cases hf : s.free with
  | nil => exact ⟨s.nalloc, _, rfl, rfl, rfl, rfl, rfl, rfl, rfl, rfl, List.nodup_nil, fun j h => (by cases h), by simp, Nat.lt_succ_self _, Nat.le_succ _, Or.inr rfl⟩
  | cons i l =>
    rw [hf] at fnd flt
    exact ⟨i, _, rfl, rfl, rfl, rfl, rfl, rfl, rfl, rfl, (List.nodup_cons.1 fnd).2, fun j h => List.mem_cons_of_mem _ h, (List.nodup_cons.1 fnd).1, flt i (by simp), Nat.le_refl _, Or.inl (by simp)⟩

theorem map_congr_mem {f g : Nat → Nat} {l : List Nat} (h : ∀ i ∈ l, f i = g i) : l.map f = l.map g := List.map_congr_left h

theorem mid_enter {s0 : State} {done links : List Nat} {w : Work} (I : Inv s0) (M : Mid s0 done links w) {p : Nat} (hp : p ∉ done) :
    ∃ links', Mid s0 (done ++ [p]) links' (enter w p) := by
  obtain ⟨i, s1, hg, g1, g2, g3, g4, g5, g6, g7, g8, g9, g10, g11, g12, g13⟩ := get_spec M.fnd M.flt p
  have hi0 : i ∉ s0.pulls := by
    intro h
    obtain ⟨_, h1, h2⟩ := M.old i h
    rcases g13 with h3 | h3
    · exact h2 h3
    · omega
  have hin : i ∉ w.new := by
    intro h
    obtain ⟨_, h1, h2, _⟩ := M.fresh i h
    rcases g13 with h3 | h3
    · exact h1 h3
    · omega
  have hrec0 : ∀ j ∈ s0.pulls, s1.recs j = s0.recs j := by
    intro j hj
    rw [g6, upd_other _ _ (fun e : j = i => hi0 (e ▸ hj)), (M.old j hj).1]
  have hfind : find s1 s1.pulls p = find s0 s0.pulls p := by
    unfold find
    rw [g1, M.pulls]
    have key : ∀ l : List Nat, (∀ j ∈ l, s1.recs j = s0.recs j) → (l.find? fun i => (s1.recs i).stream == p) = l.find? fun i => (s0.recs i).stream == p := by
      intro l
      induction l with
      | nil => intro _; rfl
      | cons a l ih =>
        intro h
        rw [List.find?_cons, List.find?_cons, h a (by simp), ih (fun j hj => h j (List.mem_cons_of_mem _ hj))]
    exact key _ hrec0
  have hlk : ∀ j ∈ links, j ≠ i := fun j hj e => hi0 (e ▸ (M.lsub j hj).1)
  have hnx : ∀ j, j ≠ i → s1.next j = w.s.next j := fun j hj => by rw [g7, upd_other _ _ hj]
  have hchain : Chain s1.next w.head links := by rw [g7]; exact chain_upd (fun h => hlk i h rfl) M.chain
  unfold enter
  rw [hg]
  dsimp only
  rw [hfind]
  cases hf : find s0 s0.pulls p with
  | none =>
    have hno := find_none hf
    refine ⟨links, g1.trans M.pulls, g2.trans M.live, g3.trans M.ctx, g4.trans M.sids, g5.trans M.stopped, ?_, ?_, ?_, ?_, g8, ?_, hchain, M.last, M.lnd, ?_, ?_, ?_, ?_, ?_⟩
    · intro j hj
      exact ⟨hrec0 j hj, Nat.lt_of_lt_of_le (M.old j hj).2.1 g12, fun h => (M.old j hj).2.2 (g9 j h)⟩
    · show (w.new ++ [i]).map (fun i => (s1.recs i).stream) = done ++ [p]
      rw [List.map_append, ← M.new]
      congr 1
      · refine map_congr_mem fun j hj => ?_
        rw [g6, upd_other _ _ (fun e : j = i => hin (e ▸ hj))]
      · rw [g6]; simp [upd_same]
    · intro j hj
      rcases List.mem_append.1 hj with hj | hj
      · obtain ⟨a, b, c, d⟩ := M.fresh j hj
        have e : j ≠ i := fun e => hin (e ▸ hj)
        exact ⟨a, fun h => b (g9 j h), Nat.lt_of_lt_of_le c g12, by rw [hnx j e]; exact d⟩
      · rw [List.mem_singleton.1 hj]
        exact ⟨hi0, g10, g11, by rw [g7, upd_same]⟩
    · intro j hj
      show (s1.recs j).session = (find s0 s0.pulls (s1.recs j).stream).bind _
      rcases List.mem_append.1 hj with hj | hj
      · rw [g6, upd_other _ _ (fun e : j = i => hin (e ▸ hj))]; exact M.sess j hj
      · rw [List.mem_singleton.1 hj, g6, upd_same, hf]; rfl
    · exact fun j h => Nat.lt_of_lt_of_le (M.flt j (g9 j h)) g12
    · exact fun j hj => ⟨(M.lsub j hj).1, List.mem_append_left _ (M.lsub j hj).2⟩
    · intro j hj h
      rcases List.mem_append.1 h with h | h
      · exact M.lall j hj h
      · exact absurd (List.mem_singleton.1 h) (hno j hj)
    · intro j hj h
      rw [hnx j (fun e => hi0 (e ▸ hj))]; exact M.nxt j hj h
    · intro k hk
      rw [hnx k (hlk k (List.mem_of_getLast? hk))]; exact M.nlast k hk
    · rw [List.length_append]; exact Nat.le_trans M.len (Nat.le_add_right _ _)
  | some old =>
    obtain ⟨ho, hos⟩ := find_some hf
    have hol : old ∉ links := fun h => hp (hos ▸ (M.lsub old h).2)
    have hoi : old ≠ i := fun e => hi0 (e ▸ ho)
    have hse : (s1.recs old).session = (s0.recs old).session := by rw [hrec0 old ho]
    -- the state before linking
    have hrn : ∀ j, j ≠ i → upd s1.recs i ⟨p, (s1.recs old).session⟩ j = w.s.recs j := fun j hj => by rw [upd_other _ _ hj, g6, upd_other _ _ hj]
    have onone : s1.next old = none := by rw [hnx old hoi]; exact M.nxt old ho hol
    -- what linking does
    have key : ∃ nx hd, link { w with s := { s1 with recs := upd s1.recs i ⟨p, (s1.recs old).session⟩ }, new := w.new ++ [i] } old
          = ⟨{ s1 with recs := upd s1.recs i ⟨p, (s1.recs old).session⟩, next := nx }, w.new ++ [i], hd, some old⟩
        ∧ Chain nx hd (links ++ [old]) ∧ (∀ j, j ∉ links → nx j = s1.next j) := by
      unfold link
      cases hl : links.getLast? with
      | none =>
        have hl0 : links = [] := List.getLast?_eq_none_iff.1 hl
        have hla := M.last
        rw [hl] at hla
        dsimp only
        rw [hla]
        exact ⟨s1.next, some old, rfl, by rw [hl0]; exact ⟨rfl, onone⟩, fun _ _ => rfl⟩
      | some k =>
        have hla := M.last
        rw [hl] at hla
        dsimp only
        rw [hla]
        refine ⟨upd s1.next k (some old), w.head, rfl, chain_append onone hl M.lnd hol hchain, fun j hj => upd_other _ _ (fun e => hj (e ▸ List.mem_of_getLast? hl))⟩
    obtain ⟨nx, hd, hk, hch, hnn⟩ := key
    dsimp only
    rw [hk]
    refine ⟨links ++ [old], g1.trans M.pulls, g2.trans M.live, g3.trans M.ctx, g4.trans M.sids, g5.trans M.stopped, ?_, ?_, ?_, ?_, g8, ?_, hch, by simp, ?_, ?_, ?_, ?_, ?_, ?_⟩
    · intro j hj
      refine ⟨?_, Nat.lt_of_lt_of_le (M.old j hj).2.1 g12, fun h => (M.old j hj).2.2 (g9 j h)⟩
      show upd s1.recs i _ j = _
      rw [hrn j (fun e => hi0 (e ▸ hj))]; exact (M.old j hj).1
    · show (w.new ++ [i]).map (fun a => (upd s1.recs i ⟨p, (s1.recs old).session⟩ a).stream) = done ++ [p]
      rw [List.map_append, ← M.new]
      congr 1
      · refine map_congr_mem fun j hj => ?_
        rw [hrn j (fun e => hin (e ▸ hj))]
      · simp [upd_same]
    · intro j hj
      rcases List.mem_append.1 hj with hj | hj
      · obtain ⟨a, b, c, d⟩ := M.fresh j hj
        have e : j ≠ i := fun e => hin (e ▸ hj)
        refine ⟨a, fun h => b (g9 j h), Nat.lt_of_lt_of_le c g12, ?_⟩
        show nx j = none
        rw [hnn j (fun h => a (M.lsub j h).1), hnx j e]; exact d
      · rw [List.mem_singleton.1 hj]
        refine ⟨hi0, g10, g11, ?_⟩
        show nx i = none
        rw [hnn i (fun h => hlk i h rfl), g7, upd_same]
    · intro j hj
      show (upd s1.recs i ⟨p, (s1.recs old).session⟩ j).session = (find s0 s0.pulls (upd s1.recs i ⟨p, (s1.recs old).session⟩ j).stream).bind _
      rcases List.mem_append.1 hj with hj | hj
      · rw [hrn j (fun e => hin (e ▸ hj))]; exact M.sess j hj
      · rw [List.mem_singleton.1 hj, upd_same, hf]; exact hse
    · exact fun j h => Nat.lt_of_lt_of_le (M.flt j (g9 j h)) g12
    · rw [List.nodup_append]
      exact ⟨M.lnd, by simp, fun a ha b hb e => hol (by rw [← List.mem_singleton.1 hb, ← e]; exact ha)⟩
    · intro j hj
      rcases List.mem_append.1 hj with hj | hj
      · exact ⟨(M.lsub j hj).1, List.mem_append_left _ (M.lsub j hj).2⟩
      · rw [List.mem_singleton.1 hj]; exact ⟨ho, by rw [hos]; simp⟩
    · intro j hj h
      rcases List.mem_append.1 h with h | h
      · exact List.mem_append_left _ (M.lall j hj h)
      · have : j = old := inj_of_nodup I.nd j hj old ho ((List.mem_singleton.1 h).trans hos.symm)
        rw [this]; simp
    · intro j hj h
      show nx j = none
      have h' : j ∉ links := fun e => h (List.mem_append_left _ e)
      rw [hnn j h', hnx j (fun e => hi0 (e ▸ hj))]; exact M.nxt j hj h'
    · intro k hk
      have : old = k := by simpa using hk
      subst this
      show nx old = none
      rw [hnn old hol]; exact onone
    · show (links ++ [old]).length ≤ (w.new ++ [i]).length
      rw [List.length_append, List.length_append]; exact Nat.add_le_add_right M.len 1

theorem mid_collect {s0 : State} (I : Inv s0) : ∀ (ps : List Nat) {done links : List Nat} {w : Work}, Mid s0 done links w →
    ∃ done' links' w', (collect w ps = (true, w') ∧ done' = done ++ ps ∧ (done.Nodup → done'.Nodup) ∨ collect w ps = (false, w') ∧ ¬ (done ++ ps).Nodup) ∧ Mid s0 done' links' w'
  | [], done, links, w, M => ⟨done, links, w, Or.inl ⟨rfl, (List.append_nil _).symm, id⟩, M⟩
  | p :: ps, done, links, w, M => by
    unfold collect
    have hd : (find w.s w.new p).isSome = true ↔ p ∈ done := by
      constructor
      · intro h
        obtain ⟨j, hj⟩ := Option.isSome_iff_exists.1 h
        obtain ⟨h1, h2⟩ := find_some hj
        rw [← M.new, ← h2]
        exact List.mem_map_of_mem h1
      · intro h
        rw [← M.new] at h
        obtain ⟨j, hj, e⟩ := List.mem_map.1 h
        cases hf : find w.s w.new p with
        | some _ => rfl
        | none => exact absurd e (find_none hf j hj)
    by_cases h : p ∈ done
    · rw [if_pos (hd.2 h)]
      refine ⟨done, links, w, Or.inr ⟨rfl, fun hn => ?_⟩, M⟩
      exact (List.nodup_append.1 hn).2.2 p h p (by simp) rfl
    · rw [if_neg (fun e => h (hd.1 e))]
      obtain ⟨links', M'⟩ := mid_enter I M h
      obtain ⟨d2, l2, w2, hc, M2⟩ := mid_collect I ps M'
      refine ⟨d2, l2, w2, ?_, M2⟩
      rcases hc with ⟨h1, h2, h3⟩ | ⟨h1, h2⟩
      · refine Or.inl ⟨h1, by rw [h2]; simp, fun hn => h3 ?_⟩
        rw [List.nodup_append]
        exact ⟨hn, by simp, fun a ha b hb e => h (by rw [← List.mem_singleton.1 hb, ← e]; exact ha)⟩
      · refine Or.inr ⟨h1, fun hn => h2 (by simpa using hn)⟩

end Verif.Pulls
