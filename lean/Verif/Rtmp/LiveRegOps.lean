import Verif.Rtmp.LiveRegLemmas
/- Helper lemmas for C27: the operations. -/
namespace Verif.LiveReg
open Verif

variable {c : Cfg} {s : St} {a : Abs} {sk : Nat → Option (Option Nat)} {tk : Nat → Option (Option (Nat × Nat))}

/-- A server that is not live has no streams. -/
theorem Inv.dead_bare (i : Inv c s a sk tk) {n : Nat} (hn : ∀ b, sk n ≠ some (some b)) (b : Nat) : (s.srv n).streams b = none := by
  obtain ⟨l, h1, _, h3⟩ := i.tch (some (n, b))
  cases l with
  | nil => exact h1
  | cons m l =>
    obtain ⟨_, _, b', h⟩ := i.tb m n b ((h3 m).1 (by simp))
    exact absurd h (hn b')

theorem getServer_spec (i : Inv c s a sk tk) (id : Bytes) (hlen : id.length ≤ maxName) (hone : s.nfreeSrv ≤ 1) :
    ∃ n sk1 g, getServer s id = (g, some n) ∧ Chains (snext g) (shead g) sk1 ∧ sk1 n = none ∧ snext g n = none ∧
      (∀ b, sk n ≠ some (some b)) ∧ (∀ m, m ≠ n → sk1 m = sk m ∧ g.srv m = s.srv m) ∧ (g.srv n).id = id ∧ (g.srv n).nStream = 0 ∧
      (g.srv n).deleted = false ∧ (∀ b, (g.srv n).streams b = none) ∧ (∀ m, m < g.srvFresh ↔ m = n ∨ m < s.srvFresh) ∧
      Count (fun m => sk1 m = some none) g.nfreeSrv ∧ g.heads = s.heads ∧ g.str = s.str ∧ g.strFresh = s.strFresh ∧
      g.freeStr = s.freeStr ∧ g.nfreeStr = s.nfreeStr ∧ g.allocStr = s.allocStr ∧ g.allocSrv = g.srvFresh := by
  unfold getServer
  rw [if_neg (by unfold SERVERID_LEN; unfold maxName at hlen; omega)]
  cases e : s.freeSrv with
  | none =>
    have hk : sk s.srvFresh = none := by
      cases h : sk s.srvFresh with
      | none => rfl
      | some k => have := (i.sN s.srvFresh).1 (by rw [h]; simp); omega
    refine ⟨s.srvFresh, sk, _, rfl, ?_, hk, ?_, (fun b h => by rw [hk] at h; cases h), fun m hm => ⟨rfl, upd_ne _ _ hm⟩, ?_, ?_, ?_, ?_, ?_,
      i.sfree, rfl, rfl, rfl, rfl, rfl, rfl, by simp [i.allocS]⟩
    · have hsh : shead { s with srv := upd s.srv s.srvFresh { id := id }, srvFresh := s.srvFresh + 1, freeSrv := none, allocSrv := s.allocSrv + 1 } = shead s := by
        funext k
        cases k with
        | none => exact e.symm
        | some b => rfl
      rw [hsh]
      refine i.sch.limbo (fun m hm => ?_)
      have : m ≠ s.srvFresh := fun e => hm (e ▸ hk)
      simp only [snext, upd_ne _ _ this]
    · simp [snext, upd_same]
    · simp [upd_same]
    · simp [upd_same]
    · simp [upd_same]
    · simp [upd_same]
    · intro m; dsimp only; omega
  | some n =>
    have hs : shead s none = some n := e
    have hk := i.sch.mem_head hs
    have hlive : ∀ b, sk n ≠ some (some b) := fun b h => by rw [hk] at h; cases h
    have hpop := i.sch.pop hs
    obtain ⟨hpos, hcnt⟩ := i.sfree.sub (Q := fun m => set sk n none m = some none) (n := n) hk (fun m => by
      by_cases em : m = n
      · subst em; rw [set_same]; simp
      · rw [set_ne _ _ em]; simp [em])
    have hnone : (s.srv n).next = none := by
      obtain ⟨l, h1, h2, h3⟩ := hpop none
      have hz := hcnt.zero_iff.1 (by omega)
      cases l with
      | nil => rw [set_same] at h1; exact h1
      | cons m l => exact absurd ((h3 m).1 (by simp)) (hz m)
    refine ⟨n, set sk n none, _, rfl, ?_, set_same _ _ _, ?_, hlive, fun m hm => ⟨set_ne _ _ hm, upd_ne _ _ hm⟩, ?_, ?_, ?_, ?_, ?_,
      hcnt, rfl, rfl, rfl, rfl, rfl, rfl, i.allocS⟩
    · have h1 : snext { s with srv := upd s.srv n { s.srv n with id := id, deleted := false, nStream := 0 }, freeSrv := (s.srv n).next, nfreeSrv := s.nfreeSrv - 1 } = snext s := by
        funext m; simp only [snext, upd]; split
        · rename_i e; rw [e]
        · rfl
      have h2 : shead { s with srv := upd s.srv n { s.srv n with id := id, deleted := false, nStream := 0 }, freeSrv := (s.srv n).next, nfreeSrv := s.nfreeSrv - 1 } = set (shead s) none (snext s n) := by
        funext k
        cases k with
        | none => rw [set_same]; rfl
        | some b => rw [set_ne _ _ (by simp)]; rfl
      rw [h1, h2]
      exact hpop
    · simp only [snext, upd_same]; exact hnone
    · simp [upd_same]
    · simp [upd_same]
    · simp [upd_same]
    · simp only [upd_same]; exact i.dead_bare hlive
    · intro m
      dsimp only
      have := (i.sN n).1 (by rw [hk]; simp)
      constructor
      · exact .inr
      · rintro (h | h) <;> omega

theorem createServer_inv (i : Inv c s a sk tk) (id : Bytes) (h0 : 0 ∉ id) (hone : s.nfreeSrv ≤ 1) :
    ∃ s' r a' sk', createServer c s id = some (s', r) ∧ Spec a (.createServer id) r a' ∧ Inv c s' a' sk' tk := by
  rcases find_server i id with ⟨n, l1, l2, h1, h2, h3, _, _, _, h7⟩ | ⟨h1, l, h2, h3, h4, h5⟩
  · refine ⟨_, some n, _, sk, by unfold createServer; rw [h7], ?_, mark_inv i h2 false⟩
    dsimp only [Spec]
    rw [h1, h3]
    exact ⟨rfl, rfl⟩
  · by_cases hlen : id.length ≤ maxName
    · obtain ⟨n, sk1, g, g1, g2, g3, g4, g5, g6, g7, g8, g9, g10, g11, g12, g13, g14, g15, g16, g17, g18, g19⟩ := getServer_spec i id hlen hone
      have hsk1 : ∀ m b, sk1 m = some (some b) ↔ sk m = some (some b) := fun m b => by
        by_cases e : m = n
        · subst e; rw [g3]; simp; exact g5 b
        · rw [(g6 m e).1]
      have hnl : ∀ m ∈ l, m ≠ n := fun m hm e => g5 (c.sb id) (e ▸ (h4 m).1 hm)
      have hlink : Linked (snext g) (shead g (some (c.sb id))) l := by
        have : shead g (some (c.sb id)) = shead s (some (c.sb id)) := by simp only [shead, g13]
        rw [this]
        exact h2.congr (fun m hm => by simp only [snext, (g6 m (hnl m hm)).2])
      have hch := g2.append hlink h3 (fun m => by rw [h4, hsk1]) g3 g4
      obtain ⟨p1, p2, p3, p4, p5, p6, p7, p8, p9, p10⟩ := setPsrv_same (c := c) g id (lastOr none l) (some n)
      have hkey : ∀ m b, set sk1 n (some (some (c.sb id))) m = some (some b) ↔ (m = n ∧ b = c.sb id) ∨ (m ≠ n ∧ sk m = some (some b)) := fun m b => by
        by_cases e : m = n
        · subst e; rw [set_same]; simp [eq_comm]
        · rw [set_ne _ _ e, hsk1]; simp [e]
      have hid : ∀ m b, m ≠ n → sk m = some (some b) → (s.srv m).id ≠ id := fun m b _ hb e => by
        have := (i.asrv id m (s.srv m).deleted).2 ⟨⟨b, hb⟩, e, rfl⟩
        rw [h1] at this; cases this
      have htn : ∀ m b, tk m ≠ some (some (n, b)) := fun m b h => by
        obtain ⟨_, _, b', h'⟩ := i.tb m n b h
        exact g5 b' h'
      refine ⟨_, some n, a.setSrv id (some (n, false)), set sk1 n (some (some (c.sb id))), by
        unfold createServer; rw [h5]; dsimp only; rw [g1], ?_, ?_⟩
      · dsimp only [Spec]
        rw [h1]
        dsimp only
        rw [if_pos hlen]
        refine ⟨n, rfl, fun id' d h => ?_, rfl⟩
        obtain ⟨⟨b, hb⟩, _⟩ := (i.asrv _ _ _).1 h
        exact g5 b hb
      · refine ⟨?_, ?_, ?_, ?_, ?_, ?_, ?_, ?_, ?_, ?_, ?_, ?_, ?_⟩
        · rw [setPsrv_next, setPsrv_head]; exact hch
        · have e1 : tnext (setPsrv c g id (lastOr none l) (some n)) = tnext s := by funext m; simp only [tnext, p6, g14]
          have e2 : thead (setPsrv c g id (lastOr none l) (some n)) = thead s := by
            funext k
            rcases k with _ | ⟨j, b⟩
            · simp only [thead, p8, g16]
            · simp only [thead, (p1 j).2.2.2]
              by_cases e : j = n
              · subst e; rw [g10 b, i.dead_bare g5]
              · rw [(g6 j e).2]
          rw [e1, e2]; exact i.tch
        · intro m
          rw [p2, g11]
          by_cases e : m = n
          · subst e; rw [set_same]; simp
          · rw [set_ne _ _ e, (g6 m e).1, i.sN]; simp [e]
        · rw [p7, g15]; exact i.tN
        · intro m b h
          rw [(p1 m).1]
          rcases (hkey m b).1 h with ⟨rfl, rfl⟩ | ⟨e, hb⟩
          · rw [g7]; exact ⟨rfl, h0⟩
          · rw [(g6 m e).2]; exact i.sb m b hb
        · intro m j b h
          rw [p6, g14]
          obtain ⟨q1, q2, b', q3⟩ := i.tb m j b h
          refine ⟨q1, q2, b', (hkey j b').2 (.inr ⟨fun e => htn m b (e ▸ h), q3⟩)⟩
        · rw [p5]
          refine g12.congr (fun m => ?_)
          by_cases e : m = n
          · subst e; rw [set_same, g3]; simp
          · rw [set_ne _ _ e]
        · rw [p10, g17]; exact i.tfree
        · intro j b h
          rw [(p1 j).2.1]
          rcases (hkey j b).1 h with ⟨rfl, rfl⟩ | ⟨e, hb⟩
          · rw [g8]; exact Count.zero (fun m => by rintro ⟨b, h⟩; exact htn m b h)
          · rw [(g6 j e).2]; exact i.cnt j b hb
        · intro id' j d
          rw [(p1 j).1, (p1 j).2.2.1]
          unfold Abs.setSrv
          dsimp only
          by_cases ej : j = n
          · subst ej
            rw [g7, g9]
            split
            · rename_i e; subst e
              constructor
              · intro h; cases h; exact ⟨⟨_, (hkey j _).2 (.inl ⟨rfl, rfl⟩)⟩, rfl, rfl⟩
              · rintro ⟨_, _, h⟩; rw [h]
            · rename_i e
              constructor
              · intro h
                obtain ⟨⟨b, hb⟩, _⟩ := (i.asrv _ _ _).1 h
                exact absurd hb (g5 b)
              · rintro ⟨_, h, _⟩; exact absurd h.symm e
          · rw [(g6 j ej).2]
            split
            · rename_i e; subst e
              constructor
              · intro h; cases h; exact absurd rfl ej
              · rintro ⟨⟨b, hb⟩, h, _⟩
                rcases (hkey j b).1 hb with ⟨e, _⟩ | ⟨_, hb⟩
                · exact absurd e ej
                · exact absurd h (hid j b ej hb)
            · rw [i.asrv]
              constructor
              · rintro ⟨⟨b, hb⟩, h⟩; exact ⟨⟨b, (hkey j b).2 (.inr ⟨ej, hb⟩)⟩, h⟩
              · rintro ⟨⟨b, hb⟩, h⟩
                rcases (hkey j b).1 hb with ⟨e, _⟩ | ⟨_, hb⟩
                · exact absurd e ej
                · exact ⟨⟨b, hb⟩, h⟩
        · intro id' name m
          dsimp only [Abs.setSrv]
          rw [i.astr, p6, g14]
          constructor
          · rintro ⟨j, b, ⟨b', hb'⟩, q1, q2, q3⟩
            have ej : j ≠ n := fun e => htn m b (e ▸ q2)
            exact ⟨j, b, ⟨b', (hkey j b').2 (.inr ⟨ej, hb'⟩)⟩, by rw [(p1 j).1, (g6 j ej).2]; exact q1, q2, q3⟩
          · rintro ⟨j, b, ⟨b', hb'⟩, q1, q2, q3⟩
            have ej : j ≠ n := fun e => htn m b (e ▸ q2)
            rw [(p1 j).1, (g6 j ej).2] at q1
            rcases (hkey j b').1 hb' with ⟨e, _⟩ | ⟨_, hb⟩
            · exact absurd e ej
            · exact ⟨j, b, ⟨b', hb⟩, q1, q2, q3⟩
        · rw [p4, p2, g19]
        · rw [p9, p7, g18, g15, i.allocT]
    · have hg : getServer s id = (s, none) := by unfold getServer; rw [if_pos (by unfold SERVERID_LEN; unfold maxName at hlen; omega)]
      have hset : setPsrv c s id (lastOr none l) none = s := by
        cases hl : lastOr none l with
        | none =>
          have hemp : l = [] := by
            cases l with
            | nil => rfl
            | cons x l =>
              exfalso
              have : ∀ (l : List Nat) (x : Nat), lastOr (some x) l ≠ none := by
                intro l
                induction l with
                | nil => exact fun x h => by cases h
                | cons b l ih => exact fun x => ih b
              exact this l x hl
          subst hemp
          have hh : s.heads (c.sb id) = none := h2
          unfold setPsrv
          have : upd s.heads (c.sb id) none = s.heads := by
            funext b; unfold upd; split
            · rename_i e; rw [e, hh]
            · rfl
          rw [this]
        | some x =>
          have hx : (s.srv x).next = none := by
            have : ∀ (l : List Nat) (h : Option Nat) (d : Option Nat), Linked (snext s) h l → lastOr d l = some x → (d = some x → snext s x = h) →
                snext s x = none := by
              intro l
              induction l with
              | nil => intro h d hl e hd; have e2 : h = none := hl; rw [← e2]; exact hd e
              | cons b l ih => intro h d hl e _; exact ih (snext s b) (some b) hl.2 e (fun e => by cases e; rfl)
            exact this l _ none h2 hl (by simp)
          have : upd s.srv x { s.srv x with next := none } = s.srv := by
            funext m; unfold upd; split
            · rename_i e; rw [e, ← hx]
            · rfl
          show { s with srv := upd s.srv x { s.srv x with next := none } } = s
          exact congrArg (fun f => { s with srv := f }) this
      refine ⟨s, none, a, sk, ?_, ?_, i⟩
      · unfold createServer; rw [h5]; dsimp only; rw [hg]; dsimp only; rw [hset]
      · dsimp only [Spec]; rw [h1]; dsimp only; rw [if_neg hlen]; exact ⟨rfl, rfl⟩

/-- `Bare` in terms of the counter. -/
theorem Inv.bare (i : Inv c s a sk tk) {n b : Nat} (hn : sk n = some (some b)) : (s.srv n).nStream = 0 ↔ a.Bare (s.srv n).id := by
  rw [(i.cnt n b hn).zero_iff]
  constructor
  · intro h name
    cases e : a.strs (s.srv n).id name with
    | none => rfl
    | some m =>
      obtain ⟨j, b', ⟨x, hx⟩, h1, h2, _⟩ := (i.astr _ _ _).1 e
      have := i.uniq hx hn h1
      subst this
      exact absurd ⟨b', h2⟩ (h m)
  · rintro h m ⟨b', hm⟩
    have := (i.astr (s.srv n).id (s.str m).name m).2 ⟨n, b', ⟨b, hn⟩, rfl, hm, rfl⟩
    rw [h] at this; cases this

theorem deleteServer_inv (i : Inv c s a sk tk) (id : Bytes) :
    ∃ s' a' sk', deleteServer c s id = some s' ∧ Spec a (.deleteServer id) none a' ∧ Inv c s' a' sk' tk := by
  rcases find_server i id with ⟨n, l1, l2, h1, h2, h3, h4, h5, h6, h7⟩ | ⟨h1, l, h2, h3, h4, h5⟩
  · by_cases hz : (s.srv n).nStream = 0
    · have hb : a.Bare id := by rw [← h3]; exact (i.bare h2).1 hz
      obtain ⟨p1, p2, p3, p4, p5, p6, p7, p8, p9, p10⟩ := setPsrv_same (c := c) s id (lastOr none l1) (s.srv n).next
      have hch := i.sch.unlink h4 h5 h6
      refine ⟨_, a.setSrv id none, set (set sk n none) n (some none), by
        unfold deleteServer; rw [h7]; dsimp only; rw [if_neg (by simp [hz])], ?_, ?_⟩
      · dsimp only [Spec]; rw [h1]; exact ⟨rfl, fun _ => rfl, fun h => absurd hb h⟩
      · generalize hS : setPsrv c s id (lastOr none l1) (s.srv n).next = S at *
        have e0 : snext S = setNext (snext s) (lastOr none l1) (snext s n) := by rw [← hS, setPsrv_next]; rfl
        have e1 : shead S = set (shead s) (some (c.sb id)) (setHead (shead s (some (c.sb id))) (lastOr none l1) (snext s n)) := by
          rw [← hS, setPsrv_head]; rfl
        have hput : ∀ m, ((putServer S n).srv m).id = (s.srv m).id ∧ ((putServer S n).srv m).nStream = (s.srv m).nStream ∧
            ((putServer S n).srv m).deleted = (s.srv m).deleted ∧ ((putServer S n).srv m).streams = (s.srv m).streams := fun m => by
          have := p1 m
          unfold putServer upd
          dsimp only
          split
          · rename_i e; subst e; exact this
          · exact this
        have hkey : ∀ m b, set (set sk n none) n (some none) m = some (some b) ↔ m ≠ n ∧ sk m = some (some b) := fun m b => by
          by_cases e : m = n
          · subst e; rw [set_same]; simp
          · rw [set_ne _ _ e, set_ne _ _ e]; simp [e]
        have htn : ∀ m b, tk m ≠ some (some (n, b)) := fun m b h => ((i.cnt n _ h2).zero_iff.1 hz m) ⟨b, h⟩
        refine ⟨?_, ?_, ?_, ?_, ?_, ?_, ?_, ?_, ?_, ?_, ?_, ?_, ?_⟩
        · have e2 : shead (putServer S n) = set (shead S) none (some n) := by
            funext k
            cases k with
            | none => rw [set_same]; rfl
            | some b => rw [set_ne _ _ (by simp)]; rfl
          rw [e2]
          rw [← e0, ← e1] at hch
          refine hch.push (set_same _ _ _) ?_ (fun m hm => ?_)
          · simp only [snext, putServer, upd_same]; rfl
          · simp only [snext, putServer, upd_ne _ _ hm]
        · have e1 : tnext (putServer S n) = tnext s := by funext m; simp only [tnext, putServer, p6]
          have e2 : thead (putServer S n) = thead s := by
            funext k
            rcases k with _ | ⟨j, b⟩
            · simp only [thead, putServer, p8]
            · simp only [thead, (hput j).2.2.2]
          rw [e1, e2]; exact i.tch
        · intro m
          have : (putServer S n).srvFresh = s.srvFresh := p2
          rw [this, ← i.sN]
          by_cases e : m = n
          · subst e; rw [set_same, h2]; simp
          · rw [set_ne _ _ e, set_ne _ _ e]
        · have : (putServer S n).strFresh = s.strFresh := p7
          rw [this]; exact i.tN
        · intro m b h
          rw [(hput m).1]; exact i.sb m b ((hkey m b).1 h).2
        · intro m j b h
          have : (putServer S n).str = s.str := p6
          rw [this]
          obtain ⟨q1, q2, b', q3⟩ := i.tb m j b h
          exact ⟨q1, q2, b', (hkey j b').2 ⟨fun e => htn m b (e ▸ h), q3⟩⟩
        · have : (putServer S n).nfreeSrv = s.nfreeSrv + 1 := by show S.nfreeSrv + 1 = _; rw [p5]
          rw [this]
          refine i.sfree.add (n := n) (by rw [h2]; simp) (fun m => ?_)
          by_cases e : m = n
          · subst e; rw [set_same]; simp
          · rw [set_ne _ _ e, set_ne _ _ e]; simp [e]
        · have : (putServer S n).nfreeStr = s.nfreeStr := p10
          rw [this]; exact i.tfree
        · intro j b h
          rw [(hput j).2.1]; exact i.cnt j b ((hkey j b).1 h).2
        · intro id' j d
          rw [(hput j).1, (hput j).2.2.1]
          unfold Abs.setSrv
          dsimp only
          split
          · rename_i e; subst e
            constructor
            · intro h; cases h
            · rintro ⟨⟨b, hb⟩, q, _⟩
              have := (hkey j b).1 hb
              exact absurd (i.uniq this.2 h2 (q.trans h3.symm)) this.1
          · rename_i e
            rw [i.asrv]
            constructor
            · rintro ⟨⟨b, hb⟩, q⟩
              exact ⟨⟨b, (hkey j b).2 ⟨fun e' => e (by rw [← q.1, e', h3]), hb⟩⟩, q⟩
            · rintro ⟨⟨b, hb⟩, q⟩; exact ⟨⟨b, ((hkey j b).1 hb).2⟩, q⟩
        · intro id' name m
          have : (putServer S n).str = s.str := p6
          dsimp only [Abs.setSrv]
          rw [i.astr, this]
          constructor
          · rintro ⟨j, b, ⟨b', hb'⟩, q1, q2, q3⟩
            exact ⟨j, b, ⟨b', (hkey j b').2 ⟨fun e => htn m b (e ▸ q2), hb'⟩⟩, by rw [(hput j).1]; exact q1, q2, q3⟩
          · rintro ⟨j, b, ⟨b', hb'⟩, q1, q2, q3⟩
            rw [(hput j).1] at q1
            exact ⟨j, b, ⟨b', ((hkey j b').1 hb').2⟩, q1, q2, q3⟩
        · show S.allocSrv = S.srvFresh; rw [p4, p2, i.allocS]
        · show S.allocStr = S.strFresh; rw [p9, p7, i.allocT]
    · have hb : ¬ a.Bare id := by rw [← h3]; exact fun h => hz ((i.bare h2).2 h)
      refine ⟨_, _, sk, by unfold deleteServer; rw [h7]; dsimp only; rw [if_pos hz], ?_, mark_inv i h2 true⟩
      dsimp only [Spec]; rw [h1, h3]; exact ⟨rfl, fun h => absurd h hb, fun _ => rfl⟩
  · refine ⟨s, a, sk, by unfold deleteServer; rw [h5], ?_, i⟩
    dsimp only [Spec]; rw [h1]; exact ⟨rfl, rfl⟩

end Verif.LiveReg
