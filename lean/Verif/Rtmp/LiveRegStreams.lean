import Verif.Rtmp.LiveRegOps
/- Helper lemmas for C27: the stream operations. -/
namespace Verif.LiveReg
open Verif

variable {c : Cfg} {s : St} {a : Abs} {sk : Nat → Option (Option Nat)} {tk : Nat → Option (Option (Nat × Nat))}

theorem setPst_next (s : St) (i : Nat) (name : Bytes) (pr v : Option Nat) : tnext (setPst c s i name pr v) = setNext (tnext s) pr v := by
  cases pr with
  | none => rfl
  | some n => funext m; simp only [tnext, setPst, setNext, upd]; split <;> rfl

theorem setPst_head (s : St) (i : Nat) (name : Bytes) (pr v : Option Nat) :
    thead (setPst c s i name pr v) = set (thead s) (some (i, c.tb name)) (setHead (thead s (some (i, c.tb name))) pr v) := by
  funext k
  unfold set
  cases pr with
  | none =>
    rcases k with _ | ⟨j, b⟩
    · simp [thead, setPst]
    · simp only [thead, setPst, upd, setHead, Option.some.injEq, Prod.mk.injEq]
      by_cases ej : j = i
      · subst ej; simp [upd]
      · simp [ej]
  | some n =>
    rcases k with _ | ⟨j, b⟩
    · simp [thead, setPst]
    · simp only [thead, setPst, setHead, Option.some.injEq, Prod.mk.injEq]
      split
      · rename_i e; rw [e.1, e.2]
      · rfl

theorem setPst_same (s : St) (i : Nat) (name : Bytes) (pr v : Option Nat) :
    (∀ m, ((setPst c s i name pr v).srv m).id = (s.srv m).id ∧ ((setPst c s i name pr v).srv m).nStream = (s.srv m).nStream ∧
      ((setPst c s i name pr v).srv m).deleted = (s.srv m).deleted ∧ ((setPst c s i name pr v).srv m).next = (s.srv m).next) ∧
    (∀ m, ((setPst c s i name pr v).str m).name = (s.str m).name) ∧
    (setPst c s i name pr v).srvFresh = s.srvFresh ∧ (setPst c s i name pr v).freeSrv = s.freeSrv ∧
    (setPst c s i name pr v).allocSrv = s.allocSrv ∧ (setPst c s i name pr v).nfreeSrv = s.nfreeSrv ∧
    (setPst c s i name pr v).heads = s.heads ∧ (setPst c s i name pr v).strFresh = s.strFresh ∧
    (setPst c s i name pr v).freeStr = s.freeStr ∧ (setPst c s i name pr v).allocStr = s.allocStr ∧
    (setPst c s i name pr v).nfreeStr = s.nfreeStr := by
  cases pr with
  | none =>
    refine ⟨fun m => ?_, fun _ => rfl, rfl, rfl, rfl, rfl, rfl, rfl, rfl, rfl, rfl⟩
    simp only [setPst, upd]
    split <;> simp_all
  | some n =>
    refine ⟨fun m => ⟨rfl, rfl, rfl, rfl⟩, fun m => ?_, rfl, rfl, rfl, rfl, rfl, rfl, rfl, rfl, rfl⟩
    simp only [setPst, upd]
    split <;> simp_all

theorem getStream_spec (i : Inv c s a sk tk) (name : Bytes) (hlen : name.length ≤ maxName) :
    ∃ n tk1 g, getStream s name = (g, some n) ∧ Chains (tnext g) (thead g) tk1 ∧ tk1 n = none ∧ tnext g n = none ∧
      (∀ p, tk n ≠ some (some p)) ∧ (∀ m, m ≠ n → tk1 m = tk m ∧ g.str m = s.str m) ∧ (g.str n).name = name ∧
      (∀ m, m < g.strFresh ↔ m = n ∨ m < s.strFresh) ∧
      Count (fun m => tk1 m = some none) g.nfreeStr ∧ g.heads = s.heads ∧ g.srv = s.srv ∧ g.srvFresh = s.srvFresh ∧
      g.freeSrv = s.freeSrv ∧ g.nfreeSrv = s.nfreeSrv ∧ g.allocSrv = s.allocSrv ∧ g.allocStr = g.strFresh := by
  unfold getStream
  rw [if_neg (by unfold STREAM_LEN; unfold maxName at hlen; omega)]
  cases e : s.freeStr with
  | none =>
    have hk : tk s.strFresh = none := by
      cases h : tk s.strFresh with
      | none => rfl
      | some k => have := (i.tN s.strFresh).1 (by rw [h]; simp); omega
    refine ⟨s.strFresh, tk, _, rfl, ?_, hk, ?_, (fun b h => by rw [hk] at h; cases h), fun m hm => ⟨rfl, upd_ne _ _ hm⟩, ?_, ?_,
      i.tfree, rfl, rfl, rfl, rfl, rfl, rfl, by simp [i.allocT]⟩
    · have hsh : thead { s with str := upd s.str s.strFresh { name := name }, strFresh := s.strFresh + 1, freeStr := none, allocStr := s.allocStr + 1 } = thead s := by
        funext k
        rcases k with _ | ⟨j, b⟩
        · exact e.symm
        · rfl
      rw [hsh]
      refine i.tch.limbo (fun m hm => ?_)
      have : m ≠ s.strFresh := fun e => hm (e ▸ hk)
      simp only [tnext, upd_ne _ _ this]
    · simp [tnext, upd_same]
    · simp [upd_same]
    · intro m; dsimp only; omega
  | some n =>
    have hs : thead s none = some n := e
    have hk := i.tch.mem_head hs
    have hlive : ∀ p, tk n ≠ some (some p) := fun b h => by rw [hk] at h; cases h
    have hpop := i.tch.pop hs
    obtain ⟨hpos, hcnt⟩ := i.tfree.sub (Q := fun m => set tk n none m = some none) (n := n) hk (fun m => by
      by_cases em : m = n
      · subst em; rw [set_same]; simp
      · rw [set_ne _ _ em]; simp [em])
    refine ⟨n, set tk n none, _, rfl, ?_, set_same _ _ _, ?_, hlive, fun m hm => ⟨set_ne _ _ hm, upd_ne _ _ hm⟩, ?_, ?_,
      hcnt, rfl, rfl, rfl, rfl, rfl, rfl, i.allocT⟩
    · have h2 : thead { s with str := upd s.str n { name := name }, freeStr := (s.str n).next, nfreeStr := s.nfreeStr - 1 } = set (thead s) none (tnext s n) := by
        funext k
        rcases k with _ | ⟨j, b⟩
        · rw [set_same]; rfl
        · rw [set_ne _ _ (by simp)]; rfl
      rw [h2]
      refine hpop.limbo (fun m hm => ?_)
      have : m ≠ n := fun e => hm (by rw [e, set_same])
      simp only [tnext, upd_ne _ _ this]
    · simp [tnext, upd_same]
    · simp [upd_same]
    · intro m
      dsimp only
      have := (i.tN n).1 (by rw [hk]; simp)
      constructor
      · exact .inr
      · rintro (h | h) <;> omega

/-- Writing the counter of a server. -/
def setCount (s : St) (j k : Nat) : St := { s with srv := upd s.srv j { s.srv j with nStream := k } }

theorem setCount_same (s : St) (j k : Nat) : snext (setCount s j k) = snext s ∧ thead (setCount s j k) = thead s ∧
    (∀ m, ((setCount s j k).srv m).id = (s.srv m).id ∧ ((setCount s j k).srv m).deleted = (s.srv m).deleted) ∧
    (∀ m, ((setCount s j k).srv m).nStream = if m = j then k else (s.srv m).nStream) := by
  have h : ∀ m, ((setCount s j k).srv m).next = (s.srv m).next ∧ ((setCount s j k).srv m).id = (s.srv m).id ∧
      ((setCount s j k).srv m).deleted = (s.srv m).deleted ∧ ((setCount s j k).srv m).streams = (s.srv m).streams ∧
      ((setCount s j k).srv m).nStream = if m = j then k else (s.srv m).nStream := fun m => by
    simp only [setCount, upd]; split <;> simp_all
  refine ⟨funext fun m => (h m).1, funext fun p => ?_, fun m => ⟨(h m).2.1, (h m).2.2.1⟩, fun m => (h m).2.2.2.2⟩
  rcases p with _ | ⟨x, b⟩
  · rfl
  · simp only [thead, (h x).2.2.2.1]

theorem createStream_inv (i : Inv c s a sk tk) (id name : Bytes) (h0 : 0 ∉ name) (hlen : name.length ≤ maxName) :
    ∃ s' r a' tk', createStream c s id name = some (s', r) ∧ Spec a (.createStream id name) r a' ∧ Inv c s' a' sk tk' := by
  rcases find_server i id with ⟨j, l1, l2, h1, h2, h3, h4, h5, h6, h7⟩ | ⟨h1, l, h2, h3, h4, h5⟩
  · rcases find_stream i h2 name with ⟨n, _, _, f1, f2, f3, _, _, _, f7⟩ | ⟨f1, l, f2, f3, f4, f5⟩
    · refine ⟨s, some n, a, tk, by unfold createStream; rw [h7]; dsimp only; rw [f7], ?_, i⟩
      dsimp only [Spec]; rw [h1, ← h3, f1]; exact ⟨rfl, rfl⟩
    · obtain ⟨n, tk1, g, g1, g2, g3, g4, g5, g6, g7, g8, g9, g10, g11, g12, g13, g14, g15, g16⟩ := getStream_spec i name hlen
      have htk1 : ∀ m p, tk1 m = some (some p) ↔ tk m = some (some p) := fun m p => by
        by_cases e : m = n
        · subst e; rw [g3]; simp; exact g5 p
        · rw [(g6 m e).1]
      have hnl : ∀ m ∈ l, m ≠ n := fun m hm e => g5 (j, c.tb name) (e ▸ (f4 m).1 hm)
      have hlink : Linked (tnext g) (thead g (some (j, c.tb name))) l := by
        have : thead g (some (j, c.tb name)) = thead s (some (j, c.tb name)) := by simp only [thead, g11]
        rw [this]
        exact f2.congr (fun m hm => by simp only [tnext, (g6 m (hnl m hm)).2])
      have hch := g2.append hlink f3 (fun m => by rw [f4, htk1]) g3 g4
      obtain ⟨p1, p2, p3, p4, p5, p6, p7, p8, p9, p10, p11⟩ := setPst_same (c := c) g j name (lastOr none l) (some n)
      have q1 := setPst_next (c := c) g j name (lastOr none l) (some n)
      have q2 := setPst_head (c := c) g j name (lastOr none l) (some n)
      have hkey : ∀ m p, set tk1 n (some (some (j, c.tb name))) m = some (some p) ↔
          (m = n ∧ p = (j, c.tb name)) ∨ (m ≠ n ∧ tk m = some (some p)) := fun m p => by
        by_cases e : m = n
        · subst e; rw [set_same]; simp [eq_comm]
        · rw [set_ne _ _ e, htk1]; simp [e]
      refine ⟨setCount (setPst c g j name (lastOr none l) (some n)) j (((setPst c g j name (lastOr none l) (some n)).srv j).nStream + 1),
        some n, a.setStr id name (some n), set tk1 n (some (some (j, c.tb name))), ?_, ?_, ?_⟩
      · unfold createStream; rw [h7]; dsimp only; rw [f5]; dsimp only; rw [g1]; rfl
      · dsimp only [Spec]
        rw [h1]
        have : a.strs id name = none := by rw [← h3]; exact f1
        rw [this]
        refine ⟨n, rfl, fun id' n' h => ?_, rfl⟩
        obtain ⟨_, _, _, _, h, _⟩ := (i.astr _ _ _).1 h
        exact g5 _ h
      · generalize setPst c g j name (lastOr none l) (some n) = S at *
        obtain ⟨c1, c2, c3, c4⟩ := setCount_same S j ((S.srv j).nStream + 1)
        refine ⟨?_, ?_, ?_, ?_, ?_, ?_, ?_, ?_, ?_, ?_, ?_, ?_, ?_⟩
        · have e1 : snext S = snext s := by funext m; simp only [snext, (p1 m).2.2.2, g11]
          have e2 : shead (setCount S j ((S.srv j).nStream + 1)) = shead s := by
            funext k
            cases k with
            | none => show S.freeSrv = s.freeSrv; rw [p4, g13]
            | some b => show S.heads b = s.heads b; rw [p7, g10]
          rw [c1, e1, e2]; exact i.sch
        · have e1 : tnext (setCount S j ((S.srv j).nStream + 1)) = tnext S := rfl
          rw [e1, c2, q1, q2]; exact hch
        · show ∀ m, _ ↔ m < S.srvFresh; rw [p3, g12]; exact i.sN
        · intro m
          show _ ↔ m < S.strFresh
          rw [p8, g8]
          by_cases e : m = n
          · subst e; rw [set_same]; simp
          · rw [set_ne _ _ e, (g6 m e).1, i.tN]; simp [e]
        · intro m b h
          rw [(c3 m).1, (p1 m).1, g11]; exact i.sb m b h
        · intro m x b h
          show b = c.tb (S.str m).name ∧ 0 ∉ (S.str m).name ∧ _
          rw [p2 m]
          rcases (hkey m _).1 h with ⟨rfl, e⟩ | ⟨e, hb⟩
          · cases e; rw [g7]; exact ⟨rfl, h0, _, h2⟩
          · rw [(g6 m e).2]; exact i.tb m x b hb
        · show Count _ S.nfreeSrv; rw [p6, g14]; exact i.sfree
        · show Count _ S.nfreeStr
          rw [p11]
          refine g9.congr (fun m => ?_)
          by_cases e : m = n
          · subst e; rw [set_same, g3]; simp
          · rw [set_ne _ _ e]
        · intro x b h
          rw [c4, (p1 x).2.1, (p1 j).2.1, g11]
          split
          · rename_i e; subst e
            refine (i.cnt x b h).add (n := n) (by rintro ⟨b, h⟩; exact g5 _ h) (fun m => ?_)
            constructor
            · rintro ⟨b, hb⟩
              rcases (hkey m _).1 hb with ⟨e, _⟩ | ⟨_, hb⟩
              · exact .inl e
              · exact .inr ⟨b, hb⟩
            · rintro (e | ⟨b, hb⟩)
              · exact ⟨_, (hkey m _).2 (.inl ⟨e, rfl⟩)⟩
              · exact ⟨b, (hkey m _).2 (.inr ⟨fun e => g5 _ (e ▸ hb), hb⟩)⟩
          · rename_i e
            refine (i.cnt x b h).congr (fun m => ?_)
            constructor
            · rintro ⟨b, hb⟩
              rcases (hkey m _).1 hb with ⟨_, e'⟩ | ⟨_, hb⟩
              · cases e'; exact absurd rfl e
              · exact ⟨b, hb⟩
            · rintro ⟨b, hb⟩
              exact ⟨b, (hkey m _).2 (.inr ⟨fun e => g5 _ (e ▸ hb), hb⟩)⟩
        · intro id' x d
          rw [(c3 x).1, (c3 x).2, (p1 x).1, (p1 x).2.2.1, g11]
          exact i.asrv id' x d
        · intro id' name' m
          show _ ↔ ∃ x b, _ ∧ _ ∧ _ ∧ (S.str m).name = name'
          rw [p2 m]
          have hid : ∀ x, ((setCount S j ((S.srv j).nStream + 1)).srv x).id = (s.srv x).id := fun x => by rw [(c3 x).1, (p1 x).1, g11]
          unfold Abs.setStr
          dsimp only
          by_cases em : m = n
          · subst em
            rw [g7]
            constructor
            · intro h
              split at h
              · rename_i e
                exact ⟨j, c.tb name, ⟨_, h2⟩, by rw [hid, h3, e.1], (hkey m _).2 (.inl ⟨rfl, rfl⟩), e.2.symm⟩
              · obtain ⟨_, _, _, _, h, _⟩ := (i.astr _ _ _).1 h
                exact absurd h (g5 _)
            · rintro ⟨x, b, hx, e1, e2, e3⟩
              rcases (hkey m _).1 e2 with ⟨_, e⟩ | ⟨e, _⟩
              · cases e
                rw [hid, h3] at e1
                rw [if_pos ⟨e1.symm, e3.symm⟩]
              · exact absurd rfl e
          · rw [(g6 m em).2]
            constructor
            · intro h
              split at h
              · cases h; exact absurd rfl em
              · obtain ⟨x, b, hx, e1, e2, e3⟩ := (i.astr _ _ _).1 h
                exact ⟨x, b, hx, by rw [hid]; exact e1, (hkey m _).2 (.inr ⟨em, e2⟩), e3⟩
            · rintro ⟨x, b, hx, e1, e2, e3⟩
              rw [hid] at e1
              rcases (hkey m _).1 e2 with ⟨e, _⟩ | ⟨_, e2⟩
              · exact absurd e em
              · have h := (i.astr id' name' m).2 ⟨x, b, hx, e1, e2, e3⟩
                split
                · rename_i e
                  rw [e.1, e.2, ← h3, f1] at h; cases h
                · exact h
        · show S.allocSrv = S.srvFresh; rw [p5, p3, g15, g12, i.allocS]
        · show S.allocStr = S.strFresh; rw [p10, p8, g16]
  · refine ⟨s, none, a, tk, by unfold createStream; rw [h5], ?_, i⟩
    dsimp only [Spec]; rw [h1]; exact ⟨rfl, rfl⟩

theorem deleteStream_inv (i : Inv c s a sk tk) (id name : Bytes) :
    ∃ s' a' sk' tk', deleteStream c s id name = some s' ∧ Spec a (.deleteStream id name) none a' ∧ Inv c s' a' sk' tk' := by
  rcases find_server i id with ⟨j, l1, l2, h1, h2, h3, h4, h5, h6, h7⟩ | ⟨h1, l, h2, h3, h4, h5⟩
  · rcases find_stream i h2 name with ⟨n, m1, m2, f1, f2, f3, f4, f5, f6, f7⟩ | ⟨f1, l, f2, f3, f4, f5⟩
    · -- the state after unlinking, recycling and decrementing
      have key : Inv c (setCount (putStream (setPst c s j name (lastOr none m1) (s.str n).next) n) j ((s.srv j).nStream - 1))
          (a.setStr id name none) sk (set (set tk n none) n (some none)) ∧
          ((setCount (putStream (setPst c s j name (lastOr none m1) (s.str n).next) n) j ((s.srv j).nStream - 1)).srv j).deleted = (s.srv j).deleted ∧
          ((setCount (putStream (setPst c s j name (lastOr none m1) (s.str n).next) n) j ((s.srv j).nStream - 1)).srv j).id = id ∧
          ((setPst c s j name (lastOr none m1) (s.str n).next).srv j).nStream = (s.srv j).nStream := by
        have hch := i.tch.unlink f4 f5 f6
        obtain ⟨p1, p2, p3, p4, p5, p6, p7, p8, p9, p10, p11⟩ := setPst_same (c := c) s j name (lastOr none m1) (s.str n).next
        have q1 := setPst_next (c := c) s j name (lastOr none m1) (s.str n).next
        have q2 := setPst_head (c := c) s j name (lastOr none m1) (s.str n).next
        generalize setPst c s j name (lastOr none m1) (s.str n).next = S at *
        obtain ⟨c1, c2, c3, c4⟩ := setCount_same (putStream S n) j ((s.srv j).nStream - 1)
        have hname : ∀ m, ((putStream S n).str m).name = (s.str m).name := fun m => by
          simp only [putStream, upd]
          split
          · rename_i e; subst e; exact p2 m
          · exact p2 m
        have hkey : ∀ m p, set (set tk n none) n (some none) m = some (some p) ↔ m ≠ n ∧ tk m = some (some p) := fun m p => by
          by_cases e : m = n
          · subst e; rw [set_same]; simp
          · rw [set_ne _ _ e, set_ne _ _ e]; simp [e]
        have hid : ∀ x, ((setCount (putStream S n) j ((s.srv j).nStream - 1)).srv x).id = (s.srv x).id := fun x => by
          rw [(c3 x).1]; exact (p1 x).1
        refine ⟨⟨?_, ?_, ?_, ?_, ?_, ?_, ?_, ?_, ?_, ?_, ?_, ?_, ?_⟩, ?_, ?_, (p1 j).2.1⟩
        · have e1 : snext (putStream S n) = snext s := by funext m; exact (p1 m).2.2.2
          have e2 : shead (setCount (putStream S n) j ((s.srv j).nStream - 1)) = shead s := by
            funext k
            cases k with
            | none => exact p4
            | some b => show S.heads b = s.heads b; rw [p7]
          rw [c1, e1, e2]; exact i.sch
        · have e2 : thead (putStream S n) = set (thead S) none (some n) := by
            funext k
            rcases k with _ | ⟨x, b⟩
            · rw [set_same]; rfl
            · rw [set_ne _ _ (by simp)]; rfl
          rw [c2, e2]
          have e3 : setNext (tnext s) (lastOr none m1) (s.str n).next = setNext (tnext s) (lastOr none m1) (tnext s n) := rfl
          rw [← e3] at hch
          have e4 : setHead (thead s (some (j, c.tb name))) (lastOr none m1) (tnext s n) = setHead (thead s (some (j, c.tb name))) (lastOr none m1) (s.str n).next := rfl
          rw [e4, ← q1, ← q2] at hch
          refine hch.push (set_same _ _ _) ?_ (fun m hm => ?_)
          · show ((putStream S n).str n).next = _; simp only [putStream, upd_same]; rfl
          · show ((putStream S n).str m).next = _; simp only [putStream, upd_ne _ _ hm]; rfl
        · show ∀ m, _ ↔ m < S.srvFresh; rw [p3]; exact i.sN
        · intro m
          show _ ↔ m < S.strFresh
          rw [p8, ← i.tN]
          by_cases e : m = n
          · subst e; rw [set_same, f2]; simp
          · rw [set_ne _ _ e, set_ne _ _ e]
        · intro m b h; rw [hid]; exact i.sb m b h
        · intro m x b h
          show b = c.tb ((putStream S n).str m).name ∧ 0 ∉ ((putStream S n).str m).name ∧ _
          rw [hname]; exact i.tb m x b ((hkey m _).1 h).2
        · show Count _ S.nfreeSrv; rw [p6]; exact i.sfree
        · show Count _ (S.nfreeStr + 1)
          rw [p11]
          refine i.tfree.add (n := n) (by rw [f2]; simp) (fun m => ?_)
          by_cases e : m = n
          · subst e; rw [set_same]; simp
          · rw [set_ne _ _ e, set_ne _ _ e]; simp [e]
        · intro x b h
          rw [c4]
          split
          · rename_i e; subst e
            refine ((i.cnt x b h).sub (n := n) ⟨_, f2⟩ (fun m => ?_)).2
            constructor
            · rintro ⟨b, hb⟩; exact ⟨((hkey m _).1 hb).1, b, ((hkey m _).1 hb).2⟩
            · rintro ⟨e, b, hb⟩; exact ⟨b, (hkey m _).2 ⟨e, hb⟩⟩
          · rename_i e
            have : ((putStream S n).srv x).nStream = (s.srv x).nStream := (p1 x).2.1
            rw [this]
            refine (i.cnt x b h).congr (fun m => ?_)
            constructor
            · rintro ⟨b, hb⟩; exact ⟨b, ((hkey m _).1 hb).2⟩
            · rintro ⟨b, hb⟩
              refine ⟨b, (hkey m _).2 ⟨fun e' => ?_, hb⟩⟩
              rw [e', f2] at hb; cases hb; exact e rfl
        · intro id' x d
          rw [hid, (c3 x).2]
          have : ((putStream S n).srv x).deleted = (s.srv x).deleted := (p1 x).2.2.1
          rw [this]; exact i.asrv id' x d
        · intro id' name' m
          show _ ↔ ∃ x b, _ ∧ _ ∧ _ ∧ ((putStream S n).str m).name = name'
          rw [hname]
          unfold Abs.setStr
          dsimp only
          constructor
          · intro h
            split at h
            · cases h
            · rename_i e
              obtain ⟨x, b, hx, e1, e2, e3⟩ := (i.astr _ _ _).1 h
              refine ⟨x, b, hx, by rw [hid]; exact e1, (hkey m _).2 ⟨fun e' => e ?_, e2⟩, e3⟩
              subst e'
              rw [f2] at e2; cases e2
              exact ⟨by rw [← e1, h3], by rw [← e3, f3]⟩
          · rintro ⟨x, b, hx, e1, e2, e3⟩
            rw [hid] at e1
            obtain ⟨en, e2⟩ := (hkey m _).1 e2
            have h := (i.astr id' name' m).2 ⟨x, b, hx, e1, e2, e3⟩
            rw [if_neg, h]
            rintro ⟨rfl, rfl⟩
            rw [← h3, f1] at h; cases h; exact en rfl
        · show S.allocSrv = S.srvFresh; rw [p5, p3, i.allocS]
        · show S.allocStr = S.strFresh; rw [p10, p8, i.allocT]
        · rw [(c3 j).2]; exact (p1 j).2.2.1
        · rw [hid, h3]
      obtain ⟨k1, k2, k3, k4⟩ := key
      have hrun : deleteStream c s id name =
          if ((setCount (putStream (setPst c s j name (lastOr none m1) (s.str n).next) n) j ((s.srv j).nStream - 1)).srv j).deleted ∧
             ((setCount (putStream (setPst c s j name (lastOr none m1) (s.str n).next) n) j ((s.srv j).nStream - 1)).srv j).nStream = 0
          then deleteServer c (setCount (putStream (setPst c s j name (lastOr none m1) (s.str n).next) n) j ((s.srv j).nStream - 1)) id
          else some (setCount (putStream (setPst c s j name (lastOr none m1) (s.str n).next) n) j ((s.srv j).nStream - 1)) := by
        unfold deleteStream
        rw [h7]; dsimp only; rw [f7]; dsimp only
        rw [← k4]
        rfl
      rw [hrun]
      generalize setCount (putStream (setPst c s j name (lastOr none m1) (s.str n).next) n) j ((s.srv j).nStream - 1) = T at *
      have hstr : a.strs id name = some n := by rw [← h3]; exact f1
      have hb := k1.bare h2
      rw [k3] at hb
      by_cases hd : (T.srv j).deleted = true ∧ (T.srv j).nStream = 0
      · rw [if_pos hd]
        obtain ⟨s', a', sk', r1, r2, r3⟩ := deleteServer_inv k1 id
        refine ⟨s', a', sk', _, r1, ?_, r3⟩
        have hB := hb.1 hd.2
        dsimp only [Spec] at r2 ⊢
        have : (a.setStr id name none).srvs id = a.srvs id := rfl
        rw [this, h1] at r2
        rw [h1, hstr]
        exact ⟨rfl, fun _ => r2.2.1 hB, fun h => absurd ⟨k2 ▸ hd.1, hB⟩ h⟩
      · rw [if_neg hd]
        refine ⟨T, _, sk, _, rfl, ?_, k1⟩
        dsimp only [Spec]
        rw [h1, hstr]
        exact ⟨rfl, fun h => absurd ⟨k2.trans h.1, hb.2 h.2⟩ hd, fun _ => rfl⟩
    · refine ⟨s, a, sk, tk, by unfold deleteStream; rw [h7]; dsimp only; rw [f5], ?_, i⟩
      have hstr : a.strs id name = none := by rw [← h3]; exact f1
      dsimp only [Spec]; rw [h1, hstr]; exact ⟨rfl, rfl⟩
  · refine ⟨s, a, sk, tk, by unfold deleteStream; rw [h5], ?_, i⟩
    dsimp only [Spec]; rw [h1]; exact ⟨rfl, rfl⟩

end Verif.LiveReg
