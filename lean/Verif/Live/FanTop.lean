import Verif.Live.FanKept
/- The publishers of a stream, and what a subscriber gets that follows one of them. -/
namespace Verif.Live

theorem setPub_pubs (cfg : Cfg) (ok : Takes) (on : Bool) (c : Ctx) (st : St) : (setPub cfg ok on c st).pubs = st.pubs := by
  unfold setPub; split <;> rfl

theorem av_alike (cfg : Cfg) (ok : Takes) (id : Nat) (codec : Option Codec) (m : Msg) (st : St) :
    Alike st.ctxs (av cfg ok id codec m st).ctxs ∧ (av cfg ok id codec m st).pubs = st.pubs := by
  unfold av
  split
  · exact ⟨Alike.rfl' _, rfl⟩
  · rename_i p0 hf
    split
    · exact ⟨Alike.rfl' _, rfl⟩
    · have a0 : Alike st.ctxs (modify id (fun c => { c with hold := 0 }) st.ctxs) := modify_alike (fun c => by exact ⟨rfl, rfl, rfl, rfl⟩) _ _
      dsimp only
      split
      · exact ⟨a0, rfl⟩
      · split
        · exact ⟨a0, rfl⟩
        · have hx : ∀ st1 : St, Alike st.ctxs st1.ctxs → st1.pubs = st.pubs → ∀ st3, st3 = (let x := castOf cfg codec p0 m
                let st2 := { st1 with ctxs := modify id (fun c => setCs c x.audio { getCs c x.audio with active := true, ts := m.ts }) st1.ctxs }
                if (top st2.pubs).map (·.2) = some id then { st2 with ctxs := st2.ctxs.map (deliver cfg ok x) } else st2) → Alike st.ctxs st3.ctxs ∧ st3.pubs = st.pubs := by
            intro st1 a1 e1 st3 e3
            have a2 := a1.trans (modify_alike (f := fun c => setCs c (castOf cfg codec p0 m).audio { getCs c (castOf cfg codec p0 m).audio with active := true, ts := m.ts })
              (fun c => ⟨(setCs_same _ _ _).hId, (setCs_same _ _ _).hPub, (setCs_same _ _ _).hPri, (setCs_same _ _ _).hSess⟩) id st1.ctxs)
            rw [e3]
            dsimp only
            split
            · exact ⟨a2.trans (Alike.map (fun c => ⟨(deliver_same _ _ _ _).hId, (deliver_same _ _ _ _).hPub, (deliver_same _ _ _ _).hPri, (deliver_same _ _ _ _).hSess⟩) _), e1⟩
            · exact ⟨a2, e1⟩
          refine hx _ ?_ ?_ _ rfl
          · split
            · exact setPub_alike' a0
            · exact a0
          · split
            · exact setPub_pubs _ _ _ _ _
            · rfl

/-- The publishers of the map are the sessions that publish; sessions keep to their role. -/
structure Roles (role : Nat → Bool) (st : St) : Prop where
  hRole : ∀ c ∈ st.ctxs, c.sessPub = c.publishing ∧ c.publishing = role c.id
  hPubs : ∀ pri id, (pri, id) ∈ st.pubs ↔ ∃ c ∈ st.ctxs, c.id = id ∧ c.publishing = true ∧ c.pri = pri
  hDist : ∀ p ∈ st.pubs, ∀ q ∈ st.pubs, p.1 = q.1 → p = q

theorem Roles.alike {role st st'} (h : Roles role st) (a : Alike st.ctxs st'.ctxs) (e : st'.pubs = st.pubs) : Roles role st' := by
  refine ⟨?_, ?_, by rw [e]; exact h.hDist⟩
  · intro c hc
    obtain ⟨y, hy, e1, e2, _, e4⟩ := a.mem hc
    rw [← e1, ← e2, ← e4]; exact h.hRole y hy
  · intro pri id
    rw [e, h.hPubs]
    constructor
    · rintro ⟨c, hc, h1, h2, h3⟩
      obtain ⟨y, hy, e1, e2, e3, _⟩ := a.symm.mem hc
      exact ⟨y, hy, e1.trans h1, e2.trans h2, e3.trans h3⟩
    · rintro ⟨c, hc, h1, h2, h3⟩
      obtain ⟨y, hy, e1, e2, e3, _⟩ := a.mem hc
      exact ⟨y, hy, e1.trans h1, e2.trans h2, e3.trans h3⟩

/-- Operations that keep to the roles. -/
def Keeps (role : Nat → Bool) : Op → Prop
  | .publish id _ => role id = true
  | .play _ id _ => role id = false
  | _ => True

theorem roles_step {cfg role st op} (hd : Distinct st) (h : Roles role st) (ho : Keeps role op) : Roles role (step cfg st op) := by
  cases op with
  | publish id pri =>
    simp only [Keeps] at ho
    simp only [step]; unfold publish
    split
    · rename_i c0 hf
      refine h.alike ?_ rfl
      show Alike st.ctxs (modify id (fun c => { c with sessPub := true }) st.ctxs)
      have hr : ∀ c ∈ st.ctxs, c.id = id → c.sessPub = true := by
        intro c hc hi
        obtain ⟨h1, h2⟩ := h.hRole c hc
        rw [h1, h2, hi, ho]
      have : modify id (fun c => { c with sessPub := true }) st.ctxs = st.ctxs := by
        unfold modify
        refine (List.map_congr_left ?_).trans (List.map_id _)
        intro c hc
        split
        · rename_i hi
          have := hr c hc hi
          cases c; simp_all
        · rfl
      rw [this]; exact Alike.rfl' _
    · rename_i hf
      split
      · exact h
      · rename_i hn
        have hn' : ∀ p ∈ st.pubs, p.1 ≠ pri := by
          intro p hp e
          apply hn
          rw [List.any_eq_true]
          exact ⟨p, hp, by simpa using e⟩
        refine ⟨?_, ?_, ?_⟩
        · intro c hc
          rcases List.mem_cons.1 hc with rfl | hc
          · exact ⟨rfl, ho.symm⟩
          · exact h.hRole c hc
        · intro pri' id'
          rw [List.mem_cons, h.hPubs]
          constructor
          · rintro (e | ⟨c, hc, h1⟩)
            · cases e
              exact ⟨_, List.mem_cons_self, rfl, rfl, rfl⟩
            · exact ⟨c, List.mem_cons_of_mem _ hc, h1⟩
          · rintro ⟨c, hc, h1, h2, h3⟩
            rcases List.mem_cons.1 hc with rfl | hc
            · left; rw [← h1, ← h3]
            · exact Or.inr ⟨c, hc, h1, h2, h3⟩
        · intro p hp q hq e
          rcases List.mem_cons.1 hp with rfl | hp' <;> rcases List.mem_cons.1 hq with rfl | hq'
          · rfl
          · exact absurd e.symm (hn' q hq')
          · exact absurd e (hn' p hp')
          · exact h.hDist p hp' q hq' e
  | play ok id silent =>
    simp only [Keeps] at ho
    simp only [step]; unfold play
    split
    · rename_i c0 hf
      refine h.alike ?_ rfl
      show Alike st.ctxs (modify id (fun c => { c with sessPub := false, silent := silent }) st.ctxs)
      have hr : ∀ c ∈ st.ctxs, c.id = id → c.sessPub = false := by
        intro c hc hi
        obtain ⟨h1, h2⟩ := h.hRole c hc
        rw [h1, h2, hi, ho]
      have : modify id (fun c => { c with sessPub := false, silent := silent }) st.ctxs = modify id (fun c => { c with silent := silent }) st.ctxs := by
        unfold modify
        refine List.map_congr_left ?_
        intro c hc
        split
        · rename_i hi
          have := hr c hc hi
          cases c; simp_all
        · rfl
      rw [this]; exact modify_alike (fun c => by exact ⟨rfl, rfl, rfl, rfl⟩) _ _
    · rename_i hf
      dsimp only
      have hnew : ∀ c : Ctx, c.id = id → c.publishing = false → c.sessPub = false → Roles role { st with ctxs := c :: st.ctxs } := by
        intro c h1 h2 h3
        refine ⟨?_, ?_, h.hDist⟩
        · intro x hx
          rcases List.mem_cons.1 hx with rfl | hx
          · exact ⟨h3.trans h2.symm, by rw [h2, h1, ho]⟩
          · exact h.hRole x hx
        · intro pri' id'
          show (pri', id') ∈ st.pubs ↔ _
          rw [h.hPubs]
          constructor
          · rintro ⟨x, hx, k⟩; exact ⟨x, List.mem_cons_of_mem _ hx, k⟩
          · rintro ⟨x, hx, k1, k2, k3⟩
            rcases List.mem_cons.1 hx with rfl | hx
            · rw [h2] at k2; cases k2
            · exact ⟨x, hx, k1, k2, k3⟩
      have hs : ∀ (c : Ctx) o, Same c (send ok c o).1 := by
        intro c o; unfold send; split <;> exact ⟨rfl, rfl, rfl, rfl, rfl, rfl⟩
      obtain ⟨c0, hc0⟩ : ∃ c0 : Ctx, c0 = { id := id, publishing := false, sessPub := false } := ⟨_, rfl⟩
      rw [← hc0]
      have s1 : Same c0 (if st.active = true then setSub ok .start (startNotes cfg) true c0 else c0) := by
        split
        · exact setSub_pub _ _ _ _ _
        · exact Same.rfl' _
      have s2 : Same c0 { (if st.active = true then setSub ok .start (startNotes cfg) true c0 else c0) with silent := silent } := s1.trans ⟨rfl, rfl, rfl, rfl, rfl, rfl⟩
      have fin : ∀ c, Same c0 c → Roles role { st with ctxs := c :: st.ctxs } := by
        intro c hc
        refine hnew c ?_ ?_ ?_
        · rw [hc.hId, hc0]
        · rw [hc.hPub, hc0]
        · rw [hc.hSess, hc0]
      apply fin
      split
      · exact (s2.trans (hs _ _)).trans (hs _ _)
      · exact s2
  | close ok id =>
    simp only [step]; unfold close
    split
    · exact h
    · rename_i c0 hf
      obtain ⟨hc0, hid⟩ := find_mem hf
      dsimp only
      obtain ⟨r1, r2⟩ := h.hRole c0 hc0
      have hr : Roles role { st with pubs := if c0.publishing = true then st.pubs.filter (fun p => p.1 != c0.pri) else st.pubs, ctxs := st.ctxs.filter (fun x => x.id != id) } := by
        refine ⟨?_, ?_, ?_⟩
        · intro c hc
          exact h.hRole c (List.mem_filter.1 hc).1
        · intro pri' id'
          dsimp only
          constructor
          · intro hm
            have hm' : (pri', id') ∈ st.pubs ∧ (c0.publishing = true → pri' ≠ c0.pri) := by
              split at hm
              · obtain ⟨h1, h2⟩ := List.mem_filter.1 hm
                exact ⟨h1, fun _ => by simpa using h2⟩
              · rename_i hp
                exact ⟨hm, fun h => absurd h hp⟩
            obtain ⟨c, hc, h1, h2, h3⟩ := (h.hPubs pri' id').1 hm'.1
            refine ⟨c, List.mem_filter.2 ⟨hc, ?_⟩, h1, h2, h3⟩
            simp only [bne_iff_ne, ne_eq]
            intro e
            have := distinct_unique hd hc hc0 (e.trans hid.symm)
            rw [this] at h2 h3
            exact hm'.2 h2 h3.symm
          · rintro ⟨c, hc, h1, h2, h3⟩
            obtain ⟨hc, hne⟩ := List.mem_filter.1 hc
            have hm := (h.hPubs pri' id').2 ⟨c, hc, h1, h2, h3⟩
            split
            · rename_i hp
              refine List.mem_filter.2 ⟨hm, ?_⟩
              simp only [bne_iff_ne, ne_eq]
              intro e
              have h0 := (h.hPubs c0.pri id).2 ⟨c0, hc0, hid, hp, rfl⟩
              have := h.hDist _ hm _ h0 e
              have e2 : id' = id := by injection this
              simp only [bne_iff_ne, ne_eq] at hne
              exact hne (h1.trans e2)
            · exact hm
        · have : ∀ p ∈ (if c0.publishing = true then st.pubs.filter (fun p => p.1 != c0.pri) else st.pubs), p ∈ st.pubs := by
            intro p hp
            split at hp
            · exact (List.mem_filter.1 hp).1
            · exact hp
          intro p hp q hq e
          exact h.hDist p (this p hp) q (this q hq) e
      split
      · rename_i hp
        have e1 : c0.sessPub = true := r1.trans hp
        rw [if_pos e1]
        rw [if_pos hp] at hr
        exact hr.alike (setPub_alike _ _ _ _ _) (setPub_pubs _ _ _ _ _)
      · rename_i hp
        have e1 : ¬ c0.sessPub = true := by rw [r1]; exact hp
        rw [if_neg e1]
        rw [if_neg hp] at hr
        exact hr
  | pause ok id on =>
    simp only [step]; unfold pause
    split
    · exact h
    · have a1 : Alike st.ctxs (modify id (fun c => { c with paused := on }) st.ctxs) := modify_alike (fun c => by exact ⟨rfl, rfl, rfl, rfl⟩) _ _
      unfold setStatus
      split
      · exact h.alike (setPub_alike' a1) (setPub_pubs _ _ _ _ _)
      · refine h.alike (a1.trans (modify_alike (fun c => ?_) _ _)) rfl
        have := setSub_pub ok (if (!on) = true then Out.start else .eof) (if (!on) = true then startNotes cfg else stopNotes cfg) (!on) c
        exact ⟨this.hId, this.hPub, this.hPri, this.hSess⟩
  | hold id on =>
    simp only [step]; unfold hold
    refine h.alike (modify_alike (fun c => ?_) _ _) rfl
    split
    · exact ⟨rfl, rfl, rfl, rfl⟩
    · split <;> exact ⟨rfl, rfl, rfl, rfl⟩
  | av ok id codec m =>
    simp only [step]
    have := av_alike cfg ok id codec m st
    exact h.alike this.1 this.2

theorem roles_run {cfg role} : ∀ ops st, Distinct st → Roles role st → (∀ op ∈ ops, Keeps role op) → Roles role (run cfg st ops) := by
  intro ops
  induction ops with
  | nil => intro st _ h _; exact h
  | cons op ops ih =>
    intro st hd h ho
    exact ih _ (distinct_step hd) (roles_step hd h (ho op List.mem_cons_self)) (fun o h => ho o (List.mem_cons_of_mem _ h))

theorem oneRole_keeps {ops} (h : OneRole ops) : ∃ role, ∀ op ∈ ops, Keeps role op := by
  classical
  refine ⟨fun id => decide (∃ pri, .publish id pri ∈ ops), ?_⟩
  intro op ho
  cases op with
  | publish id pri => simp only [Keeps, decide_eq_true_eq]; exact ⟨pri, ho⟩
  | play ok id silent =>
    simp only [Keeps, decide_eq_false_iff_not]
    intro hp
    exact h id hp ⟨ok, silent, ho⟩
  | _ => trivial

theorem top_spec (l : List (Int × Nat)) : (top l = none ∧ l = []) ∨ ∃ p, top l = some p ∧ p ∈ l ∧ ∀ q ∈ l, q.1 ≤ p.1 := by
  induction l with
  | nil => exact Or.inl ⟨rfl, rfl⟩
  | cons a as ih =>
    right
    unfold top
    rcases ih with ⟨h, rfl⟩ | ⟨p, h, hp, hm⟩
    · rw [h]; exact ⟨a, rfl, by simp, by simp⟩
    · rw [h]
      dsimp only
      split
      · rename_i hlt
        refine ⟨p, rfl, List.mem_cons_of_mem _ hp, ?_⟩
        intro q hq
        rcases List.mem_cons.1 hq with rfl | hq
        · omega
        · exact hm q hq
      · rename_i hlt
        refine ⟨a, rfl, List.mem_cons_self, ?_⟩
        intro q hq
        rcases List.mem_cons.1 hq with rfl | hq
        · omega
        · have := hm q hq; omega

/-- The publisher at the end of the map is the one with the highest priority. -/
theorem top_highest {role st} (hd : Distinct st) (h : Roles role st) {p} (hp : p ∈ st.ctxs) (hpub : p.publishing = true) :
    (top st.pubs).map (·.2) = some p.id ↔ ∀ q ∈ st.ctxs, q.publishing = true → q.pri ≤ p.pri := by
  have hmem := (h.hPubs p.pri p.id).2 ⟨p, hp, rfl, hpub, rfl⟩
  rcases top_spec st.pubs with ⟨_, e⟩ | ⟨t, e, ht, hm⟩
  · rw [e] at hmem; cases hmem
  · rw [e]
    simp only [Option.map_some, Option.some.injEq]
    constructor
    · intro et q hq hqp
      have hq' := hm _ ((h.hPubs q.pri q.id).2 ⟨q, hq, rfl, hqp, rfl⟩)
      obtain ⟨c, hc, h1, h2, h3⟩ := (h.hPubs t.1 t.2).1 ht
      have := distinct_unique hd hc hp (h1.trans et)
      rw [this] at h3
      rw [h3]; exact hq'
    · intro hall
      obtain ⟨c, hc, h1, h2, h3⟩ := (h.hPubs t.1 t.2).1 ht
      have h4 := hall c hc h2
      have h5 := hm _ hmem
      have h6 : t.1 = (p.pri, p.id).1 := by rw [h3] at h4; dsimp only at h5 ⊢; omega
      have := h.hDist _ ht _ hmem h6
      rw [this]

theorem roles_init (role : Nat → Bool) : Roles role ({} : St) := by
  refine ⟨?_, ?_, ?_⟩
  · intro c h; exact absurd h (by simp)
  · intro pri id
    simp
  · intro c h; exact absurd h (by simp)

end Verif.Live
