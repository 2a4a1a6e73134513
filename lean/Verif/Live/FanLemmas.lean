import Verif.Live.FanSpec
/- Lemmas: what each operation does to one session. -/
namespace Verif.Live

theorem avs_append (a b : List Out) : avs (a ++ b) = avs a ++ avs b := by
  induction a with
  | nil => rfl
  | cons o os ih => cases o <;> simp [avs, ih]

theorem avs_nil_of {l : List Out} (h : ∀ o ∈ l, ∀ m, o ≠ .av m) : avs l = [] := by
  induction l with
  | nil => rfl
  | cons o os ih =>
    have := ih (fun x hx => h x (List.mem_cons_of_mem _ hx))
    cases o with
    | av m => exact absurd rfl (h _ List.mem_cons_self m)
    | _ => simpa [avs] using this

/-- Everything but the queue, the counters and flags of delivery. -/
structure Same (c c' : Ctx) : Prop where
  hId : c'.id = c.id
  hPub : c'.publishing = c.publishing
  hSess : c'.sessPub = c.sessPub
  hPri : c'.pri = c.pri
  hPaused : c'.paused = c.paused
  hHold : c'.hold = c.hold

theorem Same.rfl' (c : Ctx) : Same c c := ⟨rfl, rfl, rfl, rfl, rfl, rfl⟩

theorem Same.trans {a b c : Ctx} (h : Same a b) (k : Same b c) : Same a c :=
  ⟨k.hId.trans h.hId, k.hPub.trans h.hPub, k.hSess.trans h.hSess, k.hPri.trans h.hPri, k.hPaused.trans h.hPaused, k.hHold.trans h.hHold⟩

theorem setCs_same (c : Ctx) (b : Bool) (x : Cs) : Same c (setCs c b x) := by
  unfold setCs; split <;> exact ⟨rfl, rfl, rfl, rfl, rfl, rfl⟩

theorem setCs_out (c : Ctx) (b : Bool) (x : Cs) : (setCs c b x).out = c.out := by
  unfold setCs; split <;> rfl

theorem getCs_setCs (c : Ctx) (b : Bool) (x : Cs) : getCs (setCs c b x) b = x := by
  cases b <;> rfl

theorem getCs_setCs_ne (c : Ctx) (b b' : Bool) (x : Cs) (h : b' ≠ b) : getCs (setCs c b x) b' = getCs c b' := by
  cases b <;> cases b' <;> first | exact absurd rfl h | rfl

/-- `c'` is `c` with more in its queue, all of it of kind `K`. -/
structure Grown (K : Out → Prop) (c c' : Ctx) : Prop where
  hSame : Same c c'
  hOut : ∃ l, c'.out = c.out ++ l ∧ ∀ o ∈ l, K o

theorem Grown.rfl' {K} (c : Ctx) : Grown K c c := ⟨Same.rfl' c, [], by simp⟩

theorem Grown.trans {K a b c} (h : Grown K a b) (k : Grown K b c) : Grown K a c := by
  obtain ⟨l, e, hl⟩ := h.hOut
  obtain ⟨l', e', hl'⟩ := k.hOut
  refine ⟨h.hSame.trans k.hSame, l ++ l', by rw [e', e, List.append_assoc], ?_⟩
  intro o ho
  rcases List.mem_append.1 ho with ho | ho
  · exact hl o ho
  · exact hl' o ho

theorem Grown.mono {K K' : Out → Prop} {a b} (h : Grown K a b) (hk : ∀ o, K o → K' o) : Grown K' a b := by
  obtain ⟨l, e, hl⟩ := h.hOut
  exact ⟨h.hSame, l, e, fun o ho => hk o (hl o ho)⟩

theorem send_grown {K : Out → Prop} (ok : Takes) (c : Ctx) (o : Out) (h : K o) : Grown K c (send ok c o).1 := by
  unfold send
  split
  · exact ⟨⟨rfl, rfl, rfl, rfl, rfl, rfl⟩, [o], rfl, by simpa using h⟩
  · exact Grown.rfl' c

theorem send_cs (ok : Takes) (c : Ctx) (o : Out) (b : Bool) : getCs (send ok c o).1 b = getCs c b := by
  unfold send; split <;> cases b <;> rfl

theorem sendAll_grown {K : Out → Prop} (ok : Takes) (os : List Out) : ∀ c, (∀ o ∈ os, K o) → Grown K c (sendAll ok c os).1 := by
  induction os with
  | nil => intro c _; exact Grown.rfl' c
  | cons o os ih =>
    intro c h
    unfold sendAll
    have h1 := send_grown ok c o (h o List.mem_cons_self)
    split
    · rename_i c1 e
      rw [e] at h1
      exact h1.trans (ih c1 (fun x hx => h x (List.mem_cons_of_mem _ hx)))
    · rename_i c1 e
      rw [e] at h1
      exact h1

/-- Notices: what is not a message, a header or metadata. -/
def Notice (o : Out) : Prop := o = .start ∨ o = .eof ∨ ∃ n, o = .note n

theorem startNotes_notice (cfg : Cfg) : ∀ o ∈ startNotes cfg, Notice o := by
  intro o h
  unfold startNotes at h
  rcases List.mem_append.1 h with h | h <;> split at h <;> simp at h
  · rcases h with h | h <;> exact Or.inr (Or.inr ⟨_, h⟩)
  · exact Or.inr (Or.inr ⟨_, h⟩)

theorem stopNotes_notice (cfg : Cfg) : ∀ o ∈ stopNotes cfg, Notice o := by
  intro o h
  unfold stopNotes at h
  rcases List.mem_append.1 h with h | h <;> split at h <;> simp at h
  all_goals exact Or.inr (Or.inr ⟨_, h⟩)

/-- The channels after a change of status: as before, or both inactive. -/
theorem setSub_spec (ok : Takes) (ctrl : Out) (notes : List Out) (on : Bool) (c : Ctx) (h1 : Notice ctrl) (h2 : ∀ o ∈ notes, Notice o) :
    Grown Notice c (setSub ok ctrl notes on c) ∧
    (∀ b, getCs (setSub ok ctrl notes on c) b = getCs c b ∨ (getCs (setSub ok ctrl notes on c) b).active = false) := by
  unfold setSub
  split
  · exact ⟨Grown.rfl' c, fun b => Or.inl rfl⟩
  · have g1 : Grown Notice c (send ok { c with active := on } ctrl).1 :=
      Grown.trans (b := { c with active := on }) ⟨⟨rfl, rfl, rfl, rfl, rfl, rfl⟩, [], by simp⟩ (send_grown ok _ ctrl h1)
    have k1 : ∀ b, getCs (send ok { c with active := on } ctrl).1 b = getCs c b := fun b => (send_cs ok _ ctrl b).trans (by cases b <;> rfl)
    split
    · rename_i c1 e
      rw [e] at g1 k1
      exact ⟨g1.trans ⟨⟨rfl, rfl, rfl, rfl, rfl, rfl⟩, [], by simp⟩, fun b => Or.inl ((by cases b <;> rfl : getCs { c1 with fin := true } b = getCs c1 b).trans (k1 b))⟩
    · rename_i c1 e
      rw [e] at g1 k1
      have g2 : Grown Notice c1 (sendAll ok c1 (if c1.silent = true then [] else notes)).1 := by
        refine sendAll_grown ok _ c1 ?_
        split
        · intro o ho; simp at ho
        · exact h2
      have k2 : ∀ os c1 b, getCs (sendAll ok c1 os).1 b = getCs c1 b := by
        intro os
        induction os with
        | nil => intro c1 b; rfl
        | cons o os ih =>
          intro c1 b
          have := send_cs ok c1 o b
          unfold sendAll
          split
          · rename_i c2 e; rw [e] at this; exact (ih c2 b).trans this
          · rename_i c2 e; rw [e] at this; exact this
      have k2' := k2 (if c1.silent = true then [] else notes) c1
      split
      · rename_i c2 e2
        rw [e2] at g2 k2'
        exact ⟨(g1.trans g2).trans ⟨⟨rfl, rfl, rfl, rfl, rfl, rfl⟩, [], by simp⟩, fun b => Or.inl ((by cases b <;> rfl : getCs { c2 with fin := true } b = getCs c2 b).trans ((k2' b).trans (k1 b)))⟩
      · rename_i c2 e2
        rw [e2] at g2
        refine ⟨(g1.trans g2).trans ⟨⟨rfl, rfl, rfl, rfl, rfl, rfl⟩, [], by simp⟩, fun b => Or.inr ?_⟩
        cases b <;> rfl

/-- `Q`: what may be assumed of the operations. A property of a session and of all messages so far, kept by every operation. -/
structure Kept (cfg : Cfg) (Q : Op → Prop) (P : List Msg → Ctx → Prop) : Prop where
  hMono : ∀ L m c, P L c → P (L ++ [m]) c
  hNew : ∀ L c, c.out = [] → c.v = {} → c.a = {} → P L c
  /-- notices, and channels that stay or become inactive; the flags may change -/
  hNotice : ∀ L c c', P L c → (∃ l, c'.out = c.out ++ l ∧ ∀ o ∈ l, Notice o) → c'.id = c.id → c'.publishing = c.publishing →
    (∀ b, getCs c' b = getCs c b ∨ (getCs c' b).active = false) → P L c'
  /-- the channels of a publisher -/
  hPub : ∀ L c b x, P L c → c.publishing = true → P L (setCs c b x)
  hDeliver : ∀ L ok id codec m p c, Q (.av ok id codec m) → p.id = id → (m.video = true → m.ftype = 1 ∨ m.ftype = 2) → P L c → c.publishing = false → c.paused = false →
    P (L ++ [m]) (deliver cfg ok (castOf cfg codec p m) c)

theorem mem_modify {id f cs c} (h : c ∈ modify id f cs) : ∃ x ∈ cs, (x.id = id ∧ c = f x) ∨ (x.id ≠ id ∧ c = x) := by
  unfold modify at h
  obtain ⟨x, hx, e⟩ := List.mem_map.1 h
  refine ⟨x, hx, ?_⟩
  by_cases hi : x.id = id
  · rw [if_pos hi] at e; exact Or.inl ⟨hi, e.symm⟩
  · rw [if_neg hi] at e; exact Or.inr ⟨hi, e.symm⟩

theorem find_mem {st id c} (h : find? st id = some c) : c ∈ st.ctxs ∧ c.id = id := by
  unfold find? at h
  exact ⟨List.mem_of_find?_eq_some h, by simpa using List.find?_some h⟩

theorem setSub_id (ok : Takes) (ctrl : Out) (notes : List Out) (on : Bool) (c : Ctx) : (setSub ok ctrl notes on c).id = c.id := by
  have hs : ∀ (c : Ctx) o, (send ok c o).1.id = c.id := by
    intro c o; unfold send; split <;> rfl
  have ha : ∀ (os : List Out) (c : Ctx), (sendAll ok c os).1.id = c.id := by
    intro os
    induction os with
    | nil => intro c; rfl
    | cons o os ih =>
      intro c
      have h := hs c o
      unfold sendAll
      split
      · rename_i c1 e; rw [e] at h; exact (ih c1).trans h
      · rename_i c1 e; rw [e] at h; exact h
  unfold setSub
  split
  · rfl
  · have h := hs { c with active := on } ctrl
    split
    · rename_i c1 e; rw [e] at h; exact h
    · rename_i c1 e
      rw [e] at h
      have h2 := ha (if c1.silent = true then [] else notes) c1
      split
      · rename_i c2 e2; rw [e2] at h2; exact h2.trans h
      · rename_i c2 e2; rw [e2] at h2; exact h2.trans h

theorem setSub_pub (ok : Takes) (ctrl : Out) (notes : List Out) (on : Bool) (c : Ctx) : Same c (setSub ok ctrl notes on c) := by
  have hs : ∀ (c : Ctx) o, Same c (send ok c o).1 := by
    intro c o; unfold send; split <;> exact ⟨rfl, rfl, rfl, rfl, rfl, rfl⟩
  have ha : ∀ (os : List Out) (c : Ctx), Same c (sendAll ok c os).1 := by
    intro os
    induction os with
    | nil => intro c; exact Same.rfl' c
    | cons o os ih =>
      intro c
      have h := hs c o
      unfold sendAll
      split
      · rename_i c1 e; rw [e] at h; exact h.trans (ih c1)
      · rename_i c1 e; rw [e] at h; exact h
  unfold setSub
  split
  · exact Same.rfl' c
  · have h := hs { c with active := on } ctrl
    have h0 : Same c { c with active := on } := ⟨rfl, rfl, rfl, rfl, rfl, rfl⟩
    split
    · rename_i c1 e; rw [e] at h; exact (h0.trans h).trans ⟨rfl, rfl, rfl, rfl, rfl, rfl⟩
    · rename_i c1 e
      rw [e] at h
      have h2 := ha (if c1.silent = true then [] else notes) c1
      split
      · rename_i c2 e2; rw [e2] at h2; exact ((h0.trans h).trans h2).trans ⟨rfl, rfl, rfl, rfl, rfl, rfl⟩
      · rename_i c2 e2; rw [e2] at h2; exact ((h0.trans h).trans h2).trans ⟨rfl, rfl, rfl, rfl, rfl, rfl⟩

/-- Two lists of sessions that agree in everything but queues and flags. -/
inductive Alike : List Ctx → List Ctx → Prop
  | nil : Alike [] []
  | cons {c c' cs cs'} : c'.id = c.id → c'.publishing = c.publishing → c'.pri = c.pri ∧ c'.sessPub = c.sessPub → Alike cs cs' → Alike (c :: cs) (c' :: cs')

theorem Alike.map {f : Ctx → Ctx} (h : ∀ c, (f c).id = c.id ∧ (f c).publishing = c.publishing ∧ (f c).pri = c.pri ∧ (f c).sessPub = c.sessPub) : ∀ cs, Alike cs (cs.map f)
  | [] => .nil
  | c :: cs => .cons (h c).1 (h c).2.1 (h c).2.2 (Alike.map h cs)

theorem Alike.rfl' : ∀ cs, Alike cs cs
  | [] => .nil
  | _ :: cs => .cons rfl rfl ⟨rfl, rfl⟩ (Alike.rfl' cs)

theorem Alike.trans {a b c} (h : Alike a b) (k : Alike b c) : Alike a c := by
  induction h generalizing c with
  | nil => exact k
  | cons h1 h2 h3 _ ih => cases k with
    | cons k1 k2 k3 k4 => exact .cons (k1.trans h1) (k2.trans h2) ⟨k3.1.trans h3.1, k3.2.trans h3.2⟩ (ih k4)

theorem Alike.ids {a b} (h : Alike a b) : b.map (·.id) = a.map (·.id) := by
  induction h with
  | nil => rfl
  | cons h1 _ _ _ ih => simp [h1, ih]

theorem Alike.mem {a b} (h : Alike a b) {x} (hx : x ∈ b) : ∃ y ∈ a, y.id = x.id ∧ y.publishing = x.publishing ∧ y.pri = x.pri ∧ y.sessPub = x.sessPub := by
  induction h with
  | nil => exact absurd hx (by simp)
  | cons h1 h2 h3 _ ih =>
    rcases List.mem_cons.1 hx with rfl | hx
    · exact ⟨_, List.mem_cons_self, h1.symm, h2.symm, h3.1.symm, h3.2.symm⟩
    · obtain ⟨y, hy, e⟩ := ih hx
      exact ⟨y, List.mem_cons_of_mem _ hy, e⟩

theorem Alike.symm {a b} (h : Alike a b) : Alike b a := by
  induction h with
  | nil => exact .nil
  | cons h1 h2 h3 _ ih => exact .cons h1.symm h2.symm ⟨h3.1.symm, h3.2.symm⟩ ih

theorem modify_alike {f : Ctx → Ctx} (h : ∀ c, (f c).id = c.id ∧ (f c).publishing = c.publishing ∧ (f c).pri = c.pri ∧ (f c).sessPub = c.sessPub) (id : Nat) (cs : List Ctx) : Alike cs (modify id f cs) := by
  unfold modify
  refine Alike.map (fun c => ?_) cs
  split
  · exact h c
  · exact ⟨rfl, rfl, rfl, rfl⟩

theorem modify_ids {f : Ctx → Ctx} (h : ∀ c, (f c).id = c.id) (id : Nat) (cs : List Ctx) : (modify id f cs).map (·.id) = cs.map (·.id) := by
  unfold modify
  rw [List.map_map]
  apply List.map_congr_left
  intro c _
  simp only [Function.comp]
  split
  · exact h c
  · rfl

theorem setPub_alike (cfg : Cfg) (ok : Takes) (on : Bool) (c : Ctx) (st : St) : Alike st.ctxs (setPub cfg ok on c st).ctxs := by
  unfold setPub
  split
  · exact Alike.rfl' _
  · refine Alike.map (fun x => ?_) st.ctxs
    split
    · exact ⟨rfl, rfl, rfl, rfl⟩
    · split
      · have := setSub_pub ok (if on = true then Out.start else .eof) (if on = true then startNotes cfg else stopNotes cfg) on x
        exact ⟨this.hId, this.hPub, this.hPri, this.hSess⟩
      · exact ⟨rfl, rfl, rfl, rfl⟩

/-- Sessions are different. -/
def Distinct (st : St) : Prop := (st.ctxs.map (·.id)).Nodup

theorem distinct_unique {l : List Ctx} (h : (l.map (·.id)).Nodup) {x y} (hx : x ∈ l) (hy : y ∈ l) (e : x.id = y.id) : x = y := by
  induction l with
  | nil => exact absurd hx (by simp)
  | cons c cs ih =>
    simp only [List.map_cons, List.nodup_cons] at h
    rcases List.mem_cons.1 hx with rfl | hx' <;> rcases List.mem_cons.1 hy with rfl | hy'
    · rfl
    · exact absurd (List.mem_map.2 ⟨y, hy', e.symm⟩) h.1
    · exact absurd (List.mem_map_of_mem (f := (·.id)) hx') (by rw [e]; exact h.1)
    · exact ih h.2 hx' hy'

section kept
variable {cfg : Cfg} {Q : Op → Prop} {P : List Msg → Ctx → Prop} (k : Kept cfg Q P) {L : List Msg}
include k

theorem Kept.flags {c c'} (h : P L c) (ho : c'.out = c.out) (hi : c'.id = c.id) (hp : c'.publishing = c.publishing) (hc : ∀ b, getCs c' b = getCs c b) : P L c' :=
  k.hNotice L c c' h ⟨[], by simp [ho]⟩ hi hp (fun b => Or.inl (hc b))

theorem Kept.setSub {ok ctrl notes on c} (h1 : Notice ctrl) (h2 : ∀ o ∈ notes, Notice o) (h : P L c) : P L (setSub ok ctrl notes on c) := by
  obtain ⟨g, hc⟩ := setSub_spec ok ctrl notes on c h1 h2
  exact k.hNotice L c _ h g.hOut g.hSame.hId g.hSame.hPub hc

theorem Kept.setPub {ok on c st} (h : ∀ x ∈ st.ctxs, P L x) : ∀ x ∈ (setPub cfg ok on c st).ctxs, P L x := by
  unfold Live.setPub
  split
  · exact h
  · intro x hx
    obtain ⟨y, hy, e⟩ := List.mem_map.1 hx
    rw [← e]
    split
    · exact k.flags (h y hy) rfl rfl rfl (fun b => by cases b <;> rfl)
    · split
      · refine k.setSub ?_ ?_ (h y hy)
        · split
          · exact Or.inl rfl
          · exact Or.inr (Or.inl rfl)
        · split
          · exact startNotes_notice cfg
          · exact stopNotes_notice cfg
      · exact h y hy

omit k in
theorem kept_modify {id f} {st : St} (h : ∀ x ∈ st.ctxs, P L x) (hf : ∀ x, P L x → P L (f x)) : ∀ x ∈ modify id f st.ctxs, P L x := by
  intro x hx
  obtain ⟨y, hy, ⟨_, e⟩ | ⟨_, e⟩⟩ := mem_modify hx
  · rw [e]; exact hf y (h y hy)
  · rw [e]; exact h y hy

theorem Kept.step {st op} (hd : Distinct st) (hq : Q op) (h : ∀ c ∈ st.ctxs, P L c) : ∀ c ∈ (step cfg st op).ctxs, P (L ++ msgOf op) c := by
  cases op with
  | publish id pri =>
    simp only [Live.step, msgOf, List.append_nil]
    unfold publish
    split
    · exact kept_modify h (fun x hx => k.flags hx rfl rfl rfl (fun b => by cases b <;> rfl))
    · split
      · exact h
      · intro c hc
        simp only [List.mem_cons] at hc
        rcases hc with rfl | hc
        · exact k.hNew L _ rfl rfl rfl
        · exact h c hc
  | play ok id silent =>
    simp only [Live.step, msgOf, List.append_nil]
    unfold play
    split
    · exact kept_modify h (fun x hx => k.flags hx rfl rfl rfl (fun b => by cases b <;> rfl))
    · dsimp only
      intro c hc
      simp only [List.mem_cons] at hc
      rcases hc with rfl | hc
      · obtain ⟨c0, hc0⟩ : ∃ c0 : Ctx, c0 = { id := id, publishing := false, sessPub := false } := ⟨_, rfl⟩
        rw [← hc0]
        have p0 : P L c0 := k.hNew L _ (by rw [hc0]) (by rw [hc0]) (by rw [hc0])
        obtain ⟨c1, hc1⟩ : ∃ c1, c1 = if st.active = true then Live.setSub ok .start (startNotes cfg) true c0 else c0 := ⟨_, rfl⟩
        rw [← hc1]
        have p1 : P L c1 := by
          rw [hc1]; split
          · exact k.setSub (Or.inl rfl) (startNotes_notice cfg) p0
          · exact p0
        have p2 : P L { c1 with silent := silent } := k.flags p1 rfl rfl rfl (fun b => by cases b <;> rfl)
        split
        · have n1 : ∀ n, Notice (.note n) := fun n => Or.inr (Or.inr ⟨n, rfl⟩)
          have g1 := send_grown (K := Notice) ok { c1 with silent := silent } (.note 1) (n1 1)
          have g2 := send_grown (K := Notice) ok (send ok { c1 with silent := silent } (.note 1)).1 (.note 2) (n1 2)
          have g := g1.trans g2
          exact k.hNotice L _ _ p2 g.hOut g.hSame.hId g.hSame.hPub (fun b => Or.inl ((send_cs ok _ _ b).trans (send_cs ok _ _ b)))
        · exact p2
      · exact h c hc
  | close ok id =>
    simp only [Live.step, msgOf, List.append_nil]
    unfold close
    split
    · exact h
    · rename_i c0 hf
      dsimp only
      have h2 : ∀ x ∈ (st.ctxs.filter (fun x => x.id != id)), P L x := fun x hx => h x (List.mem_filter.1 hx).1
      split
      · refine k.setPub ?_
        split <;> exact h2
      · split <;> exact h2
  | pause ok id on =>
    simp only [Live.step, msgOf, List.append_nil]
    unfold pause
    split
    · exact h
    · have h1 : ∀ x ∈ Live.modify id (fun c => { c with paused := on }) st.ctxs, P L x :=
        kept_modify h (fun x hx => k.flags hx rfl rfl rfl (fun b => by cases b <;> rfl))
      unfold setStatus
      split
      · exact k.setPub h1
      · refine kept_modify (st := { st with ctxs := Live.modify id (fun c => { c with paused := on }) st.ctxs }) h1 (fun x hx => k.setSub ?_ ?_ hx)
        · split
          · exact Or.inl rfl
          · exact Or.inr (Or.inl rfl)
        · split
          · exact startNotes_notice cfg
          · exact stopNotes_notice cfg
  | hold id on =>
    simp only [Live.step, msgOf, List.append_nil]
    unfold hold
    refine kept_modify h (fun x hx => ?_)
    split
    · exact k.flags hx rfl rfl rfl (fun b => by cases b <;> rfl)
    · split
      · exact k.flags hx rfl rfl rfl (fun b => by cases b <;> rfl)
      · exact hx
  | av ok id codec m =>
    simp only [Live.step, msgOf]
    have hm : ∀ c, P L c → P (L ++ [m]) c := fun c hc => k.hMono L m c hc
    unfold av
    split
    · exact fun c hc => hm c (h c hc)
    · rename_i p0 hf
      split
      · exact fun c hc => hm c (h c hc)
      · have h0 : ∀ x ∈ Live.modify id (fun c => { c with hold := 0 }) st.ctxs, P L x :=
          kept_modify h (fun x hx => k.flags hx rfl rfl rfl (fun b => by cases b <;> rfl))
        dsimp only
        split
        · exact fun c hc => hm c (h0 c hc)
        · rename_i hft
          split
          · exact fun c hc => hm c (h0 c hc)
          · rename_i hpub
            obtain ⟨cs0, hcs0⟩ : ∃ cs0, cs0 = Live.modify id (fun c => { c with hold := 0 }) st.ctxs := ⟨_, rfl⟩
            rw [← hcs0] at h0 ⊢
            obtain ⟨st1, hst1⟩ : ∃ st1, st1 = if st.active = false then Live.setPub cfg ok true p0 { st with ctxs := cs0 } else { st with ctxs := cs0 } := ⟨_, rfl⟩
            rw [← hst1]
            have h1 : ∀ x ∈ st1.ctxs, P L x := by
              rw [hst1]; split
              · exact k.setPub (st := { st with ctxs := cs0 }) h0
              · exact h0
            have al0 : Alike st.ctxs cs0 := by rw [hcs0]; exact modify_alike (fun c => by exact ⟨rfl, rfl, rfl, rfl⟩) id st.ctxs
            have al1 : Alike st.ctxs st1.ctxs := by
              rw [hst1]; split
              · exact al0.trans (setPub_alike cfg ok true p0 { st with ctxs := cs0 })
              · exact al0
            have hp0 : p0.publishing = true := by cases hp : p0.publishing <;> simp_all
            have hisp : ∀ x ∈ st1.ctxs, x.id = id → x.publishing = true := by
              intro x hx hi
              obtain ⟨y, hy, e1, e2, _, _⟩ := al1.mem hx
              have := distinct_unique hd hy (find_mem hf).1 (by rw [e1, hi, (find_mem hf).2])
              rw [← e2, this, hp0]
            have h2 : ∀ x ∈ Live.modify id (fun c => setCs c (castOf cfg codec p0 m).audio { getCs c (castOf cfg codec p0 m).audio with active := true, ts := m.ts }) st1.ctxs, P L x := by
              intro x hx
              obtain ⟨y, hy, ⟨hi, e⟩ | ⟨_, e⟩⟩ := mem_modify hx
              · rw [e]; exact k.hPub L y _ _ (h1 y hy) (hisp y hy hi)
              · rw [e]; exact h1 y hy
            split
            · intro x hx
              obtain ⟨y, hy, e⟩ := List.mem_map.1 hx
              rw [← e]
              by_cases hc : y.publishing = true ∨ y.paused = true
              · have e : deliver cfg ok (castOf cfg codec p0 m) y = y := if_pos hc
                rw [e]
                exact hm y (h2 y hy)
              · refine k.hDeliver L ok id codec m p0 y hq (find_mem hf).2 ?_ (h2 y hy) ?_ ?_
                · intro hv
                  by_cases h1 : m.ftype = 1
                  · exact Or.inl h1
                  · by_cases h2 : m.ftype = 2
                    · exact Or.inr h2
                    · exact absurd ⟨hv, h1, h2⟩ hft
                · cases hp : y.publishing <;> simp_all
                · cases hp : y.paused <;> simp_all
            · exact fun c hc => hm c (h2 c hc)
end kept

theorem deliver_same (cfg : Cfg) (ok : Takes) (x : Cast) (c : Ctx) : Same c (deliver cfg ok x c) := by
  have hs : ∀ (c : Ctx) o, Same c (send ok c o).1 := by
    intro c o; unfold send; split <;> exact ⟨rfl, rfl, rfl, rfl, rfl, rfl⟩
  have hav : ∀ c, Same c (sendAv ok x c) := by
    intro c
    have h := hs c (.av x.m)
    unfold sendAv
    split
    · rename_i c1 e; rw [e] at h; exact h.trans (setCs_same _ _ _)
    · rename_i c1 e
      rw [e] at h
      have h2 := h.trans (setCs_same c1 x.audio { getCs c1 x.audio with dropped := ((getCs c1 x.audio).dropped + x.delta) % 2 ^ 32 })
      dsimp only
      split <;> exact h2.trans ⟨rfl, rfl, rfl, rfl, rfl, rfl⟩
  have hh : ∀ c, Same c (sendHeaders cfg ok x c).1 := by
    intro c
    unfold sendHeaders
    split
    · exact Same.rfl' c
    · have h1 : Same c (sendOwn ok x c).1 := by
        unfold sendOwn; split
        · exact hs c _
        · exact Same.rfl' c
      split
      · rename_i c1 e; rw [e] at h1; exact h1
      · rename_i c1 e
        rw [e] at h1
        have h2 : Same c1 (sendCo cfg ok x (!c.a.active) c1).1 := by
          unfold sendCo; split
          · exact hs c1 _
          · split
            · exact hs c1 _
            · exact Same.rfl' c1
        split
        · rename_i c2 e2; rw [e2] at h2; exact h1.trans h2
        · rename_i c2 e2; rw [e2] at h2; exact (h1.trans h2).trans (setCs_same _ _ _)
  have hd : ∀ c, Same c (sendData ok x c) := by
    intro c
    unfold sendData
    split
    · rename_i n _
      split
      · have h := hs c (.data n)
        split
        · rename_i c1 e; rw [e] at h; exact h.trans ⟨rfl, rfl, rfl, rfl, rfl, rfl⟩
        · rename_i c1 e; rw [e] at h; exact h
      · exact Same.rfl' c
    · exact Same.rfl' c
  have hr : ∀ c, Same c (resync cfg x c) := by
    intro c; unfold resync; split
    · exact setCs_same _ _ _
    · exact Same.rfl' c
  unfold deliver
  split
  · exact Same.rfl' c
  · have h1 := (hd c).trans (hr _)
    dsimp only
    split
    · exact h1.trans (hav _)
    · split
      · exact h1
      · have h2 := hh (resync cfg x (sendData ok x c))
        split
        · rename_i c1 e; rw [e] at h2; exact h1.trans h2
        · rename_i c1 e; rw [e] at h2; exact (h1.trans h2).trans (hav _)

theorem setPub_alike' {cfg ok on c} {st : St} {a} (h : Alike a st.ctxs) : Alike a (setPub cfg ok on c st).ctxs := h.trans (setPub_alike cfg ok on c st)

theorem distinct_step {cfg st op} (h : Distinct st) : Distinct (step cfg st op) := by
  have fresh : ∀ {id : Nat} {c : Ctx}, find? st id = none → c.id = id → Distinct { st with ctxs := c :: st.ctxs } := by
    intro id c hf hc
    unfold Distinct
    simp only [List.map_cons, List.nodup_cons]
    refine ⟨?_, h⟩
    intro hm
    obtain ⟨x, hx, e⟩ := List.mem_map.1 hm
    unfold find? at hf
    have := List.find?_eq_none.1 hf x hx
    simp only [beq_iff_eq] at this
    exact this (e.trans hc)
  have ids : ∀ {st' : St}, st'.ctxs.map (·.id) = st.ctxs.map (·.id) → Distinct st' := by
    intro st' e
    unfold Distinct
    rw [e]; exact h
  have al : ∀ {st' : St}, Alike st.ctxs st'.ctxs → Distinct st' := by
    intro st' ha
    unfold Distinct
    rw [ha.ids]; exact h
  cases op with
  | publish id pri =>
    simp only [step]; unfold publish
    split
    · exact ids (modify_ids (fun c => by exact rfl) _ _)
    · rename_i hf
      split
      · exact h
      · exact fresh hf rfl
  | play ok id silent =>
    simp only [step]; unfold play
    split
    · exact ids (modify_ids (fun c => by exact rfl) _ _)
    · rename_i hf
      dsimp only
      refine fresh hf ?_
      have hs : ∀ (c : Ctx) o, (send ok c o).1.id = c.id := by
        intro c o; unfold send; split <;> rfl
      have h1 : (if st.active = true then setSub ok .start (startNotes cfg) true { id := id, publishing := false, sessPub := false } else { id := id, publishing := false, sessPub := false }).id = id := by
        split
        · exact setSub_id _ _ _ _ _
        · rfl
      split
      · rw [hs, hs]; exact h1
      · exact h1
  | close ok id =>
    simp only [step]; unfold close
    split
    · exact h
    · rename_i c hf
      dsimp only
      have h2 : ((st.ctxs.filter (fun x => x.id != id)).map (·.id)).Nodup := by
        exact List.Nodup.sublist (List.Sublist.map _ List.filter_sublist) h
      split
      · unfold Distinct
        rw [(setPub_alike _ _ _ _ _).ids]
        split <;> exact h2
      · split <;> exact h2
  | pause ok id on =>
    simp only [step]; unfold pause
    split
    · exact h
    · have a1 : Alike st.ctxs (modify id (fun c => { c with paused := on }) st.ctxs) := modify_alike (fun c => by exact ⟨rfl, rfl, rfl, rfl⟩) _ _
      unfold setStatus
      split
      · exact al (setPub_alike' a1)
      · refine al (a1.trans (modify_alike (fun c => ?_) _ _))
        have := setSub_pub ok (if (!on) = true then Out.start else .eof) (if (!on) = true then startNotes cfg else stopNotes cfg) (!on) c
        exact ⟨this.hId, this.hPub, this.hPri, this.hSess⟩
  | hold id on =>
    simp only [step]; unfold hold
    refine al (modify_alike (fun c => ?_) _ _)
    split
    · exact ⟨rfl, rfl, rfl, rfl⟩
    · split <;> exact ⟨rfl, rfl, rfl, rfl⟩
  | av ok id codec m =>
    simp only [step]; unfold av
    split
    · exact h
    · rename_i p0 hf
      split
      · exact h
      · have a0 : Alike st.ctxs (modify id (fun c => { c with hold := 0 }) st.ctxs) := modify_alike (fun c => by exact ⟨rfl, rfl, rfl, rfl⟩) _ _
        dsimp only
        split
        · exact al a0
        · split
          · exact al a0
          · have hx : ∀ st1 : St, Alike st.ctxs st1.ctxs → Distinct (let x := castOf cfg codec p0 m
                let st2 := { st1 with ctxs := modify id (fun c => setCs c x.audio { getCs c x.audio with active := true, ts := m.ts }) st1.ctxs }
                if (top st2.pubs).map (·.2) = some id then { st2 with ctxs := st2.ctxs.map (deliver cfg ok x) } else st2) := by
              intro st1 a1
              have a2 := a1.trans (modify_alike (f := fun c => setCs c (castOf cfg codec p0 m).audio { getCs c (castOf cfg codec p0 m).audio with active := true, ts := m.ts })
                (fun c => ⟨(setCs_same _ _ _).hId, (setCs_same _ _ _).hPub, (setCs_same _ _ _).hPri, (setCs_same _ _ _).hSess⟩) id st1.ctxs)
              dsimp only
              split
              · exact al (a2.trans (Alike.map (fun c => ⟨(deliver_same _ _ _ _).hId, (deliver_same _ _ _ _).hPub, (deliver_same _ _ _ _).hPri, (deliver_same _ _ _ _).hSess⟩) _))
              · exact al a2
            refine hx _ ?_
            split
            · exact setPub_alike' a0
            · exact a0

/-- The property holds of all sessions after all operations. -/
theorem Kept.run {cfg Q P} (k : Kept cfg Q P) : ∀ ops st L, Distinct st → (∀ op ∈ ops, Q op) → (∀ c ∈ st.ctxs, P L c) →
    ∀ c ∈ (run cfg st ops).ctxs, P (L ++ published ops) c := by
  intro ops
  induction ops with
  | nil => intro st L _ _ h; simpa [Live.run, published] using h
  | cons op ops ih =>
    intro st L hd hq h
    have h1 := ih (Live.step cfg st op) (L ++ msgOf op) (distinct_step hd) (fun o ho => hq o (List.mem_cons_of_mem _ ho)) (k.step hd (hq op List.mem_cons_self) h)
    have e : L ++ msgOf op ++ published ops = L ++ published (op :: ops) := by simp [published]
    rw [e] at h1
    exact h1

theorem distinct_run {cfg} : ∀ ops st, Distinct st → Distinct (run cfg st ops) := by
  intro ops
  induction ops with
  | nil => intro st h; exact h
  | cons op ops ih => intro st h; exact ih _ (distinct_step h)

end Verif.Live
