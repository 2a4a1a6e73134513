import Verif.Live.FanTop
/- A subscriber that takes everything. -/
namespace Verif.Live

/-- Headers do not change what was missed. -/
theorem sendHeaders_dropped (cfg : Cfg) (ok : Takes) (x : Cast) (c : Ctx) : (getCs (sendHeaders cfg ok x c).1 x.audio).dropped = (getCs c x.audio).dropped := by
  unfold sendHeaders
  split
  · rfl
  · have h1 : ∀ b, getCs (sendOwn ok x c).1 b = getCs c b := by
      intro b; unfold sendOwn; split
      · exact send_cs _ _ _ _
      · rfl
    split
    · rename_i c1 e; rw [e] at h1; dsimp only at h1 ⊢; rw [h1]
    · rename_i c1 e
      rw [e] at h1
      dsimp only at h1
      have h2 : ∀ b, getCs (sendCo cfg ok x (!c.a.active) c1).1 b = getCs c1 b := by
        intro b; unfold sendCo; split
        · exact send_cs _ _ _ _
        · split
          · exact send_cs _ _ _ _
          · rfl
      split
      · rename_i c2 e2; rw [e2] at h2; dsimp only at h2 ⊢; rw [h2, h1]
      · rename_i c2 e2
        rw [e2] at h2
        dsimp only at h2 ⊢
        rw [getCs_setCs]
        dsimp only
        rw [h2, h1]

theorem goesOn_iff (cfg : Cfg) (x : Cs) : goesOn cfg x = true ↔ x.active = true ∧ (cfg.sync = 0 ∨ x.dropped ≤ cfg.sync) := by
  unfold goesOn; simp

/-- With everything accepted: exactly the message if the channel goes on or begins, else nothing. -/
theorem deliver_all (cfg : Cfg) (ok : Takes) (x : Cast) (c : Ctx) (h1 : c.publishing = false) (h2 : c.paused = false) (hok : ∀ o, ok c.id o = true)
    (hd : fresh cfg (getCs c x.audio)) (hh : x.header ≠ none) (hw : cfg.waitVideo = false) :
    (∀ b, b ≠ x.audio → getCs (deliver cfg ok x c) b = getCs c b) ∧ fresh cfg (getCs (deliver cfg ok x c) x.audio) ∧
    (if goesOn cfg (getCs c x.audio) = true ∨ skips cfg x c = false then avs (deliver cfg ok x c).out = avs c.out ++ [x.m] ∧ goesOn cfg (getCs (deliver cfg ok x c) x.audio) = true
     else avs (deliver cfg ok x c).out = avs c.out ∧ goesOn cfg (getCs (deliver cfg ok x c) x.audio) = goesOn cfg (getCs c x.audio)) := by
  have hc : ¬(c.publishing = true ∨ c.paused = true) := by simp [h1, h2]
  have hskip : ∀ c', skips cfg x c' = skips cfg x c := by
    intro c'; unfold skips; rw [hw]; rfl
  unfold deliver
  rw [if_neg hc]
  dsimp only
  obtain ⟨⟨ld, ed, nd⟩, kd, idd⟩ := sendData_spec ok x c
  obtain ⟨er, idr, _⟩ := resync_spec cfg x (sendData ok x c)
  -- after the check of what was missed: the channel is active just if it goes on, and little was missed
  have hres : (∀ b, b ≠ x.audio → getCs (resync cfg x (sendData ok x c)) b = getCs c b) ∧
      (getCs (resync cfg x (sendData ok x c)) x.audio).active = goesOn cfg (getCs c x.audio) ∧
      (cfg.sync = 0 ∨ (getCs (resync cfg x (sendData ok x c)) x.audio).dropped ≤ cfg.sync) := by
    unfold resync
    rw [kd]
    split
    · rename_i hcnd
      obtain ⟨a1, a2, a3⟩ := hcnd
      refine ⟨fun b hb => by rw [getCs_setCs_ne _ _ _ _ hb, kd], ?_, ?_⟩
      · rw [getCs_setCs]
        have : goesOn cfg (getCs c x.audio) = false := by
          rw [← Bool.not_eq_true, goesOn_iff]
          rintro ⟨_, h | h⟩
          · exact a2 h
          · omega
        rw [this]
      · right; rw [getCs_setCs]; exact Nat.zero_le _
    · rename_i hcnd
      refine ⟨fun b _ => kd b, ?_, ?_⟩
      · rw [kd]
        cases hact : (getCs c x.audio).active
        · unfold goesOn; rw [hact]; rfl
        · symm; rw [goesOn_iff]
          refine ⟨hact, ?_⟩
          by_cases hs : cfg.sync = 0
          · exact Or.inl hs
          · right
            by_cases hdr : (getCs c x.audio).dropped ≤ cfg.sync
            · exact hdr
            · exact absurd ⟨hact, hs, by omega⟩ hcnd
      · rw [kd]
        by_cases hs : cfg.sync = 0
        · exact Or.inl hs
        · right
          by_cases hdr : (getCs c x.audio).dropped ≤ cfg.sync
          · exact hdr
          · rcases hd with h | h | h
            · exact absurd ⟨h, hs, by omega⟩ hcnd
            · exact absurd h hs
            · exact h
  obtain ⟨c0, hc0⟩ : ∃ c0, c0 = resync cfg x (sendData ok x c) := ⟨_, rfl⟩
  rw [← hc0] at er idr hres ⊢
  obtain ⟨ko, ka, kdr⟩ := hres
  have eid : c0.id = c.id := idr.trans idd
  have hok0 : ∀ o, ok c0.id o = true := by rw [eid]; exact hok
  have av : ∀ c1 : Ctx, (∀ o, ok c1.id o = true) → (∀ b, b ≠ x.audio → getCs (sendAv ok x c1) b = getCs c1 b) ∧ (getCs (sendAv ok x c1) x.audio).dropped = (getCs c1 x.audio).dropped ∧
      avs (sendAv ok x c1).out = avs c1.out ++ [x.m] ∧ (getCs (sendAv ok x c1) x.audio).active = (getCs c1 x.audio).active := by
    intro c1 ho
    obtain ⟨sa, sb⟩ := sendAv_spec ok x c1
    rw [if_pos (ho _)] at sa
    have e1 : ∀ b, getCs { c1 with out := c1.out ++ [Out.av x.m] } b = getCs c1 b := by intro b; cases b <;> rfl
    refine ⟨fun b hb => ?_, ?_, by rw [sa, avs_append]; rfl, sb _⟩
    · unfold sendAv
      rw [send_yes (ho _)]
      dsimp only
      rw [getCs_setCs_ne _ _ _ _ hb, e1]
    · unfold sendAv
      rw [send_yes (ho _)]
      dsimp only
      rw [getCs_setCs]
      dsimp only
      rw [e1]
  have eavs : avs c0.out = avs c.out := by rw [er, ed, avs_append, avs_nil_of nd, List.append_nil]
  by_cases ha : goesOn cfg (getCs c x.audio) = true
  · rw [if_pos (Or.inl ha), if_pos (by rw [ka]; exact ha)]
    obtain ⟨s1, s2, s3, s4⟩ := av c0 hok0
    have hon : goesOn cfg (getCs (sendAv ok x c0) x.audio) = true := by
      rw [goesOn_iff, s4, s2, ka]; exact ⟨ha, kdr⟩
    exact ⟨fun b hb => by rw [s1 b hb, ko b hb], Or.inl ((goesOn_iff _ _).1 hon).1, by rw [s3, eavs], hon⟩
  · rw [if_neg (by rw [ka]; exact ha), hskip]
    by_cases hs : skips cfg x c = true
    · rw [if_pos hs, if_neg (by simp [ha, hs])]
      refine ⟨ko, Or.inr kdr, eavs, ?_⟩
      have h3 : goesOn cfg (getCs c x.audio) = false := by simpa using ha
      unfold goesOn
      rw [ka]
      rw [h3]
      unfold goesOn at h3
      rw [h3]
      rfl
    · rw [if_neg hs, if_pos (Or.inr (by simpa using hs))]
      obtain ⟨lh, eh, nh, ih, kh, _, _, ah, rh⟩ := sendHeaders_spec cfg ok x c0
      have dh := sendHeaders_dropped cfg ok x c0
      have hr := rh hok0
      split
      · rename_i c2 e2; rw [e2] at hr; cases hr
      · rename_i c2 e2
        rw [e2] at eh ih kh ah dh
        dsimp only at eh ih kh ah dh
        obtain ⟨s1, s2, s3, s4⟩ := av c2 (by rw [ih]; exact hok0)
        have hon : goesOn cfg (getCs (sendAv ok x c2) x.audio) = true := by
          rw [goesOn_iff, s4, s2, dh]; exact ⟨ah rfl hh, kdr⟩
        refine ⟨fun b hb => by rw [s1 b hb, kh b hb, ko b hb], Or.inl ((goesOn_iff _ _).1 hon).1, ?_, hon⟩
        rw [s3, eh, avs_append, avs_nil_of nh, List.append_nil, eavs]

/-- The stream while publisher `pid` sends. -/
structure Sending (role : Nat → Bool) (pid : Nat) (st : St) : Prop where
  hDist : Distinct st
  hRoles : Roles role st
  hPub : ∃ p, find? st pid = some p ∧ p.publishing = true ∧ p.hold = 0 ∧ (st.active = true ∨ p.active = true) ∧ ∀ q ∈ st.ctxs, q.publishing = true → q.pri ≤ p.pri

theorem find_of_mem {st : St} (hd : Distinct st) {c} (hc : c ∈ st.ctxs) : find? st c.id = some c := by
  unfold find?
  cases h : st.ctxs.find? (fun x => x.id == c.id) with
  | none => exact absurd (List.find?_eq_none.1 h c hc) (by simp)
  | some y =>
    have h1 := List.mem_of_find?_eq_some h
    have h2 := List.find?_some h
    simp only [beq_iff_eq] at h2
    rw [distinct_unique hd h1 hc h2]

/-- One message of the highest publisher: each subscriber gets it as `deliver` says. -/
theorem sending_step {cfg role pid st} (h : Sending role pid st) (ok : Takes) (codec : Option Codec) (m : Msg) (hm : validFrame m) :
    Sending role pid (step cfg st (.av ok pid codec m)) ∧
    ∃ p, find? st pid = some p ∧ ∀ c ∈ st.ctxs, c.publishing = false → deliver cfg ok (castOf cfg codec p m) c ∈ (step cfg st (.av ok pid codec m)).ctxs := by
  obtain ⟨p, hf, hpub, hhold, hact, htop⟩ := h.hPub
  obtain ⟨hp, hid⟩ := find_mem hf
  have hav : step cfg st (.av ok pid codec m) =
      { st with
        ctxs := (modify pid (fun c => setCs c (castOf cfg codec p m).audio { getCs c (castOf cfg codec p m).audio with active := true, ts := m.ts }) (modify pid (fun c => { c with hold := 0 }) st.ctxs)).map (deliver cfg ok (castOf cfg codec p m)) } := by
    simp only [step]
    unfold av
    rw [hf]
    dsimp only
    have n1 : ¬(p.hold = 1 ∨ p.hold = 2 ∧ resumes codec m = false) := by rw [hhold]; simp
    rw [if_neg n1]
    have n2 : ¬(m.video = true ∧ m.ftype ≠ 1 ∧ m.ftype ≠ 2) := by
      rintro ⟨h1, h2, h3⟩
      rcases hm h1 with e | e
      · exact h2 e
      · exact h3 e
    rw [if_neg n2]
    have n3 : ¬(p.publishing = false) := by rw [hpub]; simp
    rw [if_neg n3]
    have e1 : (if st.active = false then setPub cfg ok true p { st with ctxs := modify pid (fun c => { c with hold := 0 }) st.ctxs } else { st with ctxs := modify pid (fun c => { c with hold := 0 }) st.ctxs }) = { st with ctxs := modify pid (fun c => { c with hold := 0 }) st.ctxs } := by
      rcases hact with ha | ha
      · rw [ha]; rfl
      · split
        · unfold setPub; rw [if_pos ha]
        · rfl
    rw [e1]
    have e2 : (top st.pubs).map (·.2) = some pid := by
      rw [← hid]; exact (top_highest h.hDist h.hRoles hp hpub).2 htop
    rw [if_pos e2]
  have al := av_alike cfg ok pid codec m st
  have hd' : Distinct (step cfg st (.av ok pid codec m)) := distinct_step h.hDist
  refine ⟨⟨hd', h.hRoles.alike al.1 al.2, ?_⟩, p, hf, ?_⟩
  · -- the publisher afterwards
    obtain ⟨p', hp'⟩ : ∃ p', p' = deliver cfg ok (castOf cfg codec p m) (setCs { p with hold := 0 } (castOf cfg codec p m).audio { getCs { p with hold := 0 } (castOf cfg codec p m).audio with active := true, ts := m.ts }) := ⟨_, rfl⟩
    have hm' : p' ∈ (step cfg st (.av ok pid codec m)).ctxs := by
      rw [hav, hp']
      refine List.mem_map_of_mem ?_
      unfold modify
      rw [List.map_map]
      refine List.mem_map.2 ⟨p, hp, ?_⟩
      simp only [Function.comp, hid, if_true]
    have hs : Same { p with hold := 0 } p' := by rw [hp']; exact (setCs_same _ _ _).trans (deliver_same _ _ _ _)
    have hpa : p'.active = p.active := by
      rw [hp']
      have : deliver cfg ok (castOf cfg codec p m) (setCs { p with hold := 0 } (castOf cfg codec p m).audio { getCs { p with hold := 0 } (castOf cfg codec p m).audio with active := true, ts := m.ts }) = setCs { p with hold := 0 } (castOf cfg codec p m).audio { getCs { p with hold := 0 } (castOf cfg codec p m).audio with active := true, ts := m.ts } := by
        refine if_pos (Or.inl ?_)
        rw [(setCs_same _ _ _).hPub]; exact hpub
      rw [this]
      unfold setCs; split <;> rfl
    have hpid : p'.id = pid := hs.hId.trans hid
    refine ⟨p', by have := find_of_mem hd' hm'; rw [hpid] at this; exact this, hs.hPub.trans hpub, hs.hHold, ?_, ?_⟩
    · rw [hpa, hav]
      rcases hact with ha | ha
      · exact Or.inl ha
      · exact Or.inr ha
    · intro q hq hqp
      obtain ⟨y, hy, _, y2, y3, _⟩ := al.1.mem hq
      rw [← y3, hs.hPri]
      exact htop y hy (y2.trans hqp)
  · intro c hc hcp
    rw [hav]
    refine List.mem_map_of_mem ?_
    have hne : c.id ≠ pid := by
      intro e
      have := distinct_unique h.hDist hc hp (e.trans hid.symm)
      rw [this, hpub] at hcp; cases hcp
    unfold modify
    rw [List.map_map]
    refine List.mem_map.2 ⟨c, hc, ?_⟩
    simp only [Function.comp, if_neg hne]

theorem due_cons (w vOn aOn k m ms) : due w vOn aOn ((k, m) :: ms) = (if m.video = true then
      if vOn = true ∨ (isHeader k m = false ∧ (w = true → m.ftype = 1)) then m :: due w true aOn ms else due w vOn aOn ms
    else
      if aOn = true ∨ isHeader k m = false then m :: due w vOn true ms else due w vOn aOn ms) := rfl

/-- Whether an inactive channel begins with a message. -/
theorem skips_eq {cfg k p m} (h1 : cfg.interleave = false) (h2 : cfg.waitVideo = false) (c : Ctx) :
    skips cfg (castOf cfg (some k) p m) c = false ↔ isHeader k m = false ∧ (m.video = true → cfg.waitKey = true → m.ftype = 1) := by
  have e : skips cfg (castOf cfg (some k) p m) c = (isHeader k m || (cfg.waitKey && decide ((if m.video = true ∧ isHeader k m = false then m.ftype else 0) ≠ 1) && m.video)) := by
    unfold skips
    rw [h1, h2]
    unfold castOf isHeader
    simp
  rw [e]
  cases hh : isHeader k m <;> cases hv : m.video <;> cases hw : cfg.waitKey <;> simp

theorem follow_run {cfg role pid} (h1 : cfg.interleave = false) (h2 : cfg.waitVideo = false) :
    ∀ (ms : List (Takes × Codec × Msg)) (st : St) (c : Ctx), Sending role pid st → follows cfg st c →
      (∀ t ∈ ms, validFrame t.2.2 ∧ t.2.1.avc ≠ none ∧ t.2.1.aac ≠ none ∧ ∀ o, t.1 c.id o = true) →
      ∃ c' ∈ (run cfg st (ms.map fun t => .av t.1 pid (some t.2.1) t.2.2)).ctxs, c'.id = c.id ∧ c'.publishing = false ∧
        avs c'.out = avs c.out ++ due cfg.waitKey (goesOn cfg c.v) (goesOn cfg c.a) (ms.map (·.2)) := by
  intro ms
  induction ms with
  | nil =>
    intro st c _ hc _
    exact ⟨c, hc.1, rfl, hc.2.1, by simp [due]⟩
  | cons t ms ih =>
    intro st c hs hc ht
    obtain ⟨ok, k, m⟩ := t
    obtain ⟨hv, hk1, hk2, hok⟩ := ht _ List.mem_cons_self
    dsimp only at hv hk1 hk2 hok
    obtain ⟨hs', p, hf, hdel⟩ := sending_step (cfg := cfg) hs ok (some k) m hv
    obtain ⟨c1, hc1⟩ : ∃ c1, c1 = deliver cfg ok (castOf cfg (some k) p m) c := ⟨_, rfl⟩
    have hm1 := hdel c hc.1 hc.2.1
    rw [← hc1] at hm1
    have hxh : (castOf cfg (some k) p m).header ≠ none := by
      show (if m.video = true then k.avc else k.aac) ≠ none
      split
      · exact hk1
      · exact hk2
    have ha : (castOf cfg (some k) p m).audio = !m.video := by
      show (!(cfg.interleave || m.video)) = !m.video
      rw [h1]; rfl
    have hfr : fresh cfg (getCs c (castOf cfg (some k) p m).audio) := by
      cases (castOf cfg (some k) p m).audio
      · exact hc.2.2.2.1
      · exact hc.2.2.2.2
    obtain ⟨so, sf, sx⟩ := deliver_all cfg ok (castOf cfg (some k) p m) c hc.2.1 hc.2.2.1 hok hfr hxh h2
    have sd := deliver_same cfg ok (castOf cfg (some k) p m) c
    rw [← hc1] at sd so sx sf
    have hxm : (castOf cfg (some k) p m).m = m := rfl
    have hsk := skips_eq (cfg := cfg) (k := k) (p := p) (m := m) h1 h2 c
    rw [ha] at so sf
    rw [ha, hxm] at sx
    have hc' : follows cfg (step cfg st (.av ok pid (some k) m)) c1 := by
      refine ⟨hm1, sd.hPub.trans hc.2.1, sd.hPaused.trans hc.2.2.1, ?_⟩
      cases hvv : m.video <;> rw [hvv] at so sf
      · have := so false (by simp)
        exact ⟨by show fresh cfg (getCs c1 false); rw [this]; exact hc.2.2.2.1, sf⟩
      · have := so true (by simp)
        exact ⟨sf, by show fresh cfg (getCs c1 true); rw [this]; exact hc.2.2.2.2⟩
    have hid : c1.id = c.id := sd.hId
    obtain ⟨c', hm', e1, e2, e3⟩ := ih _ c1 hs' hc' (fun t' h' => by rw [hid]; exact ht t' (List.mem_cons_of_mem _ h'))
    refine ⟨c', hm', e1.trans hid, e2, ?_⟩
    rw [e3]
    simp only [List.map_cons]
    cases hvv : m.video
    · -- audio
      rw [hvv] at sx so hsk
      have o1 : c1.v = c.v := so false (by simp)
      have g1 : ∀ c : Ctx, getCs c (!false) = c.a := fun _ => rfl
      rw [g1, g1] at sx
      rw [due_cons]
      rw [if_neg (by rw [hvv]; simp)]
      by_cases hd : goesOn cfg c.a = true ∨ isHeader k m = false
      · rw [if_pos hd]
        rw [if_pos (by rcases hd with h | h; exact Or.inl h; exact Or.inr (hsk.2 ⟨h, by simp⟩))] at sx
        rw [sx.1, o1, sx.2, List.append_assoc]; rfl
      · rw [if_neg hd]
        rw [if_neg (by intro h; rcases h with h | h; exact hd (Or.inl h); exact hd (Or.inr (hsk.1 h).1))] at sx
        rw [sx.1, o1, sx.2]
    · rw [hvv] at sx so hsk
      have o1 : c1.a = c.a := so true (by simp)
      have g1 : ∀ c : Ctx, getCs c (!true) = c.v := fun _ => rfl
      rw [g1, g1] at sx
      rw [due_cons]
      rw [if_pos hvv]
      by_cases hd : goesOn cfg c.v = true ∨ (isHeader k m = false ∧ (cfg.waitKey = true → m.ftype = 1))
      · rw [if_pos hd]
        rw [if_pos (by rcases hd with h | h; exact Or.inl h; exact Or.inr (hsk.2 ⟨h.1, fun _ => h.2⟩))] at sx
        rw [sx.1, o1, sx.2, List.append_assoc]; rfl
      · rw [if_neg hd]
        rw [if_neg (by intro h; rcases h with h | h; exact hd (Or.inl h); exact hd (Or.inr ⟨(hsk.1 h).1, (hsk.1 h).2 rfl⟩))] at sx
        rw [sx.1, o1, sx.2]

/-- A session from before with the same messages. -/
def Had (st : St) (c : Ctx) : Prop := ∃ c0 ∈ st.ctxs, c0.id = c.id ∧ avs c.out = avs c0.out

theorem had_modify {st : St} {id : Nat} (f : Ctx → Ctx) (l : List Ctx) (hf : ∀ c, (f c).id = c.id ∧ (f c).out = c.out) (hl : ∀ c ∈ l, Had st c) : ∀ c ∈ modify id f l, Had st c := by
  intro c hc
  obtain ⟨y, hy, ⟨_, e⟩ | ⟨_, e⟩⟩ := mem_modify hc
  · obtain ⟨c0, h0, h1, h2⟩ := hl y hy
    exact ⟨c0, h0, by rw [e, (hf y).1]; exact h1, by rw [e, (hf y).2]; exact h2⟩
  · rw [e]; exact hl y hy

theorem had_setPub {st st0 : St} {cfg ok p} (h0 : ∀ c ∈ st0.ctxs, Had st c) : ∀ c ∈ (setPub cfg ok true p st0).ctxs, Had st c := by
  intro c hc
  unfold setPub at hc
  split at hc
  · exact h0 c hc
  · obtain ⟨y, hy, e⟩ := List.mem_map.1 hc
    obtain ⟨c0, k0, k1, k2⟩ := h0 y hy
    rw [← e]
    split
    · exact ⟨c0, k0, k1, k2⟩
    · split
      · obtain ⟨g, _⟩ := setSub_spec ok .start (startNotes cfg) true y (Or.inl rfl) (startNotes_notice cfg)
        obtain ⟨l, el, hl⟩ := g.hOut
        refine ⟨c0, k0, ?_, ?_⟩
        · rw [k1]; exact g.hSame.hId.symm
        · show avs (setSub ok .start (startNotes cfg) true y).out = _
          rw [el, avs_append, avs_nil_of (fun o ho => (hl o ho).noAv), List.append_nil, k2]
      · exact ⟨c0, k0, k1, k2⟩

/-- What a message of session `id` gives to the others: nothing unless it publishes and is the last of the map, and then nothing to those that are paused. -/
theorem av_had {cfg ok id codec m} {st : St} : ∀ c ∈ (av cfg ok id codec m st).ctxs,
    Had st c ∨ ((∃ p, find? st id = some p ∧ p.publishing = true) ∧ (top st.pubs).map (·.2) = some id ∧ c.publishing = false ∧ c.paused = false) := by
  have id0 : ∀ c ∈ st.ctxs, Had st c := fun c hc => ⟨c, hc, rfl, rfl⟩
  unfold av
  split
  · exact fun c hc => Or.inl (id0 c hc)
  · rename_i p hf
    split
    · exact fun c hc => Or.inl (id0 c hc)
    · have h0 := had_modify (id := id) (fun c => { c with hold := 0 }) st.ctxs (fun c => ⟨rfl, rfl⟩) id0
      dsimp only
      split
      · exact fun c hc => Or.inl (h0 c hc)
      · split
        · exact fun c hc => Or.inl (h0 c hc)
        · rename_i hpub
          obtain ⟨cs0, hcs0⟩ : ∃ cs0, cs0 = modify id (fun c => { c with hold := 0 }) st.ctxs := ⟨_, rfl⟩
          rw [← hcs0] at h0 ⊢
          obtain ⟨st1, hst1⟩ : ∃ st1, st1 = if st.active = false then setPub cfg ok true p { st with ctxs := cs0 } else { st with ctxs := cs0 } := ⟨_, rfl⟩
          rw [← hst1]
          have hpubs : st1.pubs = st.pubs := by
            rw [hst1]; split
            · exact setPub_pubs _ _ _ _ _
            · rfl
          have h1 : ∀ c ∈ st1.ctxs, Had st c := by
            rw [hst1]; split
            · exact had_setPub (st0 := { st with ctxs := cs0 }) h0
            · exact h0
          rw [hpubs]
          have h2 := had_modify (id := id) (fun c => setCs c (castOf cfg codec p m).audio { getCs c (castOf cfg codec p m).audio with active := true, ts := m.ts }) st1.ctxs (fun c => ⟨(setCs_same _ _ _).hId, setCs_out _ _ _⟩) h1
          split
          · rename_i ht
            intro c hc
            obtain ⟨y, hy, e⟩ := List.mem_map.1 hc
            by_cases hyp : y.publishing = true ∨ y.paused = true
            · have e2 : deliver cfg ok (castOf cfg codec p m) y = y := if_pos hyp
              rw [← e, e2]; exact Or.inl (h2 y hy)
            · right
              refine ⟨⟨p, hf, by simpa using hpub⟩, ht, ?_, ?_⟩
              · rw [← e, (deliver_same _ _ _ _).hPub]; cases h : y.publishing <;> simp_all
              · rw [← e, (deliver_same _ _ _ _).hPaused]; cases h : y.paused <;> simp_all
          · exact fun c hc => Or.inl (h2 c hc)

end Verif.Live
