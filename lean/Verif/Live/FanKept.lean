import Verif.Live.FanLemmas
/- What one message does to one subscriber, and properties kept by all operations. -/
namespace Verif.Live

/-- Anything but a message. -/
def NoAv (o : Out) : Prop := ∀ m, o ≠ .av m

theorem Notice.noAv {o} (h : Notice o) : NoAv o := by
  intro m e
  rcases h with h | h | ⟨n, h⟩ <;> rw [h] at e <;> cases e

theorem send_yes {ok : Takes} {c : Ctx} {o : Out} (h : ok c.id o = true) : send ok c o = ({ c with out := c.out ++ [o] }, true) := if_pos h

theorem send_no {ok : Takes} {c : Ctx} {o : Out} (h : ¬ ok c.id o = true) : send ok c o = (c, false) := if_neg h

theorem sendData_spec (ok : Takes) (x : Cast) (c : Ctx) :
    (∃ l, (sendData ok x c).out = c.out ++ l ∧ ∀ o ∈ l, NoAv o) ∧ (∀ b, getCs (sendData ok x c) b = getCs c b) ∧ (sendData ok x c).id = c.id := by
  unfold sendData
  split
  · rename_i n _
    split
    · skip
      by_cases ho : ok c.id (.data n) = true
      · rw [send_yes ho]
        exact ⟨⟨[.data n], rfl, by intro o h; simp at h; subst h; intro m e; cases e⟩, by intro b; cases b <;> rfl, rfl⟩
      · rw [send_no ho]
        exact ⟨⟨[], by simp⟩, fun b => rfl, rfl⟩
    · exact ⟨⟨[], by simp⟩, fun b => rfl, rfl⟩
  · exact ⟨⟨[], by simp⟩, fun b => rfl, rfl⟩

theorem resync_spec (cfg : Cfg) (x : Cast) (c : Ctx) : (resync cfg x c).out = c.out ∧ (resync cfg x c).id = c.id ∧
    (∀ b, getCs (resync cfg x c) b = getCs c b ∨ (getCs (resync cfg x c) b).active = false) := by
  unfold resync
  split
  · refine ⟨setCs_out _ _ _, (setCs_same _ _ _).hId, fun b => ?_⟩
    by_cases hb : b = x.audio
    · right; rw [hb, getCs_setCs]
    · left; exact getCs_setCs_ne _ _ _ _ hb
  · exact ⟨rfl, rfl, fun b => Or.inl rfl⟩

theorem sendAv_spec (ok : Takes) (x : Cast) (c : Ctx) :
    (sendAv ok x c).out = c.out ++ (if ok c.id (.av x.m) = true then [.av x.m] else []) ∧ (∀ b, (getCs (sendAv ok x c) b).active = (getCs c b).active) := by
  unfold sendAv send
  by_cases ho : ok c.id (.av x.m) = true
  · simp only [if_pos ho]
    refine ⟨setCs_out _ _ _, fun b => ?_⟩
    by_cases hb : b = x.audio
    · rw [hb, getCs_setCs]; cases x.audio <;> rfl
    · rw [getCs_setCs_ne _ _ _ _ hb]; cases b <;> rfl
  · simp only [if_neg ho, List.append_nil]
    have hk : ∀ (y : Cs) (n : Nat) (f : Bool), y.active = (getCs c x.audio).active → ∀ b, (getCs { setCs c x.audio y with ndropped := n, fin := f } b).active = (getCs c b).active := by
      intro y n f hy b
      have e : getCs { setCs c x.audio y with ndropped := n, fin := f } b = getCs (setCs c x.audio y) b := by cases b <;> rfl
      rw [e]
      by_cases hb : b = x.audio
      · rw [hb, getCs_setCs, hy]
      · rw [getCs_setCs_ne _ _ _ _ hb]
    split
    · exact ⟨setCs_out _ _ _, fun b => hk _ _ _ (by rfl) b⟩
    · refine ⟨setCs_out _ _ _, fun b => ?_⟩
      exact hk { getCs c x.audio with dropped := ((getCs c x.audio).dropped + x.delta) % 2 ^ 32 } (c.ndropped + 1) (setCs c x.audio { getCs c x.audio with dropped := ((getCs c x.audio).dropped + x.delta) % 2 ^ 32 }).fin rfl b

/-- The headers: all there are if they are accepted; then the channel is active, else nothing changed. -/
theorem sendHeaders_spec (cfg : Cfg) (ok : Takes) (x : Cast) (c : Ctx) :
    ∃ l, (sendHeaders cfg ok x c).1.out = c.out ++ l ∧ (∀ o ∈ l, NoAv o) ∧ (sendHeaders cfg ok x c).1.id = c.id ∧
      (∀ b, b ≠ x.audio → getCs (sendHeaders cfg ok x c).1 b = getCs c b) ∧
      ((sendHeaders cfg ok x c).2 = true → (∀ f, x.header = some f → ∃ ts, .header f x.m.video ts ∈ l) ∧ (∀ g, x.coheader = some g → ∃ ts, .header g (!x.m.video) ts ∈ l)) ∧
      ((sendHeaders cfg ok x c).2 = false → getCs (sendHeaders cfg ok x c).1 x.audio = getCs c x.audio) ∧
      ((sendHeaders cfg ok x c).2 = true → x.header ≠ none → (getCs (sendHeaders cfg ok x c).1 x.audio).active = true) ∧
      ((∀ o, ok c.id o = true) → (sendHeaders cfg ok x c).2 = true) := by
  have nh : ∀ f v t, NoAv (.header f v t) := fun _ _ _ m e => by cases e
  have nd : ∀ t, NoAv (.dummy t) := fun _ m e => by cases e
  unfold sendHeaders
  split
  · rename_i hn
    refine ⟨[], by simp, by simp, rfl, fun _ _ => rfl, fun _ => ⟨?_, ?_⟩, fun _ => rfl, ?_, fun _ => rfl⟩
    · intro f hf; rw [hn.1] at hf; cases hf
    · intro f hf; rw [hn.2] at hf; cases hf
    · intro _ hh; exact absurd hn.1 hh
  · have own : ∃ l, (sendOwn ok x c).1.out = c.out ++ l ∧ (∀ o ∈ l, NoAv o) ∧ (sendOwn ok x c).1.id = c.id ∧ (∀ b, getCs (sendOwn ok x c).1 b = getCs c b) ∧
        ((sendOwn ok x c).2 = true → ∀ f, x.header = some f → ∃ ts, .header f x.m.video ts ∈ l) ∧ ((∀ o, ok c.id o = true) → (sendOwn ok x c).2 = true) := by
      unfold sendOwn
      split
      · rename_i f hf
        by_cases ho : ok c.id (.header f x.m.video x.last) = true
        · rw [send_yes ho]
          refine ⟨[.header f x.m.video x.last], rfl, ?_, rfl, fun b => by cases b <;> rfl, ?_, fun _ => rfl⟩
          · intro o h; simp at h; rw [h]; exact nh _ _ _
          · intro _ f' hf'; rw [hf] at hf'; cases hf'; exact ⟨x.last, by simp⟩
        · rw [send_no ho]
          exact ⟨[], by simp, by simp, rfl, fun b => rfl, fun h => absurd h (by simp), fun h => absurd (h _) ho⟩
      · rename_i hf
        exact ⟨[], by simp, by simp, rfl, fun b => rfl, (fun _ f' hf' => by rw [hf] at hf'; cases hf'), fun _ => rfl⟩
    obtain ⟨l1, e1, n1, i1, k1, f1, a1⟩ := own
    split
    · rename_i c1 e
      rw [e] at e1 i1 k1 f1 a1
      exact ⟨l1, e1, n1, i1, fun b _ => k1 b, fun h => absurd h (by simp), fun _ => k1 _, fun h => absurd h (by simp), fun h => absurd (a1 h) (by simp)⟩
    · rename_i c1 e
      rw [e] at e1 i1 k1 f1 a1
      dsimp only at e1 i1 k1 f1 a1
      have co : ∃ l, (sendCo cfg ok x (!c.a.active) c1).1.out = c1.out ++ l ∧ (∀ o ∈ l, NoAv o) ∧ (sendCo cfg ok x (!c.a.active) c1).1.id = c1.id ∧ (∀ b, getCs (sendCo cfg ok x (!c.a.active) c1).1 b = getCs c1 b) ∧
          ((sendCo cfg ok x (!c.a.active) c1).2 = true → ∀ f, x.coheader = some f → ∃ ts, .header f (!x.m.video) ts ∈ l) ∧ ((∀ o, ok c1.id o = true) → (sendCo cfg ok x (!c.a.active) c1).2 = true) := by
        unfold sendCo
        split
        · rename_i f hf
          by_cases ho : ok c1.id (.header f (!x.m.video) x.last) = true
          · rw [send_yes ho]
            refine ⟨[.header f (!x.m.video) x.last], rfl, ?_, rfl, fun b => by cases b <;> rfl, ?_, fun _ => rfl⟩
            · intro o h; simp at h; rw [h]; exact nh _ _ _
            · intro _ f' hf'; rw [hf] at hf'; cases hf'; exact ⟨x.last, by simp⟩
          · rw [send_no ho]
            exact ⟨[], by simp, by simp, rfl, fun b => rfl, fun h => absurd h (by simp), fun h => absurd (h _) ho⟩
        · rename_i hf
          split
          · by_cases ho : ok c1.id (.dummy x.last) = true
            · rw [send_yes ho]
              refine ⟨[.dummy x.last], rfl, ?_, rfl, fun b => by cases b <;> rfl, ?_, fun _ => rfl⟩
              · intro o h; simp at h; rw [h]; exact nd _
              · intro _ f' hf'; rw [hf] at hf'; cases hf'
            · rw [send_no ho]
              exact ⟨[], by simp, by simp, rfl, fun b => rfl, (fun _ f' hf' => by rw [hf] at hf'; cases hf'), fun _ => rfl⟩
          · exact ⟨[], by simp, by simp, rfl, fun b => rfl, (fun _ f' hf' => by rw [hf] at hf'; cases hf'), fun _ => rfl⟩
      obtain ⟨l2, e2, n2, i2, k2, f2, a2⟩ := co
      have nn : ∀ o ∈ l1 ++ l2, NoAv o := by
        intro o ho
        rcases List.mem_append.1 ho with ho | ho
        · exact n1 o ho
        · exact n2 o ho
      split
      · rename_i c2 e'
        rw [e'] at e2 i2 k2 f2 a2
        dsimp only at e2 i2 k2 f2 a2
        refine ⟨l1 ++ l2, by rw [e2, e1, List.append_assoc], nn, i2.trans i1, fun b _ => (k2 b).trans (k1 b), fun h => absurd h (by simp), fun _ => (k2 _).trans (k1 _), fun h => absurd h (by simp), fun h => ?_⟩
        rw [i1] at a2
        exact absurd (a2 h) (by simp)
      · rename_i c2 e'
        rw [e'] at e2 i2 k2 f2 a2
        dsimp only at e2 i2 k2 f2 a2
        refine ⟨l1 ++ l2, ?_, nn, ?_, ?_, ?_, fun h => absurd h (by simp), ?_, fun _ => rfl⟩
        · rw [setCs_out, e2, e1, List.append_assoc]
        · rw [(setCs_same _ _ _).hId]; exact i2.trans i1
        · intro b hb
          rw [getCs_setCs_ne _ _ _ _ hb]; exact (k2 b).trans (k1 b)
        · intro _
          refine ⟨fun f hf => ?_, fun g hg => ?_⟩
          · obtain ⟨ts, h⟩ := f1 rfl f hf; exact ⟨ts, List.mem_append_left _ h⟩
          · obtain ⟨ts, h⟩ := f2 rfl g hg; exact ⟨ts, List.mem_append_right _ h⟩
        · intro _ _
          rw [getCs_setCs]

/-- One message, one subscriber: `c1` is the subscriber before the message is sent. -/
theorem deliver_spec (cfg : Cfg) (ok : Takes) (x : Cast) (c : Ctx) (h1 : c.publishing = false) (h2 : c.paused = false) :
    ∃ l e, (deliver cfg ok x c).out = c.out ++ l ++ e ∧ (∀ o ∈ l, NoAv o) ∧
      (∀ b, b ≠ x.audio → (getCs (deliver cfg ok x c) b).active = (getCs c b).active) ∧
      ((e = [] ∧ ((getCs (deliver cfg ok x c) x.audio).active = true → (getCs c x.audio).active = true ∧ ok c.id (.av x.m) = false)) ∨
       ((e = [.av x.m] ∨ (e = [] ∧ ok c.id (.av x.m) = false)) ∧
         ((getCs c x.audio).active = true ∨
          (∃ c0, skips cfg x c0 = false) ∧ (∀ f, x.header = some f → ∃ ts, .header f x.m.video ts ∈ l) ∧ (∀ g, x.coheader = some g → ∃ ts, .header g (!x.m.video) ts ∈ l)))) := by
  have hc : ¬(c.publishing = true ∨ c.paused = true) := by simp [h1, h2]
  unfold deliver
  rw [if_neg hc]
  dsimp only
  obtain ⟨⟨ld, ed, nd⟩, kd, idd⟩ := sendData_spec ok x c
  obtain ⟨er, idr, kr⟩ := resync_spec cfg x (sendData ok x c)
  obtain ⟨c1, hc1⟩ : ∃ c1, c1 = resync cfg x (sendData ok x c) := ⟨_, rfl⟩
  rw [← hc1] at er kr idr ⊢
  have ko : ∀ b, b ≠ x.audio → (getCs c1 b).active = (getCs c b).active := by
    intro b hb
    rw [hc1]; unfold resync
    split
    · rw [getCs_setCs_ne _ _ _ _ hb, kd]
    · rw [kd]
  have ka : (getCs c1 x.audio).active = true → (getCs c x.audio).active = true := by
    intro h
    rcases kr x.audio with e | e
    · rw [e, kd] at h; exact h
    · rw [e] at h; cases h
  have eo : c1.out = c.out ++ ld := er.trans ed
  have ei : c1.id = c.id := idr.trans idd
  split
  · rename_i ha
    obtain ⟨sa, sb⟩ := sendAv_spec ok x c1
    rw [ei] at sa
    refine ⟨ld, _, by rw [sa, eo], nd, fun b hb => (sb b).trans (ko b hb), Or.inr ⟨?_, Or.inl (ka ha)⟩⟩
    by_cases ho : ok c.id (.av x.m) = true
    · rw [if_pos ho]; exact Or.inl rfl
    · rw [if_neg ho]; exact Or.inr ⟨rfl, by simpa using ho⟩
  · rename_i ha
    split
    · exact ⟨ld, [], by simp [eo], nd, ko, Or.inl ⟨rfl, fun h => absurd h ha⟩⟩
    · rename_i hs
      have hs' : skips cfg x c1 = false := by simpa using hs
      obtain ⟨lh, eh, nh, ih, kh, fh, rh, _, _⟩ := sendHeaders_spec cfg ok x c1
      split
      · rename_i c2 e2
        rw [e2] at eh ih kh rh fh
        refine ⟨ld ++ lh, [], ?_, ?_, fun b hb => ?_, Or.inl ⟨rfl, fun h => ?_⟩⟩
        · rw [List.append_nil, eh, eo, List.append_assoc]
        · intro o ho
          rcases List.mem_append.1 ho with ho | ho
          · exact nd o ho
          · exact nh o ho
        · rw [← ko b hb, ← kh b hb]
        · have := rh rfl
          dsimp only at this
          rw [this] at h
          exact absurd h ha
      · rename_i c2 e2
        rw [e2] at eh ih kh rh fh
        dsimp only at eh ih kh rh fh
        obtain ⟨sa, sb⟩ := sendAv_spec ok x c2
        rw [ih, ei] at sa
        refine ⟨ld ++ lh, _, by rw [sa, eh, eo, List.append_assoc c.out], ?_, fun b hb => ?_, Or.inr ⟨?_, Or.inr ⟨⟨c1, hs'⟩, ?_, ?_⟩⟩⟩
        · intro o ho
          rcases List.mem_append.1 ho with ho | ho
          · exact nd o ho
          · exact nh o ho
        · rw [sb b, kh b hb, ko b hb]
        · by_cases ho : ok c.id (.av x.m) = true
          · rw [if_pos ho]; exact Or.inl rfl
          · rw [if_neg ho]; exact Or.inr ⟨rfl, by simpa using ho⟩
        · intro f hf
          obtain ⟨ts, h⟩ := (fh rfl).1 f hf; exact ⟨ts, List.mem_append_right _ h⟩
        · intro f hf
          obtain ⟨ts, h⟩ := (fh rfl).2 f hf; exact ⟨ts, List.mem_append_right _ h⟩

theorem castOf_m (cfg codec p m) : (castOf cfg codec p m).m = m := rfl

theorem kept_order (cfg : Cfg) : Kept cfg (fun _ => True) (fun L c => (avs c.out).Sublist L) where
  hMono L m c h := h.trans (List.sublist_append_left _ _)
  hNew L c h _ _ := by rw [h]; exact List.nil_sublist _
  hNotice L c c' h := by
    rintro ⟨l, e, hl⟩ _ _ _
    rw [e, avs_append, avs_nil_of (fun o ho => (hl o ho).noAv), List.append_nil]
    exact h
  hPub L c b x h _ := by rw [setCs_out]; exact h
  hDeliver L ok id codec m p c _ _ _ h h1 h2 := by
    obtain ⟨l, e, eo, hl, _, hd⟩ := deliver_spec cfg ok (castOf cfg codec p m) c h1 h2
    rw [eo, avs_append, avs_append, avs_nil_of hl, List.append_nil]
    rcases hd with ⟨he, _⟩ | ⟨he | ⟨he, _⟩, _⟩ <;> rw [he]
    · simpa [avs] using h.trans (List.sublist_append_left _ _)
    · exact List.Sublist.append h (List.Sublist.refl _)
    · simpa [avs] using h.trans (List.sublist_append_left _ _)

theorem headersFirst_append {out l : List Out} (h : HeadersFirst out) (hl : ∀ o ∈ l, NoAv o) : HeadersFirst (out ++ l) := by
  intro pre m post e
  rcases List.append_eq_append_iff.1 e with ⟨a, e1, e2⟩ | ⟨a, e1, e2⟩
  · exact absurd rfl (hl (.av m) (by rw [e2]; simp) m)
  · cases a with
    | nil => exact absurd rfl (hl (.av m) (by simp at e2; rw [← e2]; simp) m)
    | cons y ys =>
      simp only [List.cons_append, List.cons.injEq] at e2
      obtain ⟨rfl, _⟩ := e2
      exact h pre m ys e1

theorem headersFirst_snoc {out : List Out} {m : Msg} (h : HeadersFirst out) (hm : ∃ f ts, .header f m.video ts ∈ out) : HeadersFirst (out ++ [.av m]) := by
  intro pre m' post e
  rcases List.eq_nil_or_concat post with rfl | ⟨q, y, rfl⟩
  · obtain ⟨e1, e2⟩ := List.append_inj' e rfl
    cases e2
    rw [← e1]; exact hm
  · rw [List.concat_eq_append, ← List.cons_append, ← List.append_assoc] at e
    obtain ⟨e1, _⟩ := List.append_inj' e rfl
    exact h pre m' q e1

/-- An active channel has its headers in the queue. -/
def Primed (cfg : Cfg) (c : Ctx) : Prop :=
  ∀ b, (getCs c b).active = true → (∃ f ts, .header f (!b) ts ∈ c.out) ∧ (cfg.interleave = true → b = false ∧ ∃ f ts, .header f false ts ∈ c.out)

theorem kept_headers (cfg : Cfg) : Kept cfg KnowsHeaders (fun _ c => c.publishing = false → HeadersFirst c.out ∧ Primed cfg c) where
  hMono L m c h := h
  hNew L c h hv ha _ := by
    refine ⟨?_, ?_⟩
    · rw [h]
      intro pre m post e
      simp at e
    · intro b hb
      cases b <;> simp [getCs, hv, ha] at hb
  hNotice L c c' h := by
    rintro ⟨l, e, hl⟩ _ hp hc h1
    obtain ⟨h2, h3⟩ := h (hp ▸ h1)
    refine ⟨by rw [e]; exact headersFirst_append h2 (fun o ho => (hl o ho).noAv), ?_⟩
    intro b hb
    rcases hc b with hcb | hcb
    · rw [hcb] at hb
      obtain ⟨⟨f, ts, h⟩, hi⟩ := h3 b hb
      refine ⟨⟨f, ts, by rw [e]; exact List.mem_append_left _ h⟩, fun hI => ?_⟩
      obtain ⟨h4, g, ts', h5⟩ := hi hI
      exact ⟨h4, g, ts', by rw [e]; exact List.mem_append_left _ h5⟩
    · rw [hcb] at hb; cases hb
  hPub L c b x h hp h1 := by
    rw [(setCs_same _ _ _).hPub, hp] at h1; cases h1
  hDeliver L ok id codec m p c hq _ _ h h1 h2 _ := by
    obtain ⟨hf, hpr⟩ := h h1
    obtain ⟨k, f, g, hk, hkf, hkg⟩ := hq
    obtain ⟨x, hx⟩ : ∃ x, x = castOf cfg codec p m := ⟨_, rfl⟩
    have hxa : x.audio = !(cfg.interleave || m.video) := by rw [hx]; rfl
    have hxm : x.m = m := by rw [hx]; rfl
    have hxh : ∃ f', x.header = some f' := by
      rw [hx]
      show ∃ f', (if m.video = true then (codec.getD _).avc else (codec.getD _).aac) = some f'
      rw [hk]
      split
      · exact ⟨f, hkf⟩
      · exact ⟨g, hkg⟩
    have hxc : cfg.interleave = true → ∃ f', x.coheader = some f' := by
      intro hi
      rw [hx]
      show ∃ f', (if cfg.interleave = true then (if m.video = true then (codec.getD _).aac else (codec.getD _).avc) else none) = some f'
      rw [hk, if_pos hi]
      split
      · exact ⟨g, hkg⟩
      · exact ⟨f, hkf⟩
    rw [← hx]
    obtain ⟨l, e, eo, hl, ko, hd⟩ := deliver_spec cfg ok x c h1 h2
    have hf1 : HeadersFirst (c.out ++ l) := headersFirst_append hf hl
    have keep : ∀ b, (getCs c b).active = true → ∀ l', (∃ f ts, .header f (!b) ts ∈ c.out ++ l ++ l') ∧ (cfg.interleave = true → b = false ∧ ∃ f ts, .header f false ts ∈ c.out ++ l ++ l') := by
      intro b hb l'
      obtain ⟨⟨f, ts, h⟩, hi⟩ := hpr b hb
      refine ⟨⟨f, ts, by simp [h]⟩, fun hI => ?_⟩
      obtain ⟨h4, g, ts', h5⟩ := hi hI
      exact ⟨h4, g, ts', by simp [h5]⟩
    rcases hd with ⟨he, hact⟩ | ⟨he, hact⟩
    · rw [eo, he, List.append_nil]
      refine ⟨hf1, ?_⟩
      intro b hb
      rw [eo, he]
      refine keep b ?_ []
      by_cases hba : b = x.audio
      · rw [hba] at hb ⊢; exact (hact hb).1
      · rw [← ko b hba]; exact hb
    · -- the headers of the channel are there
      have hh : (∃ f ts, .header f (!x.audio) ts ∈ c.out ++ l) ∧ (∃ f ts, .header f m.video ts ∈ c.out ++ l) ∧ (cfg.interleave = true → x.audio = false ∧ ∃ f ts, .header f false ts ∈ c.out ++ l) := by
        rcases hact with hact | ⟨_, hown, hco⟩
        · have := keep x.audio hact []
          rw [List.append_nil] at this
          obtain ⟨⟨f1, ts1, m1⟩, hi⟩ := this
          refine ⟨⟨f1, ts1, m1⟩, ?_, hi⟩
          cases hI : cfg.interleave
          · rw [hxa, hI] at m1
            exact ⟨f1, ts1, by simpa using m1⟩
          · obtain ⟨h4, g1, ts2, m2⟩ := hi hI
            rw [h4] at m1
            cases m.video
            · exact ⟨g1, ts2, m2⟩
            · exact ⟨f1, ts1, by simpa using m1⟩
        · obtain ⟨f1, hf1⟩ := hxh
          obtain ⟨ts1, m1⟩ := hown f1 hf1
          rw [hxm] at m1
          have M1 := List.mem_append_right c.out m1
          cases hI : cfg.interleave
          · refine ⟨⟨f1, ts1, ?_⟩, ⟨f1, ts1, M1⟩, fun h => by cases h⟩
            rw [hxa, hI]; simpa using M1
          · obtain ⟨g1, hg1⟩ := hxc hI
            obtain ⟨ts2, m2⟩ := hco g1 hg1
            rw [hxm] at m2
            have M2 := List.mem_append_right c.out m2
            have ha : x.audio = false := by rw [hxa, hI]; rfl
            rw [ha]
            cases hv : m.video
            · rw [hv] at M1 M2
              exact ⟨⟨g1, ts2, M2⟩, ⟨f1, ts1, M1⟩, fun _ => ⟨rfl, f1, ts1, M1⟩⟩
            · rw [hv] at M1 M2
              exact ⟨⟨f1, ts1, M1⟩, ⟨f1, ts1, M1⟩, fun _ => ⟨rfl, g1, ts2, M2⟩⟩
      obtain ⟨hA, hB, hC⟩ := hh
      have hP : Primed cfg (deliver cfg ok x c) := by
        intro b hb
        rw [eo]
        by_cases hba : b = x.audio
        · obtain ⟨f1, ts1, m1⟩ := hA
          rw [hba]
          refine ⟨⟨f1, ts1, List.mem_append_left _ m1⟩, fun hI => ?_⟩
          obtain ⟨h4, g1, ts2, m2⟩ := hC hI
          exact ⟨h4, g1, ts2, List.mem_append_left _ m2⟩
        · rw [ko b hba] at hb
          exact keep b hb e
      refine ⟨?_, hP⟩
      rw [eo]
      rcases he with he | ⟨he, _⟩ <;> rw [he]
      · rw [hxm]; exact headersFirst_snoc hf1 hB
      · rw [List.append_nil]; exact hf1

theorem keyFirst_snoc {ms : List Msg} {m : Msg} (h : KeyFirst ms) (hm : m.video = true → (∃ x ∈ ms, x.video = true) ∨ m.ftype = 1) : KeyFirst (ms ++ [m]) := by
  intro pre m' post e hv hp
  rcases List.eq_nil_or_concat post with rfl | ⟨q, y, rfl⟩
  · obtain ⟨e1, e2⟩ := List.append_inj' e rfl
    cases e2
    rcases hm hv with ⟨x, hx, hxv⟩ | h1
    · rw [e1] at hx
      rw [hp x hx] at hxv; cases hxv
    · exact h1
  · rw [List.concat_eq_append, ← List.cons_append, ← List.append_assoc] at e
    obtain ⟨e1, _⟩ := List.append_inj' e rfl
    exact h pre m' q e1 hv hp

theorem kept_key (cfg : Cfg) (s : Nat) (hw : cfg.waitKey = true) :
    Kept cfg (TakesAll s) (fun _ c => c.publishing = false → c.id = s → KeyFirst (avs c.out) ∧ ((getCs c false).active = true → ∃ m ∈ avs c.out, m.video = true)) where
  hMono L m c h := h
  hNew L c h hv ha _ _ := by
    refine ⟨?_, ?_⟩
    · rw [h]
      intro pre m post e
      simp [avs] at e
    · intro hb
      simp [getCs, hv] at hb
  hNotice L c c' h := by
    rintro ⟨l, e, hl⟩ hi hp hc h1 hs
    obtain ⟨h2, h3⟩ := h (hp ▸ h1) (hi ▸ hs)
    rw [e, avs_append, avs_nil_of (fun o ho => (hl o ho).noAv), List.append_nil]
    refine ⟨h2, fun hb => ?_⟩
    rcases hc false with hcb | hcb
    · rw [hcb] at hb; exact h3 hb
    · rw [hcb] at hb; cases hb
  hPub L c b x h hp h1 := by
    rw [(setCs_same _ _ _).hPub, hp] at h1; cases h1
  hDeliver L ok id codec m p c hq _ hft h h1 h2 _ hs := by
    rw [(deliver_same _ _ _ _).hId] at hs
    obtain ⟨hk, hpr⟩ := h h1 hs
    obtain ⟨x, hx⟩ : ∃ x, x = castOf cfg codec p m := ⟨_, rfl⟩
    have hxa : x.audio = !(cfg.interleave || m.video) := by rw [hx]; rfl
    have hxm : x.m = m := by rw [hx]; rfl
    have hxp : x.prio = 1 → m.video = true ∧ m.ftype = 1 := by
      have e : ∃ b : Bool, x.prio = if m.video = true ∧ b = false then m.ftype else 0 := ⟨_, by rw [hx]; rfl⟩
      obtain ⟨b, e⟩ := e
      rw [e]
      intro h
      by_cases hh : m.video = true ∧ b = false
      · rw [if_pos hh] at h; exact ⟨hh.1, h⟩
      · rw [if_neg hh] at h; cases h
    rw [← hx]
    obtain ⟨l, e, eo, hl, ko, hd⟩ := deliver_spec cfg ok x c h1 h2
    have hok : ∀ o, ok c.id o = true := by rw [hs]; exact hq
    rw [eo, avs_append, avs_append, avs_nil_of hl, List.append_nil]
    rcases hd with ⟨he, hact⟩ | ⟨he, hact⟩
    · rw [he]
      simp only [avs, List.append_nil]
      refine ⟨hk, fun hb => hpr ?_⟩
      by_cases hba : false = x.audio
      · rw [hba] at hb ⊢; exact (hact hb).1
      · rw [← ko _ hba]; exact hb
    · have he : e = [.av x.m] := by
        rcases he with he | ⟨_, he⟩
        · exact he
        · rw [hok] at he; cases he
      rw [he, hxm]
      show KeyFirst (avs c.out ++ [m]) ∧ (_ → ∃ y ∈ avs c.out ++ [m], y.video = true)
      have hprio : (cfg.interleave = true ∨ m.video = true) → (∃ y ∈ avs c.out, y.video = true) ∨ (m.video = true ∧ m.ftype = 1) := by
        intro hiv
        have ha : x.audio = false := by
          rw [hxa]; rcases hiv with h | h <;> simp [h]
        rcases hact with hact | ⟨⟨c0, hsk⟩, _, _⟩
        · rw [ha] at hact; exact Or.inl (hpr hact)
        · right
          apply hxp
          unfold skips at hsk
          rw [hw, hxm] at hsk
          by_cases hp1 : x.prio = 1
          · exact hp1
          · exfalso
            have hd : decide (x.prio ≠ 1) = true := by simpa using hp1
            have hi : (cfg.interleave || m.video) = true := by rcases hiv with h | h <;> simp [h]
            rw [hd, hi] at hsk
            simp at hsk
      refine ⟨keyFirst_snoc hk ?_, ?_⟩
      · intro hv
        rcases hprio (Or.inr hv) with h | h
        · exact Or.inl h
        · exact Or.inr h.2
      · intro hb
        by_cases hba : false = x.audio
        · have hiv : cfg.interleave = true ∨ m.video = true := by
            rw [hxa] at hba
            cases hI : cfg.interleave
            · right; rw [hI] at hba; simpa using hba
            · exact Or.inl rfl
          rcases hprio hiv with ⟨y, hy, hyv⟩ | ⟨hv, _⟩
          · exact ⟨y, List.mem_append_left _ hy, hyv⟩
          · exact ⟨m, by simp, hv⟩
        · rw [ko _ hba] at hb
          obtain ⟨y, hy, hyv⟩ := hpr hb
          exact ⟨y, List.mem_append_left _ hy, hyv⟩

end Verif.Live
