import Verif.Live.FanFollow
/-
C61: what the subscribers of a live stream get.
-/
namespace Verif.Live

/-- Whatever sessions come, go, pause, publish and refuse: a subscriber gets messages that were published, unchanged, in their order, none twice. -/
theorem C61_order (cfg : Cfg) (ops : List Op) : ∀ c ∈ (run cfg {} ops).ctxs, (avs c.out).Sublist (published ops) := by
  have := (kept_order cfg).run ops {} [] (by simp [Distinct]) (fun _ _ => trivial) (by intro c h; cases h)
  simpa using this

/-- Once the codec module has the headers, no subscriber gets audio or video before a codec header of that kind, even if messages are refused. -/
theorem C61_header_partial (cfg : Cfg) (ops : List Op) (h : ∀ op ∈ ops, KnowsHeaders op) :
    ∀ c ∈ (run cfg {} ops).ctxs, c.publishing = false → HeadersFirst c.out := by
  intro c hc hp
  exact ((kept_headers cfg).run ops {} [] (by simp [Distinct]) h (by intro c h; cases h) c hc hp).1

/-- With `wait_key` the first video message of a subscriber is a key frame, if the subscriber takes all messages. -/
theorem C61_key_partial (cfg : Cfg) (hw : cfg.waitKey = true) (ops : List Op) (s : Nat) (h : ∀ op ∈ ops, TakesAll s op) :
    ∀ c ∈ (run cfg {} ops).ctxs, c.publishing = false → c.id = s → KeyFirst (avs c.out) := by
  intro c hc hp hs
  exact ((kept_key cfg s hw).run ops {} [] (by simp [Distinct]) h (by intro c h; cases h) c hc hp hs).1

/-- Where sessions publish or play but not both, a publisher gets nothing through while there is one of a higher priority. -/
theorem C61_top_partial (cfg : Cfg) (ops : List Op) (h : OneRole ops) (p : Ctx) (hp : p ∈ (run cfg {} ops).ctxs) (hpub : p.publishing = true)
    (hq : ∃ q ∈ (run cfg {} ops).ctxs, q.publishing = true ∧ p.pri < q.pri) (ok : Takes) (codec : Option Codec) (m : Msg) :
    ∀ c ∈ (run cfg {} (ops ++ [.av ok p.id codec m])).ctxs, ∃ c0 ∈ (run cfg {} ops).ctxs, c0.id = c.id ∧ avs c.out = avs c0.out := by
  obtain ⟨role, hr⟩ := oneRole_keeps h
  have hd : Distinct ({} : St) := by simp [Distinct]
  have h0 : Roles role ({} : St) := roles_init role
  have e : run cfg {} (ops ++ [.av ok p.id codec m]) = step cfg (run cfg {} ops) (.av ok p.id codec m) := by simp [run]
  rw [e]
  intro c hc
  rcases av_had c hc with h | ⟨_, ht, _⟩
  · exact h
  · rw [top_highest (distinct_run ops _ hd) (roles_run ops _ hd h0 hr) hp hpub] at ht
    obtain ⟨q, hqm, hqp, hlt⟩ := hq
    have := ht q hqm hqp
    omega

/-- A session that does not publish gets nothing through, whatever it sends. -/
theorem C61_nonpub (cfg : Cfg) (ops : List Op) (id : Nat) (h : ∀ p ∈ (run cfg {} ops).ctxs, p.id = id → p.publishing = false) (ok : Takes) (codec : Option Codec) (m : Msg) :
    ∀ c ∈ (run cfg {} (ops ++ [.av ok id codec m])).ctxs, ∃ c0 ∈ (run cfg {} ops).ctxs, c0.id = c.id ∧ avs c.out = avs c0.out := by
  have e : run cfg {} (ops ++ [.av ok id codec m]) = step cfg (run cfg {} ops) (.av ok id codec m) := by simp [run]
  rw [e]
  intro c hc
  rcases av_had c hc with h' | ⟨⟨p, hf, hp⟩, _⟩
  · exact h'
  · obtain ⟨hm, hid⟩ := find_mem hf
    rw [h p hm hid] at hp; cases hp

/-- A paused subscriber gets no messages. -/
theorem C61_paused (cfg : Cfg) (ops : List Op) (ok : Takes) (id : Nat) (codec : Option Codec) (m : Msg) :
    ∀ c ∈ (run cfg {} (ops ++ [.av ok id codec m])).ctxs, c.paused = true → ∃ c0 ∈ (run cfg {} ops).ctxs, c0.id = c.id ∧ avs c.out = avs c0.out := by
  have e : run cfg {} (ops ++ [.av ok id codec m]) = step cfg (run cfg {} ops) (.av ok id codec m) := by simp [run]
  rw [e]
  intro c hc hp
  rcases av_had c hc with h' | ⟨_, _, _, hn⟩
  · exact h'
  · rw [hn] at hp; cases hp

/-- And the publisher with the highest priority gets everything through to a subscriber that takes all messages: all audio from the first frame, all video from the first key frame, in order;
a subscriber that missed more than `sync` before begins anew (without `interleave` and `wait_video`, on an active stream, codec headers known). -/
theorem C61_follow_partial (cfg : Cfg) (hi : cfg.interleave = false) (hv : cfg.waitVideo = false) (ops : List Op) (h : OneRole ops) (p : Ctx)
    (hp : Highest (run cfg {} ops) p) (hh : p.hold = 0) (ha : (run cfg {} ops).active = true ∨ p.active = true)
    (c : Ctx) (hc : follows cfg (run cfg {} ops) c) (ms : List (Takes × Codec × Msg))
    (hm : ∀ t ∈ ms, validFrame t.2.2 ∧ t.2.1.avc ≠ none ∧ t.2.1.aac ≠ none ∧ ∀ o, t.1 c.id o = true) :
    ∃ c' ∈ (run cfg {} (ops ++ ms.map fun t => .av t.1 p.id (some t.2.1) t.2.2)).ctxs, c'.id = c.id ∧ c'.publishing = false ∧
      avs c'.out = avs c.out ++ due cfg.waitKey (goesOn cfg c.v) (goesOn cfg c.a) (ms.map (·.2)) := by
  obtain ⟨role, hr⟩ := oneRole_keeps h
  have hd : Distinct ({} : St) := by simp [Distinct]
  have h0 : Roles role ({} : St) := roles_init role
  have hd1 := distinct_run (cfg := cfg) ops _ hd
  have e : run cfg {} (ops ++ ms.map fun t => .av t.1 p.id (some t.2.1) t.2.2) = run cfg (run cfg {} ops) (ms.map fun t => .av t.1 p.id (some t.2.1) t.2.2) := by simp [run]
  rw [e]
  exact follow_run hi hv ms _ c ⟨hd1, roles_run ops _ hd h0 hr, p, find_of_mem hd1 hp.1, hp.2.1, hh, ha, hp.2.2⟩ hc hm

/- A publisher 1, a subscriber 2, one that takes everything. -/
def yes : Takes := fun _ _ => true
def codec1 : Codec := { aac := some 100, avc := some 101 }
def vkey (n ts : Nat) : Msg := ⟨n, true, 1, false, ts⟩
def vinter (n ts : Nat) : Msg := ⟨n, true, 2, false, ts⟩
def sound (n ts : Nat) : Msg := ⟨n, false, 10, false, ts⟩
def outOf (st : St) (id : Nat) : List Out := ((find? st id).map (·.out)).getD []

/-- A run with something in it: inter frame skipped, key frame with its header, audio, and a lower publisher that is not heard. -/
def sampleOps : List Op :=
  [.publish 1 5, .play yes 2 false, .publish 3 0, .av yes 1 (some codec1) (vinter 10 0), .av yes 3 (some codec1) (vkey 20 0), .av yes 1 (some codec1) (vkey 11 40), .av yes 1 (some codec1) (sound 12 41), .av yes 1 (some codec1) (vinter 13 80)]

example : avs (outOf (run {} {} sampleOps) 2) = [vkey 11 40, sound 12 41, vinter 13 80] := by decide +kernel
example : (run {} {} sampleOps).ctxs.length = 3 := by decide +kernel
example : ∀ op ∈ sampleOps, KnowsHeaders op := by
  intro op h
  simp only [sampleOps, List.mem_cons, List.not_mem_nil, or_false] at h
  rcases h with rfl | rfl | rfl | rfl | rfl | rfl | rfl | rfl <;> first | trivial | exact ⟨codec1, 101, 100, rfl, rfl, rfl⟩
example : ∀ op ∈ sampleOps, TakesAll 2 op := by
  intro op h
  simp only [sampleOps, List.mem_cons, List.not_mem_nil, or_false] at h
  rcases h with rfl | rfl | rfl | rfl | rfl | rfl | rfl | rfl <;> first | trivial | (intro o; rfl)
theorem sample_oneRole : OneRole sampleOps := by
  intro id ⟨pri, h⟩ ⟨ok, s, h'⟩
  simp [sampleOps] at h h'
  omega
example : ∃ p, Highest (run {} {} sampleOps) p ∧ p.hold = 0 ∧ (run {} {} sampleOps).active = true := by
  refine ⟨{ id := 1, publishing := true, sessPub := true, pri := 5, active := true, v := { active := true, ts := 80 }, a := { active := true, ts := 41 } }, ⟨by decide +kernel, rfl, ?_⟩, rfl, by decide +kernel⟩
  have : (run {} {} sampleOps).ctxs.all (fun q => decide (q.publishing = true → q.pri ≤ 5)) = true := by decide +kernel
  intro q hq
  exact of_decide_eq_true (List.all_eq_true.1 this q hq)
example : ∃ c, follows {} (run {} {} sampleOps) c ∧ c.v.active = true := by
  have : (run {} {} sampleOps).ctxs.any (fun c => decide (c.publishing = false ∧ c.paused = false ∧ c.v.dropped ≤ 300 ∧ c.a.dropped ≤ 300 ∧ c.v.active = true)) = true := by decide +kernel
  obtain ⟨c, hc, h⟩ := List.any_eq_true.1 this
  obtain ⟨h1, h2, h3, h4, h5⟩ := of_decide_eq_true h
  exact ⟨c, ⟨hc, h1, h2, Or.inr (Or.inr h3), Or.inr (Or.inr h4)⟩, h5⟩
example : ∃ p ∈ (run {} {} sampleOps).ctxs, p.publishing = true ∧ ∃ q ∈ (run {} {} sampleOps).ctxs, q.publishing = true ∧ p.pri < q.pri := by
  have : (run {} {} sampleOps).ctxs.any (fun p => decide (p.publishing = true) && (run {} {} sampleOps).ctxs.any (fun q => decide (q.publishing = true ∧ p.pri < q.pri))) = true := by decide +kernel
  obtain ⟨p, hp, h⟩ := List.any_eq_true.1 this
  rw [Bool.and_eq_true] at h
  obtain ⟨q, hq, h'⟩ := List.any_eq_true.1 h.2
  exact ⟨p, hp, of_decide_eq_true h.1, q, hq, of_decide_eq_true h'⟩

example : ∃ c ∈ (run {} {} (sampleOps ++ [.pause yes 2 true] ++ [.av yes 1 (some codec1) (vkey 14 120)])).ctxs, c.paused = true ∧ c.publishing = false := by
  have : (run {} {} (sampleOps ++ [.pause yes 2 true] ++ [.av yes 1 (some codec1) (vkey 14 120)])).ctxs.any (fun c => decide (c.paused = true ∧ c.publishing = false)) = true := by decide +kernel
  obtain ⟨c, hc, h⟩ := List.any_eq_true.1 this
  exact ⟨c, hc, of_decide_eq_true h⟩
example : ∀ p ∈ (run {} {} sampleOps).ctxs, p.id = 2 → p.publishing = false := by decide +kernel

/-- Not so for a subscriber whose queue is full for a moment: the header of the key frame is taken and makes the channel active, the key frame itself is refused (a lower priority: C08),
and what comes next is an inter frame. -/
theorem C61_key_violation : ∃ ops, avs (outOf (run {} {} ops) 2) = [vinter 11 40] ∧ published ops = [vkey 10 0, vinter 11 40] := by
  refine ⟨[.publish 1 0, .play yes 2 false, .av (fun _ o => decide (o ≠ .av (vkey 10 0))) 1 (some codec1) (vkey 10 0), .av yes 1 (some codec1) (vinter 11 40)], ?_, ?_⟩ <;> decide +kernel

/-- A publisher of a higher priority takes over: subscribers get its frames from the middle of a group and without its codec header. -/
theorem C61_takeover_violation : ∃ ops, outOf (run {} {} ops) 2 = [.note 1, .note 2, .start, .header 101 true 0, .av (vkey 10 0), .av (vinter 20 50)] ∧
    ∃ m, m = vinter 20 50 ∧ Op.av yes 3 (some { aac := some 200, avc := some 201 }) m ∈ ops := by
  refine ⟨[.publish 1 0, .play yes 2 false, .av yes 1 (some codec1) (vkey 10 0), .publish 3 9, .av yes 3 (some { aac := some 200, avc := some 201 }) (vinter 20 50)], ?_, _, rfl, ?_⟩
  · decide +kernel
  · simp

/-- A publisher nobody hears leaves, the first that sent something: all subscribers are told the end of the stream while the other goes on sending, wait for a key frame and miss what comes before. -/
theorem C61_eof_violation : ∃ ops, outOf (run {} {} ops) 2 = [.note 1, .note 2, .start, .header 101 true 0, .av (vkey 10 0), .eof, .start, .header 101 true 80, .av (vkey 12 120)] ∧
    published ops = [vkey 20 0, vkey 10 0, vinter 11 80, vkey 12 120] := by
  refine ⟨[.publish 1 5, .play yes 2 false, .publish 3 0, .av yes 3 (some codec1) (vkey 20 0), .av yes 1 (some codec1) (vkey 10 0), .close yes 3, .av yes 1 (some codec1) (vinter 11 80), .av yes 1 (some codec1) (vkey 12 120)], ?_, ?_⟩ <;> decide +kernel

/-- If that publisher had sent an unpause command, the end of the stream is the last thing subscribers are told: no stream begin follows although the other goes on sending. -/
theorem C61_end_violation : ∃ ops, outOf (run {} {} ops) 2 = [.note 1, .note 2, .start, .header 101 true 0, .av (vkey 10 0), .eof, .header 101 true 0, .av (vkey 11 40), .av (vinter 12 80)] := by
  exact ⟨[.publish 1 5, .play yes 2 false, .publish 3 0, .av yes 1 (some codec1) (vkey 10 0), .pause yes 3 false, .close yes 3, .av yes 1 (some codec1) (vkey 11 40), .av yes 1 (some codec1) (vinter 12 80)], by decide +kernel⟩

/-- With codecs that have no header, the channel never becomes active: with `wait_key` (the default) subscribers get the key frames and nothing else. -/
theorem C61_plain_violation (ms : List Msg) (h : ∀ m ∈ ms, m.video = true ∧ m.ftype = 2) (t : Nat) :
    avs (outOf (run {} {} ([.publish 1 0, .play yes 2 false, .av yes 1 (some { isH264 := false }) (vkey 0 t)] ++ ms.map (.av yes 1 (some { isH264 := false })))) 2) = [vkey 0 t] := by
  have hstep : ∀ (m : Msg) (p c : Ctx) (pubs : List (Int × Nat)), m.video = true → m.ftype = 2 → pubs = [(0, 1)] → p.id = 1 → c.id = 2 → p.hold = 0 → p.publishing = true → c.publishing = false → c.paused = false → c.v.active = false →
      ∃ p', step {} { ctxs := [c, p], pubs := pubs, active := true } (.av yes 1 (some { isH264 := false }) m) = { ctxs := [c, p'], pubs := pubs, active := true } ∧ p'.id = 1 ∧ p'.hold = 0 ∧ p'.publishing = true := by
    intro m p c pubs h1 h2 h3 h4 h5 h6 h7 h8 h9 h10
    subst h3
    refine ⟨{ p with hold := 0, v := { p.v with active := true, ts := m.ts } }, ?_, h4, rfl, h7⟩
    · simp [step, av, find?, h1, h2, h4, h5, h6, h7, h8, h9, h10, modify, castOf, top, deliver, sendData, resync, getCs, setCs, skips]
  have hrun : ∀ (ms : List Msg) (p c : Ctx), (∀ m ∈ ms, m.video = true ∧ m.ftype = 2) → p.id = 1 → c.id = 2 → p.hold = 0 → p.publishing = true → c.publishing = false → c.paused = false → c.v.active = false →
      outOf (run {} { ctxs := [c, p], pubs := [(0, 1)], active := true } (ms.map (.av yes 1 (some { isH264 := false })))) 2 = c.out := by
    intro ms
    induction ms with
    | nil => intro p c _ h4 h5 _ _ _ _ _; simp [run, outOf, find?, h5]
    | cons m ms ih =>
      intro p c hm h4 h5 h6 h7 h8 h9 h10
      obtain ⟨p', e, k1, k2, k3⟩ := hstep m p c _ (hm m List.mem_cons_self).1 (hm m List.mem_cons_self).2 rfl h4 h5 h6 h7 h8 h9 h10
      have := ih p' c (fun x hx => hm x (List.mem_cons_of_mem _ hx)) k1 h5 k2 k3 h8 h9 h10
      simp only [List.map_cons, run, List.foldl_cons, e]
      exact this
  have e0 : ∃ p c, run {} {} [.publish 1 0, .play yes 2 false, .av yes 1 (some { isH264 := false }) (vkey 0 t)] = { ctxs := [c, p], pubs := [(0, 1)], active := true } ∧
      p.id = 1 ∧ c.id = 2 ∧ p.hold = 0 ∧ p.publishing = true ∧ c.publishing = false ∧ c.paused = false ∧ c.v.active = false ∧ avs c.out = [vkey 0 t] :=
    ⟨_, _, rfl, rfl, rfl, rfl, rfl, rfl, rfl, rfl, rfl⟩
  obtain ⟨p, c, e, k1, k2, k3, k4, k5, k6, k7, k8⟩ := e0
  have hr := hrun ms p c h k1 k2 k3 k4 k5 k6 k7
  have e2 : ∀ a b, run {} {} (a ++ b) = run {} (run {} {} a) b := by intro a b; simp [run]
  rw [e2, e, hr, k8]

example : ∃ ms : List Msg, ms.length = 3 ∧ ∀ m ∈ ms, m.video = true ∧ m.ftype = 2 := ⟨[vinter 1 1, vinter 2 2, vinter 3 3], rfl, by decide⟩

/-- A session that plays and then asks to publish: when it leaves, the publisher with priority 0 is taken off the map and nobody hears it any more. -/
theorem C61_deaf_violation : ∃ ops, avs (outOf (run {} {} ops) 2) = [vkey 10 0] ∧ published ops = [vkey 10 0, vkey 11 40] ∧
    (run {} {} ops).ctxs.any (fun c => c.id == 1 && c.publishing) = true := by
  refine ⟨[.publish 1 0, .play yes 2 false, .play yes 4 false, .publish 4 0, .av yes 1 (some codec1) (vkey 10 0), .close yes 4, .av yes 1 (some codec1) (vkey 11 40)], ?_, ?_, ?_⟩ <;> decide +kernel

/-- A session that publishes and then plays stays on the map after it left: whoever comes next with this priority is refused. -/
theorem C61_stale_violation : ∃ ops, (run {} {} ops).ctxs = [] ∧ (run {} {} (ops ++ [.publish 5 0])).ctxs = [] := by
  refine ⟨[.publish 1 0, .play yes 1 false, .close yes 1], ?_, ?_⟩ <;> decide +kernel

end Verif.Live
