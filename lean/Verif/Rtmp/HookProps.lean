import Verif.Rtmp.HookModel
/-
C66: what happens for a command before it is admitted. Handlers are called in the reverse order of their registration (for every list of modules); a
publisher or player with a callback has joined no stream, started no program, relay or live recording and was sent nothing before an answer admits it; a
command that a module refuses never comes to the end of the chain. Not so: recordings, HLS, DASH (and MPEG-TS and HLS players) come before the callback,
everything but the last handler comes before the rules of access.
-/
namespace Verif.Hook

/-! ### Order -/

theorem register_head (l : List Mod) (c : Chain) : (l.foldl register c).head = (l.getLast?).or c.head := by
  induction l generalizing c with
  | nil => simp
  | cons m l ih =>
    rw [List.foldl_cons, ih]
    cases l with
    | nil => simp [register]
    | cons k l =>
      rw [List.getLast?_cons_cons, List.getLast?_cons]
      rfl

theorem register_next (l : List Mod) (c : Chain) (m : Mod) (h : m ∉ l) : (l.foldl register c).next m = c.next m := by
  induction l generalizing c with
  | nil => rfl
  | cons k l ih =>
    simp only [List.mem_cons, not_or] at h
    rw [List.foldl_cons, ih _ h.2]
    simp [register, h.1]

theorem follow_none (c : Chain) (n : Nat) : follow c n none = [] := by cases n <;> rfl

/-- The pointers of modules that are not registered again stay: the chain from an old head is as it was. -/
theorem follow_congr (c d : Chain) (n : Nat) (o : Option Mod) (h : ∀ m ∈ follow c n o, d.next m = c.next m) : follow d n o = follow c n o := by
  induction n generalizing o with
  | zero => rfl
  | succ n ih =>
    cases o with
    | none => rfl
    | some m =>
      simp only [follow, List.mem_cons, forall_eq_or_imp] at h ⊢
      rw [h.1, ih _ h.2]

theorem snocInd {α : Type} {P : List α → Prop} (h0 : P []) (h1 : ∀ l a, P l → P (l ++ [a])) (l : List α) : P l := by
  have : ∀ l : List α, P l.reverse := by
    intro l
    induction l with
    | nil => exact h0
    | cons a l ih => rw [List.reverse_cons]; exact h1 _ _ ih
  simpa using this l.reverse

/-- C66, order: whatever modules register, each once, the handlers are called in the reverse order. -/
theorem C66_order (l : List Mod) (h : l.Nodup) (n : Nat) (hn : l.length ≤ n) :
    follow (l.foldl register {}) n (l.foldl register {}).head = l.reverse := by
  induction l using snocInd generalizing n with
  | h0 => exact follow_none _ _
  | h1 l m ih =>
    rw [List.nodup_append] at h
    obtain ⟨hl, _, hd⟩ := h
    rw [List.length_append, List.length_singleton] at hn
    obtain ⟨k, rfl⟩ : ∃ k, n = k + 1 := ⟨n - 1, by omega⟩
    have ih := ih hl k (by omega)
    have hc : (l ++ [m]).foldl register {} = register (l.foldl register {}) m := by rw [List.foldl_append]; rfl
    rw [hc, List.reverse_append]
    show m :: follow _ k ((register (l.foldl register {}) m).next m) = m :: l.reverse
    have e : (register (l.foldl register {}) m).next m = (l.foldl register {}).head := by simp [register]
    rw [e, follow_congr (l.foldl register {}), ih]
    intro x hx
    rw [ih, List.mem_reverse] at hx
    have : x ≠ m := fun e => hd x hx m (by simp) e
    simp [register, this]

example : ([.cmd, .access, .live] : List Mod).Nodup := by decide

/-- ... in this server: -/
theorem C66_publish_order : follow (configure .publish order) order.length (configure .publish order).head =
    [.mpegtsLive, .record, .dash, .hls, .log, .notify, .exec, .relay, .liveRecord, .live, .access, .cmd] :=
  C66_order (order.filter (registers .publish)) (by decide) _ (by decide)

theorem C66_play_order : follow (configure .play order) order.length (configure .play order).head =
    [.hlsLive, .mpegtsLive, .log, .notify, .exec, .relay, .live, .access, .cmd] :=
  C66_order (order.filter (registers .play)) (by decide) _ (by decide)

/-! ### Specification -/

/-- What must not happen before a command is admitted by its callback. -/
def guarded : Eff → Bool
  | .executed | .relayed | .liveRecording | .askedRecord | .joined | .started | .gop | .accepted => true
  | _ => false

/-- A callback is configured for the command of this session. -/
def hasCall (h : Hook) (e : Env) : Bool := !e.relay && !e.interprocess && (match h with | .publish => e.onPublish | .play => e.onPlay)

/-- The answer admits. -/
def admits (e : Env) : Option Nat → Prop
  | some c => 200 ≤ c ∧ c ≤ 300
  | none => e.ignore = true

instance : Decidable (admits e a) := by unfold admits; split <;> infer_instance

/-- The rules of access apply and refuse. -/
def isDenied (h : Hook) (e : Env) : Bool := e.denied && (match h with | .publish => !e.interprocess | .play => true)

/-! ### Up to the callback -/

theorem call_append (h : Hook) (e : Env) (a b : List Mod) : call h e (a ++ b) = match call h e a with
    | (o, .done) => (o ++ (call h e b).1, (call h e b).2)
    | (o, .refused) => (o, .refused)
    | (o, .waiting m rest) => (o, .waiting m (rest ++ b)) := by
  induction a with
  | nil => simp [call]
  | cons m a ih =>
    simp only [List.cons_append, call]
    rcases hm : handler h e m with ⟨o, v⟩
    cases v with
    | next =>
      simp only [ih]
      rcases call h e a with ⟨o2, r⟩
      cases r <;> simp
    | refuse => rfl
    | wait => rfl

/-- The modules after the callback. -/
def later : Hook → List Mod
  | .publish => [.exec, .relay, .liveRecord, .live, .access, .cmd]
  | .play => [.exec, .relay, .live, .access, .cmd]

def earlier : Hook → List Mod
  | .publish => [.mpegtsLive, .record, .dash, .hls, .log]
  | .play => [.hlsLive, .mpegtsLive, .log]

theorem chain_eq (h : Hook) : follow (configure h order) order.length (configure h order).head = earlier h ++ .notify :: later h := by
  cases h
  · exact C66_publish_order
  · exact C66_play_order

/-- Nothing guarded is done by the modules before, and none of them waits. -/
theorem call_earlier (h : Hook) (e : Env) : (∀ x ∈ (call h e (earlier h)).1, guarded x = false) ∧
    ((call h e (earlier h)).2 = .done ∨ (call h e (earlier h)).2 = .refused) := by
  cases h
  · simp only [earlier, call, handler, onPublish]
    cases e.interprocess <;> cases e.record <;> cases e.fails .record <;> cases e.dash <;> cases e.fails .dash <;> cases e.hls <;> cases e.fails .hls <;>
      cases e.relay <;> simp [guarded]
  · simp only [earlier, call, handler, onPlay]
    cases e.hlsLive <;> cases e.liveType <;> cases e.interprocess <;> cases e.fails .hlsLive <;> cases e.fails .mpegtsLive <;> cases e.relay <;>
      simp [guarded]

theorem handler_notify (h : Hook) (e : Env) (hc : hasCall h e = true) : handler h e .notify = ([.asked h], .wait) := by
  cases h <;> simp only [hasCall, Bool.and_eq_true, Bool.not_eq_true'] at hc <;> simp [handler, onPublish, onPlay, hc]

theorem handler_notify_none (h : Hook) (e : Env) (hc : hasCall h e = false) : handler h e .notify = ([], .next) := by
  cases h <;> simp only [hasCall] at hc <;> simp only [handler, onPublish, onPlay] <;>
    cases hr : e.relay <;> cases hi : e.interprocess <;> simp_all

theorem answers_done (h : Hook) (e : Env) (o : List Eff) (r : Res) (hr : r = .done ∨ r = .refused) (as : List (Option Nat)) :
    answers h e (o, r) as = (o, r) := by
  cases as with
  | nil => rfl
  | cons a as => rcases hr with rfl | rfl <;> rfl

/-- With a callback a command begins with what the earlier modules do and then waits, or is refused by one of them. -/
theorem command_begin (h : Hook) (e : Env) (hc : hasCall h e = true) (as : List (Option Nat)) :
    (∃ o, (∀ x ∈ o, guarded x = false) ∧ command h e as = (o, .refused)) ∨
    (∃ o, (∀ x ∈ o, guarded x = false) ∧ command h e as = answers h e (o, .waiting .notify (later h)) as) := by
  have h1 := call_earlier h e
  have hlink : ∀ o : List Eff, (∀ x ∈ o, guarded x = false) → ∀ x ∈ (if e.relay then [] else [Eff.linked]) ++ o, guarded x = false := by
    intro o ho x hx
    rw [List.mem_append] at hx
    rcases hx with hx | hx
    · split at hx
      · cases hx
      · rw [List.mem_singleton] at hx; subst hx; rfl
    · exact ho x hx
  unfold command
  dsimp only
  rw [chain_eq, call_append]
  generalize call h e (earlier h) = q at h1
  obtain ⟨o, r⟩ := q
  rcases h1.2 with hr | hr <;> dsimp only at hr <;> subst hr <;> dsimp only at h1 ⊢
  · right
    refine ⟨(if e.relay then [] else [Eff.linked]) ++ (o ++ [.asked h]), hlink _ ?_, ?_⟩
    rotate_left
    · simp only [call, handler_notify h e hc]
    · intro y hy
      rw [List.mem_append, List.mem_singleton] at hy
      rcases hy with hy | rfl
      · exact h1.1 y hy
      · rfl
  · left
    exact ⟨_, hlink o h1.1, answers_done h e _ _ (Or.inr rfl) as⟩

theorem admits_iff (e : Env) (a : Option Nat) : passes e a = true ↔ admits e a := by
  cases a <;> simp [admits, passes]

/-- C66: before the callback of a command admits it, the publisher or player has joined no stream, was sent nothing, and no program, relay or live
recording was started for it. -/
theorem C66_admitted_partial (h : Hook) (e : Env) (hc : hasCall h e = true) (as : List (Option Nat)) (x : Eff) (hx : x ∈ (command h e as).1)
    (hg : guarded x = true) : ∃ a as', as = a :: as' ∧ admits e a := by
  rcases command_begin h e hc as with ⟨o, ho, he⟩ | ⟨o, ho, he⟩ <;> rw [he] at hx
  · rw [ho x hx] at hg; cases hg
  · cases as with
    | nil => rw [show answers h e (o, .waiting .notify (later h)) [] = (o, .waiting .notify (later h)) from rfl] at hx; rw [ho x hx] at hg; cases hg
    | cons a as =>
      refine ⟨a, as, rfl, ?_⟩
      by_cases ha : admits e a
      · exact ha
      · exfalso
        have e1 : answer h e .notify (later h) a = ([], .refused) := by
          unfold answer
          dsimp only
          rw [if_neg (by rw [admits_iff]; exact ha)]
        simp only [answers, e1, List.append_nil] at hx
        rw [answers_done h e _ _ (Or.inr rfl)] at hx
        rw [ho x hx] at hg; cases hg

/-- An answer that does not admit refuses the command. -/
theorem C66_refused (h : Hook) (e : Env) (hc : hasCall h e = true) (a : Option Nat) (ha : ¬ admits e a) (as : List (Option Nat)) :
    (command h e (a :: as)).2 = .refused := by
  rcases command_begin h e hc (a :: as) with ⟨o, ho, he⟩ | ⟨o, ho, he⟩ <;> rw [he]
  have e1 : answer h e .notify (later h) a = ([], .refused) := by
    unfold answer
    dsimp only
    rw [if_neg (by rw [admits_iff]; exact ha)]
  simp only [answers, e1]
  rw [answers_done h e _ _ (Or.inr rfl)]

example : hasCall .publish { onPublish := true } = true ∧ ¬ admits { onPublish := true } (some 403) ∧ admits { onPublish := true } (some 200) := by decide

/-! ### After it -/

/-- Ends with the rules of access and the last handler. -/
def gated (l : List Mod) : Prop := ∃ pre, l = pre ++ [.access, .cmd] ∧ Mod.cmd ∉ pre

theorem handler_accepted (h : Hook) (e : Env) (m : Mod) (hm : m ≠ .cmd) : Eff.accepted ∉ (handler h e m).1 := by
  have hs : ∀ (c : Prop) [Decidable c] (a b : List Eff × Verdict), Eff.accepted ∉ a.1 → Eff.accepted ∉ b.1 → Eff.accepted ∉ (if c then a else b).1 := by
    intro c _ a b ha hb; split <;> assumption
  have hs' : ∀ (c : Prop) [Decidable c] (a b : List Eff), Eff.accepted ∉ a → Eff.accepted ∉ b → Eff.accepted ∉ (if c then a else b) := by
    intro c _ a b ha hb; split <;> assumption
  cases h <;> cases m <;> simp only [handler, onPublish, onPlay] <;> first
    | exact absurd rfl hm
    | (repeat first | apply hs | apply hs') <;> first | simp | (split <;> simp) | (split <;> split <;> simp)

theorem call_gated (h : Hook) (e : Env) (hd : isDenied h e = true) (l : List Mod) (hl : gated l) :
    Eff.accepted ∉ (call h e l).1 ∧ (call h e l).2 ≠ .done ∧ ∀ m rest, (call h e l).2 = .waiting m rest → gated rest := by
  obtain ⟨pre, rfl, hp⟩ := hl
  induction pre with
  | nil =>
    have : handler h e .access = ([], .refuse) := by
      cases h <;> simp only [isDenied, Bool.and_eq_true] at hd <;> simp only [handler, onPublish, onPlay, hd] <;> simp_all
    simp [call, this]
  | cons m pre ih =>
    simp only [List.mem_cons, not_or] at hp
    have ih := ih hp.2
    have ha := handler_accepted h e m (fun e => hp.1 e.symm)
    simp only [List.cons_append, call]
    generalize handler h e m = q at ha
    obtain ⟨o, v⟩ := q
    cases v with
    | next =>
      dsimp only at ha ⊢
      refine ⟨?_, ih.2⟩
      rw [List.mem_append, not_or]
      exact ⟨ha, ih.1⟩
    | refuse => exact ⟨ha, by simp, by simp⟩
    | wait =>
      refine ⟨ha, by simp, ?_⟩
      intro m' rest hr
      dsimp only at hr
      injection hr with _ hr
      exact ⟨pre, hr.symm, hp.2⟩

theorem answers_gated (h : Hook) (e : Env) (hd : isDenied h e = true) (as : List (Option Nat)) (o : List Eff) (r : Res) (ho : Eff.accepted ∉ o) (hr : r ≠ .done)
    (hw : ∀ m rest, r = .waiting m rest → gated rest) : Eff.accepted ∉ (answers h e (o, r) as).1 ∧ (answers h e (o, r) as).2 ≠ .done := by
  induction as generalizing o r with
  | nil => exact ⟨ho, hr⟩
  | cons a as ih =>
    cases r with
    | done => exact absurd rfl hr
    | refused => exact ⟨ho, hr⟩
    | waiting m rest =>
      have hg := call_gated h e hd rest (hw m rest rfl)
      simp only [answers]
      have key : Eff.accepted ∉ (answer h e m rest a).1 ∧ (answer h e m rest a).2 ≠ .done ∧ ∀ m' rest', (answer h e m rest a).2 = .waiting m' rest' → gated rest' := by
        unfold answer
        split
        · split
          · exact hg
          · exact ⟨by simp, by simp, by simp⟩
        · refine ⟨?_, hg.2⟩
          simp only [List.mem_append, not_or]
          refine ⟨?_, hg.1⟩
          split <;> simp
      exact ih _ _ (by rw [List.mem_append, not_or]; exact ⟨ho, key.1⟩) key.2.1 key.2.2

/-- C66: a command that the rules of access refuse is never accepted, whatever the callbacks answer. -/
theorem C66_denied_partial (h : Hook) (e : Env) (hd : isDenied h e = true) (as : List (Option Nat)) :
    Eff.accepted ∉ (command h e as).1 ∧ (command h e as).2 ≠ .done := by
  have hg : gated (earlier h ++ .notify :: later h) := by
    cases h
    · exact ⟨[.mpegtsLive, .record, .dash, .hls, .log, .notify, .exec, .relay, .liveRecord, .live], rfl, by decide⟩
    · exact ⟨[.hlsLive, .mpegtsLive, .log, .notify, .exec, .relay, .live], rfl, by decide⟩
  have hc := call_gated h e hd _ hg
  unfold command
  dsimp only
  rw [chain_eq]
  refine answers_gated h e hd as _ _ ?_ hc.2.1 hc.2.2
  rw [List.mem_append, not_or]
  refine ⟨?_, hc.1⟩
  split <;> simp

example : isDenied .play { denied := true } = true := by decide

/-- If no handler fails the modules before the callback go on. -/
theorem earlier_done (h : Hook) (e : Env) (hf : ∀ m, e.fails m = false) : (call h e (earlier h)).2 = .done := by
  cases h
  · simp only [earlier, call, handler, onPublish, hf]
    cases e.interprocess <;> cases e.record <;> cases e.dash <;> cases e.hls <;> simp
  · simp only [earlier, call, handler, onPlay, hf]
    cases e.hlsLive <;> cases e.liveType <;> cases e.interprocess <;> simp

/-- What the modules after the callback do if nothing is wrong: the stream is joined, or a call for recording is waited for. -/
def media (h : Hook) (e : Env) : Prop := e.live = true ∧ (h = .play → e.liveType = .rtmp ∨ e.liveType = .flv)

theorem later_done (h : Hook) (e : Env) (hf : ∀ m, e.fails m = false) (hd : isDenied h e = false) (hm : media h e) (b : Option Nat) :
    ((call h e (later h)).2 = .done ∧ .joined ∈ (call h e (later h)).1 ∧ .accepted ∈ (call h e (later h)).1) ∨
    (call h e (later h)).2 = .waiting .liveRecord [.live, .access, .cmd] ∧
      (answer h e .liveRecord [.live, .access, .cmd] b).2 = .done ∧ .joined ∈ (answer h e .liveRecord [.live, .access, .cmd] b).1 ∧
      .accepted ∈ (answer h e .liveRecord [.live, .access, .cmd] b).1 := by
  obtain ⟨hl, ht⟩ := hm
  cases h
  · simp only [isDenied] at hd
    have hac : (!e.interprocess && e.denied) = false := by rw [Bool.and_comm]; exact hd
    simp only [later, call, answer, handler, onPublish, hf, hl, hac]
    cases e.second <;> cases e.interprocess <;> cases e.onRecord <;> simp
  · simp only [isDenied, Bool.and_true] at hd
    left
    simp only [later, call, handler, onPlay, hf, hl, hd]
    rcases ht rfl with h | h <;> simp [h]

/-- C66: a command that nobody refuses joins the stream and is accepted, after the answers to its calls. -/
theorem C66_complete (h : Hook) (e : Env) (hf : ∀ m, e.fails m = false) (hd : isDenied h e = false) (hm : media h e) (a b : Option Nat)
    (as : List (Option Nat)) (ha : hasCall h e = true → admits e a) :
    (command h e (a :: b :: as)).2 = .done ∧ .joined ∈ (command h e (a :: b :: as)).1 ∧ .accepted ∈ (command h e (a :: b :: as)).1 := by
  have h1 := earlier_done h e hf
  have hfin : ∀ o o' : List Eff, (.joined ∈ o' ∧ .accepted ∈ o') → ∀ as', (answers h e (o ++ o', .done) as').2 = .done ∧
      .joined ∈ (answers h e (o ++ o', .done) as').1 ∧ .accepted ∈ (answers h e (o ++ o', .done) as').1 := by
    intro o o' ho as'
    rw [answers_done h e _ _ (Or.inl rfl)]
    exact ⟨rfl, List.mem_append_right _ ho.1, List.mem_append_right _ ho.2⟩
  -- from the callback on
  have hlat : ∀ (o : List Eff) (b : Option Nat) (as : List (Option Nat)), (answers h e (o ++ (call h e (later h)).1, (call h e (later h)).2) (b :: as)).2 = .done ∧
      .joined ∈ (answers h e (o ++ (call h e (later h)).1, (call h e (later h)).2) (b :: as)).1 ∧
      .accepted ∈ (answers h e (o ++ (call h e (later h)).1, (call h e (later h)).2) (b :: as)).1 := by
    intro o b as
    rcases later_done h e hf hd hm b with ⟨hr, ho⟩ | ⟨hr, hr2, ho⟩
    · rw [hr]; exact hfin _ _ ho _
    · rw [hr]
      simp only [answers]
      rw [hr2]
      exact hfin _ _ ho _
  unfold command
  dsimp only
  rw [chain_eq, call_append]
  generalize call h e (earlier h) = q at h1
  obtain ⟨o, r⟩ := q
  dsimp only at h1
  subst h1
  dsimp only
  by_cases hc : hasCall h e = true
  · simp only [call, handler_notify h e hc, answers]
    have : answer h e .notify (later h) a = call h e (later h) := by
      unfold answer
      dsimp only
      rw [if_pos ((admits_iff e a).2 (ha hc))]
    rw [this]
    exact hlat _ b as
  · have hn := handler_notify_none h e (eq_false_of_ne_true hc)
    simp only [call, hn, List.nil_append, ← List.append_assoc]
    exact hlat _ a (b :: as)

example : (∀ m, ({} : Env).fails m = false) ∧ isDenied .play {} = false ∧ media .play {} ∧ hasCall .play {} = false ∧
    hasCall .publish { onPublish := true, onRecord := true } = true :=
  ⟨fun _ => rfl, rfl, ⟨rfl, fun _ => Or.inl rfl⟩, rfl, rfl⟩

/-! ### What is not so -/

/-- A publisher is linked to its stream, recorded and has its HLS and DASH files before its callback is answered, and although it is refused. -/
theorem C66_early_violation (a : Nat) (ha : a < 200 ∨ 300 < a) :
    command .publish { onPublish := true, record := true, hls := true, dash := true } [some a] =
      ([.linked, .mpegtsReady, .recording, .dashFiles, .hlsFiles, .logged, .asked .publish], .refused) := by
  have hp : passes { onPublish := true, record := true, hls := true, dash := true } (some a) = false := by
    simp only [passes, Bool.and_eq_false_iff, decide_eq_false_iff_not]; omega
  unfold command
  dsimp only
  rw [C66_publish_order]
  simp [call, handler, onPublish, answers, answer, hp]

/-- A player over HTTP (MPEG-TS or HLS) is a receiver before its callback is answered. -/
theorem C66_player_violation : .mpegtsJoined ∈ (command .play { onPlay := true, liveType := .mpegts } []).1 ∧
    .hlsJoined ∈ (command .play { onPlay := true, liveType := .hls, hlsLive := true } []).1 := by decide

/-- A player that the rules of access refuse has joined, was told that playing starts and was sent the cached GOP. -/
theorem C66_denied_player_violation (e : Env) (he : e = { denied := true, publisher := true }) :
    command .play e [] = ([.linked, .logged, .relayed, .joined, .started, .gop], .refused) := by subst he; decide

/-- A publisher that they refuse was told that publishing starts, pushes and programs were started. -/
theorem C66_denied_publisher_violation : command .publish { denied := true, exec := true } [] =
    ([.linked, .mpegtsReady, .logged, .executed, .relayed, .joined, .started], .refused) := by decide

/-- In general: with nothing else in the way, whoever is refused by the rules of access has joined. -/
theorem C66_denied_joined_violation (h : Hook) (e : Env) (hf : ∀ m, e.fails m = false) (hd : isDenied h e = true) (hm : media h e) (hc : hasCall h e = false)
    (hr : e.onRecord = false) : (command h e []).2 = .refused ∧ .joined ∈ (command h e []).1 := by
  have h1 := earlier_done h e hf
  have hn := handler_notify_none h e hc
  have hl : (call h e (later h)).2 = .refused ∧ .joined ∈ (call h e (later h)).1 := by
    obtain ⟨hl, ht⟩ := hm
    cases h
    · simp only [isDenied] at hd
      have hac : (!e.interprocess && e.denied) = true := by rw [Bool.and_comm]; exact hd
      simp only [later, call, handler, onPublish, hf, hl, hac, hr]
      cases e.second <;> cases e.interprocess <;> simp
    · simp only [isDenied, Bool.and_true] at hd
      simp only [later, call, handler, onPlay, hf, hl, hd]
      rcases ht rfl with h | h <;> simp [h]
  unfold command
  dsimp only
  rw [chain_eq, call_append]
  generalize call h e (earlier h) = q at h1
  obtain ⟨o, r⟩ := q
  dsimp only at h1
  subst h1
  simp only [call, hn, List.nil_append, answers]
  exact ⟨hl.1, List.mem_append_right _ (List.mem_append_right _ hl.2)⟩

example : isDenied .publish { denied := true } = true ∧ media .publish { denied := true } ∧ hasCall .publish { denied := true } = false := ⟨rfl, ⟨rfl, by simp⟩, rfl⟩

end Verif.Hook
