import Verif.Live.GopSendModel
/- What a turn does to the queue of a player (C62). -/
namespace Verif.GopSend
open Verif Verif.Gop

/-- A turn: messages are added to the log, and to the queue; in low latency mode the queue may be thrown away. -/
structure Ext (k : Conf) (p p' : Player) : Prop where
  hfull : p.full ≤ p'.full
  hsent : p'.sent = p.sent
  hlog : ∃ l, p'.log = p.log ++ l ∧ p'.lost ++ p'.queue = p.lost ++ p.queue ++ l
  hlow : k.low = false → p'.lost = p.lost
  hlen : p.queue.length ≤ k.pq - 1 → p'.queue.length ≤ k.pq - 1

variable {k : Conf} {b b' : Pub} {p p' p'' : Player} {r : Bool}

theorem Ext.of (h1 : p'.full = p.full) (h2 : p'.sent = p.sent) (h3 : p'.log = p.log) (h4 : p'.lost = p.lost) (h5 : p'.queue = p.queue) : Ext k p p' :=
  ⟨by omega, h2, ⟨[], by rw [h3, List.append_nil], by rw [h4, h5, List.append_nil]⟩, fun _ => h4, fun h => by rw [h5]; exact h⟩

theorem Ext.refl (p : Player) : Ext k p p := .of rfl rfl rfl rfl rfl

theorem Ext.trans (h1 : Ext k p p') (h2 : Ext k p' p'') : Ext k p p'' := by
  obtain ⟨a1, a2, ⟨l, a3, a4⟩, a5, a6⟩ := h1
  obtain ⟨b1, b2, ⟨m, b3, b4⟩, b5, b6⟩ := h2
  exact ⟨by omega, b2.trans a2, ⟨l ++ m, by rw [b3, a3, List.append_assoc], by rw [b4, a4, List.append_assoc _ l m]⟩, fun h => (b5 h).trans (a5 h), fun h => b6 (a6 h)⟩

theorem Ext.pre {q : Player} (h : Ext k q p') (h1 : q.full = p.full) (h2 : q.sent = p.sent) (h3 : q.log = p.log) (h4 : q.lost = p.lost) (h5 : q.queue = p.queue) : Ext k p p' :=
  Ext.trans (.of h1 h2 h3 h4 h5) h

theorem restamp_ext (it : Item) : (restamp k b p it).2.full = p.full ∧ (restamp k b p it).2.sent = p.sent ∧ (restamp k b p it).2.log = p.log ∧
    (restamp k b p it).2.lost = p.lost ∧ (restamp k b p it).2.queue = p.queue := by
  unfold restamp
  split
  · exact ⟨rfl, rfl, rfl, rfl, rfl⟩
  · split <;> exact ⟨rfl, rfl, rfl, rfl, rfl⟩

theorem noteHeader_ext (it : Item) : (noteHeader b p it).full = p.full ∧ (noteHeader b p it).sent = p.sent ∧ (noteHeader b p it).log = p.log ∧
    (noteHeader b p it).lost = p.lost ∧ (noteHeader b p it).queue = p.queue := by
  cases it with
  | md m => exact ⟨rfl, rfl, rfl, rfl, rfl⟩
  | av f =>
    unfold noteHeader
    dsimp only
    split
    · split <;> exact ⟨rfl, rfl, rfl, rfl, rfl⟩
    · exact ⟨rfl, rfl, rfl, rfl, rfl⟩

theorem link_ext {it : Item} (h : link k b p it = some (b', p', r)) : Ext k p p' := by
  obtain ⟨a1, a2, a3, a4, a5⟩ := restamp_ext (k := k) (b := b) (p := p) it
  unfold link at h
  split at h
  · cases h
  · dsimp only at h
    split at h
    · cases h
      exact ⟨by show p.full ≤ (restamp k b p it).2.full + 1; omega, a2, ⟨[], by show (restamp k b p it).2.log = _; rw [a3, List.append_nil],
        by show (restamp k b p it).2.lost ++ (restamp k b p it).2.queue = _; rw [a4, a5, List.append_nil]⟩, fun _ => a4,
        fun h => by show (restamp k b p it).2.queue.length ≤ _; rw [a5]; exact h⟩
    · rename_i hlen
      obtain ⟨c1, c2, c3, c4, c5⟩ := noteHeader_ext (b := b) (p := (restamp k b p it).2) it
      cases h
      refine ⟨by rw [c1, a1]; exact Nat.le_refl _, by rw [c2, a2], ⟨[it], ?_, ?_⟩, fun _ => by rw [c4, a4], fun _ => ?_⟩
      · show (noteHeader b (restamp k b p it).2 it).log ++ [it] = _
        rw [c3, a3]
      · show (noteHeader b (restamp k b p it).2 it).lost ++ ((noteHeader b (restamp k b p it).2 it).queue ++ [it]) = _
        rw [c4, a4, c5, a5, List.append_assoc]
      · show ((noteHeader b (restamp k b p it).2 it).queue ++ [it]).length ≤ _
        rw [c5, a5, List.length_append, List.length_singleton]
        rw [a5] at hlen
        omega

theorem linkOpt_ext {o : Option Item} (h : linkOpt k b p o = some (b', p', r)) : Ext k p p' := by
  cases o with
  | none => cases h; exact Ext.refl _
  | some it => exact link_ext h

theorem linkNew_ext {a l : Option Nat} (h : linkNew k b p a l = some (b', p', r)) : Ext k p p' := by
  unfold linkNew at h
  split at h
  · cases h; exact Ext.refl _
  · exact linkOpt_ext h

theorem sendMeta_ext (h : sendMeta k b p = some (b', p', r)) : Ext k p p' := by
  unfold sendMeta at h
  split at h
  · cases h; exact Ext.refl _
  · split at h
    · cases h
    · rename_i e; cases h; exact linkOpt_ext e
    · rename_i e; cases h; exact (linkOpt_ext e).trans (.of rfl rfl rfl rfl rfl)

theorem burst_ext : ∀ {n : Nat} {b : Pub} {p : Player} {pos : Nat}, burst k n b p pos = some (b', p') → Ext k p p'
  | 0, _, _, _, h => by cases h
  | n + 1, b, p, pos, h => by
    unfold burst at h
    split at h
    · cases h; exact .of rfl rfl rfl rfl rfl
    · split at h
      · cases h; exact .of rfl rfl rfl rfl rfl
      · split at h
        · cases h; exact .of rfl rfl rfl rfl rfl
        · split at h
          · cases h
          · rename_i e; cases h; exact (link_ext e).trans (.of rfl rfl rfl rfl rfl)
          · rename_i e; exact (link_ext e).trans (burst_ext h)

theorem sendFirst_ext (h : sendFirst k b p = some (b', p')) : Ext k p p' := by
  unfold sendFirst at h
  dsimp only at h
  have e0 : Ext k p { p with pos := b.st.pos } := .of rfl rfl rfl rfl rfl
  split at h
  · cases h; exact e0
  · split at h
    · cases h
    · rename_i e; cases h; exact e0.trans (linkOpt_ext e)
    · rename_i e
      split at h
      · cases h
      · rename_i e'; cases h; exact e0.trans ((linkOpt_ext e).trans (linkOpt_ext e'))
      · rename_i e'
        have e2 := burst_ext h
        exact e0.trans ((linkOpt_ext e).trans ((linkOpt_ext e').trans (Ext.pre e2 rfl rfl rfl rfl rfl)))

theorem sendRest_ext (h : sendRest k b p = some (b', p')) : Ext k p p' := by
  unfold sendRest at h
  split at h
  · have e2 := burst_ext h
    exact Ext.pre e2 rfl rfl rfl rfl rfl
  · exact burst_ext h

theorem sendOne_ext (h : sendOne k b p = some (b', p')) : Ext k p p' := by
  unfold sendOne at h
  split at h
  · cases h
  · rename_i e; cases h; exact linkOpt_ext e
  · rename_i e; cases h; exact (linkOpt_ext e).trans (.of rfl rfl rfl rfl rfl)

theorem sendHeaders_ext {a v : Option Nat} {pos : Nat} (h : sendHeaders k b p a v pos = some (b', p')) : Ext k p p' := by
  unfold sendHeaders at h
  split at h
  · cases h
  · rename_i e; cases h; exact linkNew_ext e
  · rename_i e
    split at h
    · cases h
    · rename_i e'; cases h; exact (linkNew_ext e).trans (linkNew_ext e')
    · rename_i e'
      have e2 := sendOne_ext h
      exact (linkNew_ext e).trans ((linkNew_ext e').trans (Ext.pre e2 rfl rfl rfl rfl rfl))

theorem sendNext_ext (h : sendNext k b p = some (b', p')) : Ext k p p' := by
  unfold sendNext at h
  dsimp only at h
  split at h
  · cases h
  · split at h
    · split at h
      · rename_i hl
        have e2 := sendHeaders_ext h
        refine Ext.trans ?_ e2
        exact ⟨Nat.le_refl _, rfl, ⟨[], (List.append_nil _).symm, rfl⟩, fun e => absurd (hl.1.symm.trans e) (by decide), fun _ => Nat.zero_le _⟩
      · exact sendOne_ext h
    · split at h
      · exact sendHeaders_ext h
      · exact sendOne_ext h

theorem gopSend_ext (h : gopSend k b p = some (b', p')) : Ext k p p' := by
  unfold gopSend at h
  split at h
  · split at h
    · cases h
    · rename_i e; cases h; exact sendMeta_ext e
    · rename_i e; exact (sendMeta_ext e).trans (sendNext_ext h)
  · split at h
    · split at h
      · cases h
      · rename_i e; cases h; exact sendMeta_ext e
      · rename_i e; cases h; exact (sendMeta_ext e).trans (.of rfl rfl rfl rfl rfl)
    · split at h
      · exact sendFirst_ext h
      · exact sendRest_ext h

theorem fan_ext : ∀ {is : List Nat} {b : Pub} {pl pl' : Nat → Player}, fan k is b pl = some (b', pl') → ∀ j, Ext k (pl j) (pl' j)
  | [], _, _, _, h, _ => by cases h; exact Ext.refl _
  | i :: is, b, pl, pl', h, j => by
    unfold fan at h
    split at h
    · cases h
    · rename_i b1 p1 e
      refine Ext.trans ?_ (fan_ext h j)
      by_cases ej : j = i
      · subst ej; rw [set_same]; exact gopSend_ext e
      · rw [set_ne _ _ ej]; exact Ext.refl _

/-- A step of the world. -/
structure Kept (k : Conf) (p : Player) : Prop where
  hperm : (p.sent ++ (p.lost ++ p.queue)).Perm p.log
  hlow : k.low = false → p.lost = [] ∧ p.sent ++ p.queue = p.log
  hlen : p.queue.length ≤ k.pq - 1

theorem Kept.ext (h : Kept k p) (e : Ext k p p') : Kept k p' := by
  obtain ⟨a1, a2, ⟨l, a3, a4⟩, a5, a6⟩ := e
  refine ⟨?_, fun hl => ?_, a6 h.hlen⟩
  · rw [a2, a3, a4, ← List.append_assoc]
    exact h.hperm.append_right l
  · obtain ⟨b1, b2⟩ := h.hlow hl
    have a5 := a5 hl
    rw [a5, b1, List.nil_append, List.nil_append] at a4
    exact ⟨a5.trans b1, by rw [a2, a4, a3, ← List.append_assoc, b2]⟩

theorem Kept.drain (h : Kept k p) (n : Nat) : Kept k (drainPl p n) := by
  refine ⟨?_, fun hl => ?_, ?_⟩
  · refine List.Perm.trans ?_ h.hperm
    show ((p.sent ++ p.queue.take n) ++ (p.lost ++ p.queue.drop n)).Perm _
    rw [List.append_assoc]
    refine List.Perm.append_left _ ?_
    have : p.lost ++ p.queue = p.lost ++ (p.queue.take n ++ p.queue.drop n) := by rw [List.take_append_drop]
    rw [this, ← List.append_assoc, ← List.append_assoc]
    exact List.Perm.append_right _ List.perm_append_comm
  · obtain ⟨b1, b2⟩ := h.hlow hl
    refine ⟨b1, ?_⟩
    show (p.sent ++ p.queue.take n) ++ p.queue.drop n = p.log
    rw [List.append_assoc, List.take_append_drop]; exact b2
  · show (p.queue.drop n).length ≤ _
    rw [List.length_drop]
    have := h.hlen
    omega

/-- Every step is turns and sending, for every player. -/
theorem step_ext {w w' : World} {o : Op} (h : step k w o = some w') (j : Nat) : Ext k (w.pl j) (w'.pl j) ∨ ∃ n, w'.pl j = drainPl (w.pl j) n := by
  cases o with
  | pub fr t =>
    unfold step at h
    dsimp only at h
    split at h
    · cases h
    · split at h
      · cases h
      · rename_i e; cases h; exact .inl (fan_ext e j)
  | data t => cases h; exact .inl (Ext.refl _)
  | join i =>
    unfold step at h
    dsimp only at h
    split at h
    · cases h; exact .inl (Ext.refl _)
    · split at h
      · cases h; exact .inl (Ext.refl _)
      · split at h
        · cases h
        · rename_i e; cases h
          left
          dsimp only
          by_cases ej : j = i
          · subst ej; rw [set_same]; exact gopSend_ext e
          · rw [set_ne _ _ ej]; exact Ext.refl _
  | pause i => cases h; exact .inl (Ext.refl _)
  | resume i =>
    unfold step at h
    dsimp only at h
    split at h <;> (cases h; exact .inl (Ext.refl _))
  | drain i n =>
    cases h
    dsimp only
    by_cases ej : j = i
    · subst ej; rw [set_same]; exact .inr ⟨n, rfl⟩
    · rw [set_ne _ _ ej]; exact .inl (Ext.refl _)

theorem step_full {w w' : World} {o : Op} (h : step k w o = some w') (j : Nat) : (w.pl j).full ≤ (w'.pl j).full := by
  rcases step_ext h j with e | ⟨n, e⟩
  · exact e.hfull
  · rw [e]; exact Nat.le_refl _

theorem run_full : ∀ {os : List Op} {w w' : World}, run k w os = some w' → ∀ j, (w.pl j).full ≤ (w'.pl j).full
  | [], _, _, h, _ => by cases h; exact Nat.le_refl _
  | o :: os, w, w', h, j => by
    unfold run at h
    split at h
    · cases h
    · rename_i e
      exact Nat.le_trans (step_full e j) (run_full h j)

theorem run_kept : ∀ {os : List Op} {w w' : World}, (∀ j, Kept k (w.pl j)) → run k w os = some w' → ∀ j, Kept k (w'.pl j)
  | [], _, _, h, e, j => by cases e; exact h j
  | o :: os, w, w', h, e, j => by
    unfold run at e
    split at e
    · cases e
    · rename_i e1
      refine run_kept (fun i => ?_) e j
      rcases step_ext e1 i with e2 | ⟨n, e2⟩
      · exact (h i).ext e2
      · rw [e2]; exact (h i).drain n

end Verif.GopSend
