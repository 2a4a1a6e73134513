import Verif.Rtmp.FlvModel
import Verif.Rtmp.FlvSpec
import Verif.Rtmp.QueueLemmas
/- Invariant of the HTTP-FLV output side. -/
namespace Verif.Flv
open Verif Verif.Queue

/-- Bytes sent for a list of frames. -/
def tagsOf (fs : List Frame) : Bytes := (fs.filter fun f => wanted f.type).flatMap fun f => (tagChain f).flatten

theorem tagsOf_append (a b : List Frame) : tagsOf (a ++ b) = tagsOf a ++ tagsOf b := by simp [tagsOf]

theorem tagsOf_no {a : List Frame} (h : ∀ f ∈ a, wanted f.type = false) : tagsOf a = [] := by
  rw [tagsOf, List.filter_eq_nil_iff.2 (by intro f hf; simp [h f hf])]; rfl

theorem tagChain_ne (f : Frame) : (tagChain f).flatten ≠ [] := by simp [tagChain]

def yes (fs : List Frame) : List Frame := fs.filter fun f => wanted f.type
def no (fs : List Frame) : List Frame := fs.filter fun f => !wanted f.type

theorem skipLoop_spec (n : Nat) (r : Ring Frame) (rel q : List Frame) (h : Holds r q) (hn : q.length + 1 ≤ n) :
    ∃ r' q1 q2, skipLoop n r rel = some (r', rel ++ q1, q2.head?) ∧ q = q1 ++ q2 ∧ Holds r' q2 ∧ r'.size = r.size ∧
      (∀ f ∈ q1, wanted f.type = false) ∧ (∀ f, q2.head? = some f → wanted f.type = true) := by
  induction n generalizing r rel q with
  | zero => omega
  | succ n ih =>
    cases q with
    | nil =>
      refine ⟨r, [], [], ?_, rfl, h, rfl, by simp, by simp⟩
      simp [skipLoop, h.empty_iff.2 rfl]
    | cons f q =>
      have hne : ¬ r.pos = r.last := by rw [h.empty_iff]; simp
      obtain ⟨hs, hp⟩ := h.pop
      simp only [skipLoop, if_neg hne, hs]
      by_cases hw : wanted f.type = true
      · rw [if_pos hw]
        exact ⟨r, [], f :: q, by simp, rfl, h, rfl, by simp, by intro g hg; simp at hg; subst hg; exact hw⟩
      · rw [if_neg hw]
        obtain ⟨r', q1, q2, e, h1, h2, h3, h4, h5⟩ := ih _ (rel ++ [f]) q hp (by simpa using hn)
        refine ⟨r', f :: q1, q2, by rw [e]; simp, by simp [h1], h2, h3, ?_, h5⟩
        intro g hg
        rcases List.mem_cons.1 hg with rfl | hg
        · simpa using hw
        · exact h4 g hg

theorem yes_append (a b : List Frame) : yes (a ++ b) = yes a ++ yes b := by simp [yes]
theorem no_append (a b : List Frame) : no (a ++ b) = no a ++ no b := by simp [no]
theorem yes_of_no {a : List Frame} (h : ∀ f ∈ a, wanted f.type = false) : yes a = [] ∧ no a = a := by
  constructor
  · exact List.filter_eq_nil_iff.2 (by intro f hf; simp [h f hf])
  · exact List.filter_eq_self.2 (by intro f hf; simp [h f hf])

theorem mergeLoop_spec (n : Nat) (s : Out) (q : List Frame) (h : Holds s.ring q) :
    ∃ s' q1 q2, mergeLoop n s = some s' ∧ q = q1 ++ q2 ∧ Holds s'.ring q2 ∧ s'.ring.size = s.ring.size ∧
      s'.held = s.held ++ yes q1 ∧ s'.released = s.released ++ no q1 ∧ s'.out = s.out ++ tagsOf q1 ∧
      s'.wire = s.wire ∧ s'.headerSent = s.headerSent ∧ s'.dead = s.dead ∧
      (1 ≤ n → yes q1 = [] → q2 = []) := by
  induction n generalizing s q with
  | zero => exact ⟨s, [], q, rfl, rfl, h, rfl, by simp [yes], by simp [no], by simp [tagsOf], rfl, rfl, rfl, by omega⟩
  | succ n ih =>
    by_cases hq : q = []
    · subst hq
      refine ⟨s, [], [], ?_, rfl, h, rfl, by simp [yes], by simp [no], by simp [tagsOf], rfl, rfl, rfl, by simp⟩
      simp [mergeLoop, h.empty_iff.2 rfl]
    · have hne : ¬ s.ring.pos = s.ring.last := by rw [h.empty_iff]; exact hq
      obtain ⟨r', q1, q2, e, h1, h2, h3, h4, h5⟩ := skipLoop_spec (s.ring.size + 1) s.ring s.released q h (by have := h.len_lt; omega)
      obtain ⟨hy, hn'⟩ := yes_of_no h4
      simp only [mergeLoop, if_neg hne, e]
      cases q2 with
      | nil =>
        rw [if_pos (h2.empty_iff.2 rfl)]
        exact ⟨_, q1, [], rfl, h1, h2, h3, by simp [hy], by simp [hn'], by simp [tagsOf_no h4], rfl, rfl, rfl, by simp⟩
      | cons f q2 =>
        rw [if_neg (by rw [h2.empty_iff]; simp)]
        have hw := h5 f rfl
        simp only [List.head?_cons]
        obtain ⟨_, hp⟩ := h2.pop
        obtain ⟨s', p1, p2, g1, g2, g3, g4, g5, g6, g7, g8, g9, g10, g11⟩ := ih
          { s with ring := { r' with pos := (r'.pos + 1) % r'.size }, released := s.released ++ q1,
                   out := s.out ++ (tagChain f).flatten, held := s.held ++ [f] } q2 hp
        have hyes : yes [f] = [f] := by simp [yes, hw]
        have hno : no [f] = [] := by simp [no, hw]
        have htags : tagsOf [f] = (tagChain f).flatten := by simp [tagsOf, hw]
        refine ⟨s', q1 ++ [f] ++ p1, p2, g1, by rw [h1, g2]; simp, g3, by rw [g4]; exact h3, ?_, ?_, ?_, g8, g9, g10, ?_⟩
        · rw [g5, yes_append, yes_append, hy, hyes]; simp
        · rw [g6, no_append, no_append, hn', hno]; simp
        · rw [g7, tagsOf_append, tagsOf_append, tagsOf_no h4, htags]; simp
        · intro _ hc
          rw [yes_append, yes_append, hy, hyes] at hc
          simp at hc

/-- The invariant: `a` are the frames of finished batches, `b` those of the current batch, `q` the queued ones. -/
structure Inv (x : Run) (a b q : List Frame) (hdr body : Bytes) : Prop where
  acc : x.accepted = a ++ b ++ q
  ring : Holds x.s.ring q
  held : x.s.held = yes b
  rel : x.s.released.Perm (a ++ no b)
  relYes : yes x.s.released = yes a
  bytes : body ++ x.s.out = tagsOf (a ++ b)
  sent : ∃ t, body = tagsOf a ++ t
  wire : x.s.wire = hdr ++ body
  noHdr : (x.s.headerSent = false ∨ x.s.dead = true) → hdr = [] ∧ body = []

theorem no_split (l : List Frame) : l.Perm (no l ++ yes l) := by
  induction l with
  | nil => exact List.Perm.refl _
  | cons f l ih =>
    by_cases h : wanted f.type = true
    · have e1 : no (f :: l) = no l := by simp [no, h]
      have e2 : yes (f :: l) = f :: yes l := by simp [yes, h]
      rw [e1, e2]
      exact ((List.perm_cons f).2 ih).trans List.perm_middle.symm
    · have e1 : no (f :: l) = f :: no l := by simp [no, h]
      have e2 : yes (f :: l) = yes l := by simp [yes, h]
      rw [e1, e2]
      exact (List.perm_cons f).2 ih

theorem yes_no (l : List Frame) : yes (no l) = [] := by
  simp [yes, no, List.filter_filter]

theorem yes_yes (l : List Frame) : yes (yes l) = yes l := by simp [yes, List.filter_filter]

theorem inv_prepare {x : Run} {a b q : List Frame} {hdr body : Bytes} (h : Inv x a b q hdr body) (merge : Nat) :
    ∃ s', prepareMerge merge x.s = some s' ∧ s'.headerSent = x.s.headerSent ∧ s'.dead = x.s.dead ∧ s'.wire = x.s.wire ∧
      ∃ a' b' q', Inv ⟨s', x.accepted⟩ a' b' q' hdr body ∧ (1 ≤ merge → s'.out = [] → q' = []) ∧ q'.length ≤ q.length ∧
        (x.s.out = [] → s'.out ≠ [] → q'.length < q.length) := by
  unfold prepareMerge
  by_cases ho : x.s.out = []
  · rw [if_neg (by simp [ho])]
    obtain ⟨s', q1, q2, g1, g2, g3, g4, g5, g6, g7, g8, g9, g10, g11⟩ := mergeLoop_spec merge
      { x.s with released := x.s.released ++ x.s.held, held := [] } q h.ring
    have g7' : s'.out = tagsOf q1 := by rw [g7]; simp [ho]
    refine ⟨s', g1, g9, g10, g8, a ++ b, q1, q2, ⟨?_, g3, ?_, ?_, ?_, ?_, ?_, ?_, ?_⟩, ?_, ?_, ?_⟩
    · show x.accepted = _
      rw [h.acc, g2]; simp
    · rw [g5]; simp
    · rw [g6]
      simp only
      refine List.Perm.append_right _ ?_
      rw [h.held]
      exact (List.Perm.append_right _ h.rel).trans (by
        rw [List.append_assoc]
        exact List.Perm.append_left _ (no_split b).symm)
    · rw [g6]
      show yes (x.s.released ++ x.s.held ++ no q1) = _
      rw [yes_append, yes_append, yes_append, yes_no, List.append_nil, h.relYes, h.held, yes_yes]
    · have := h.bytes
      rw [ho, List.append_nil] at this
      rw [g7', this, ← tagsOf_append]
    · have := h.bytes
      rw [ho, List.append_nil] at this
      exact ⟨[], by rw [this]; simp⟩
    · rw [g8]; exact h.wire
    · intro hc
      apply h.noHdr
      simpa [g9, g10] using hc
    · intro hm he
      refine g11 hm ?_
      rw [g7'] at he
      by_cases hy : yes q1 = []
      · exact hy
      · exfalso
        obtain ⟨f, l, hf⟩ := List.exists_cons_of_ne_nil hy
        have : tagsOf q1 = (yes q1).flatMap fun f => (tagChain f).flatten := rfl
        rw [this, hf] at he
        simp only [List.flatMap_cons, List.append_eq_nil_iff] at he
        exact tagChain_ne f he.1
    · rw [g2]; simp
    · intro _ hne
      have : q1 ≠ [] := by
        rintro rfl
        rw [g7'] at hne
        exact hne (by simp [tagsOf])
      have := List.length_pos_iff.2 this
      rw [g2, List.length_append]
      omega
  · rw [if_pos ho]
    exact ⟨x.s, rfl, rfl, rfl, rfl, a, b, q, h, fun _ e => absurd e ho, Nat.le_refl _, fun e => absurd e ho⟩

theorem inv_writeLoop (merge : Nat) : ∀ (ks : List Nat) {x : Run} {a b q : List Frame} {hdr body : Bytes}, Inv x a b q hdr body →
    x.s.headerSent = true → x.s.dead = false →
    ∃ s', writeLoop merge ks x.s = some s' ∧ s'.headerSent = true ∧ s'.dead = false ∧
      (∃ a' b' q' body', Inv ⟨s', x.accepted⟩ a' b' q' hdr body') ∧
      (1 ≤ merge → (x.s.out = [] → q = []) → q.length < ks.length → (∀ k ∈ ks, ∀ l, l = tagsOf x.accepted → l.length ≤ k) →
        s'.out = [] ∧ ∃ a' b' body', Inv ⟨s', x.accepted⟩ a' b' [] hdr body') := by
  intro ks
  induction ks with
  | nil => intro x a b q hdr body h h1 h2; exact ⟨x.s, rfl, h1, h2, ⟨a, b, q, body, h⟩, fun _ _ hl => by simp at hl⟩
  | cons k ks ih =>
    intro x a b q hdr body h h1 h2
    by_cases ho : x.s.out = []
    · refine ⟨x.s, by simp [writeLoop, ho], h1, h2, ⟨a, b, q, body, h⟩, ?_⟩
      intro _ hq _ _
      have := hq ho
      subst this
      exact ⟨ho, a, b, body, h⟩
    · simp only [writeLoop, if_neg ho]
      have hinv : Inv ⟨{ x.s with wire := x.s.wire ++ x.s.out.take k, out := x.s.out.drop k }, x.accepted⟩ a b q hdr
          (body ++ x.s.out.take k) := by
        refine ⟨h.acc, h.ring, h.held, h.rel, h.relYes, ?_, ?_, ?_, ?_⟩
        · show body ++ x.s.out.take k ++ x.s.out.drop k = _
          rw [List.append_assoc, List.take_append_drop]; exact h.bytes
        · obtain ⟨t, ht⟩ := h.sent
          exact ⟨t ++ x.s.out.take k, by rw [ht, List.append_assoc]⟩
        · show x.s.wire ++ _ = _
          rw [h.wire, List.append_assoc]
        · intro hc
          simp [h1, h2] at hc
      by_cases hd : x.s.out.drop k = []
      · simp only [hd, if_pos]
        obtain ⟨s', e, g1, g2, g3, a', b', q', hi, hp, hle, hlt⟩ := inv_prepare hinv merge
        rw [show (prepareMerge merge { x.s with wire := x.s.wire ++ x.s.out.take k, out := [] } : Option Out) = some s' by
          rw [← hd]; exact e]
        obtain ⟨s'', f1, f2, f3, f4, f5⟩ := ih (x := ⟨s', x.accepted⟩) hi (by rw [g1]; exact h1) (by rw [g2]; exact h2)
        refine ⟨s'', f1, f2, f3, f4, ?_⟩
        intro hm hq hlen hks
        by_cases hs : s'.out = []
        · have hq' := hp hm hs
          subst hq'
          have hss : writeLoop merge ks s' = some s' := by cases ks <;> simp [writeLoop, hs]
          have : s'' = s' := by
            have := f1.symm.trans hss
            simpa using this
          subst this
          exact ⟨hs, a', b', _, hi⟩
        · refine f5 hm (fun e => absurd e hs) ?_ (fun k hk => hks k (by simp [hk]))
          have := hlt hd hs
          simp only [List.length_cons] at hlen
          omega
      · simp only [hd, if_false]
        refine ⟨_, rfl, h1, h2, ⟨a, b, q, _, hinv⟩, ?_⟩
        intro _ _ _ hks
        exfalso
        apply hd
        rw [List.drop_eq_nil_iff]
        refine Nat.le_trans ?_ (hks k (by simp) _ rfl)
        rw [h.acc, tagsOf_append, ← h.bytes]
        simp; omega

end Verif.Flv
