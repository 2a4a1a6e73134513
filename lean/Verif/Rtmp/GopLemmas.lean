import Verif.Rtmp.GopModel
/- Invariant of the GOP cache (C34). -/
namespace Verif.Gop
open Verif

/-! ### Ring arithmetic -/

theorem mod_ne {q p i j : Nat} (h1 : i < j) (h2 : j - i < q) : (p + i) % q ≠ (p + j) % q := by
  intro h
  have hd : (p + j - (p + i)) % q = 0 := Nat.sub_mod_eq_zero_of_mod_eq h.symm
  have : p + j - (p + i) = j - i := by omega
  rw [this, Nat.mod_eq_of_lt h2] at hd
  omega

theorem count_eq {q p n : Nat} (hp : p < q) (hn : n < q) : (q + (p + n) % q - p) % q = n := by
  by_cases h : p + n < q
  · rw [Nat.mod_eq_of_lt h]
    have : q + (p + n) - p = n + q := by omega
    rw [this, Nat.add_mod_right, Nat.mod_eq_of_lt hn]
  · have e : (p + n) % q = p + n - q := by
      rw [Nat.mod_eq_sub_mod (by omega), Nat.mod_eq_of_lt (by omega)]
    rw [e]
    have : q + (p + n - q) - p = n := by omega
    rw [this, Nat.mod_eq_of_lt hn]

/-! ### Invariant -/

/-- A key frame that is not a codec header. -/
def isKey (info : Nat → Fr) (f : Nat) : Bool := (info f).key && !(info f).header

/-- The ring holds the frames `l`. -/
structure Ring (q : Nat) (cache : Nat → Option Nat) (pos last : Nat) (l : List Nat) : Prop where
  hpos : pos < q
  hlen : l.length < q
  hlast : last = (pos + l.length) % q
  hat : ∀ i (h : i < l.length), cache ((pos + i) % q) = some l[i]

/-- The references: every accepted frame taken once, given back once when it is neither in the ring nor a kept header. -/
structure Refs (acc l : List Nat) (info : Nat → Fr) (aac avc : Option Nat) (acq rel : Nat → Nat) : Prop where
  haac : ∀ f, aac = some f → f ∈ acc ∧ f ∉ l ∧ (info f).video = false
  havc : ∀ f, avc = some f → f ∈ acc ∧ f ∉ l ∧ (info f).video = true
  hacq : ∀ f, acq f = if f ∈ acc then 1 else 0
  hrel : ∀ f, rel f = if f ∈ acc ∧ f ∉ l ∧ aac ≠ some f ∧ avc ≠ some f then 1 else 0

/-- The last header of the frames `d`, audio or video. -/
def lastHdr (info : Nat → Fr) (v : Bool) (d : List Nat) : Option Nat := (d.filter fun f => (info f).header && (info f).video == v).getLast?

theorem lastHdr_snoc (info : Nat → Fr) (v : Bool) (d : List Nat) (f : Nat) :
    lastHdr info v (d ++ [f]) = if (info f).header = true ∧ (info f).video = v then some f else lastHdr info v d := by
  unfold lastHdr
  rw [List.filter_append]
  by_cases h : (info f).header = true ∧ (info f).video = v
  · rw [if_pos h, List.filter_cons_of_pos (by simp [h.1, h.2])]
    simp
  · rw [if_neg h, List.filter_cons_of_neg (by simpa using h)]
    simp

theorem lastHdr_congr {info info' : Nat → Fr} {v : Bool} {d : List Nat} (h : ∀ f ∈ d, info' f = info f) : lastHdr info' v d = lastHdr info v d := by
  unfold lastHdr
  rw [List.filter_congr (fun f hf => by rw [h f hf])]

structure Inv (c : Cfg) (s : St) (acc l : List Nat) : Prop where
  ring : Ring c.q s.cache s.pos s.last l
  suf : ∃ d, acc = d ++ l ∧ s.aac = lastHdr s.info false d ∧ s.avc = lastHdr s.info true d
  lt : ∀ f ∈ acc, f < s.n
  nodup : acc.Nodup
  keys : Linked s.next s.keyframe (l.filter (isKey s.info))
  nokey : s.keyframe = none → ∀ f ∈ acc, isKey s.info f = false
  refs : Refs acc l s.info s.aac s.avc s.acq s.rel
  /-- before the ring wraps, the slots behind are empty -/
  fresh : acc.length < c.q → s.pos + l.length = acc.length ∧ ∀ i, acc.length ≤ i → s.cache i = none

theorem Inv.mem {c : Cfg} {s : St} {acc l : List Nat} (i : Inv c s acc l) {f : Nat} (h : f ∈ l) : f ∈ acc := by
  obtain ⟨d, e, _⟩ := i.suf
  rw [e]; exact List.mem_append.2 (.inr h)

theorem Inv.nodup_l {c : Cfg} {s : St} {acc l : List Nat} (i : Inv c s acc l) : l.Nodup := by
  obtain ⟨d, e, _⟩ := i.suf
  have := i.nodup
  rw [e] at this
  exact (List.nodup_append.1 this).2.1

/-- The first frame leaves the ring. -/
theorem Ring.pop {q : Nat} {cache cache' : Nat → Option Nat} {pos last f : Nat} {l : List Nat} (r : Ring q cache pos last (f :: l))
    (h : ∀ i, i ≠ pos → cache' i = cache i) : Ring q cache' ((pos + 1) % q) last l := by
  have hq : 0 < q := by have := r.hpos; omega
  have hl := r.hlen
  simp only [List.length_cons] at hl
  refine ⟨Nat.mod_lt _ hq, by omega, ?_, fun i hi => ?_⟩
  · rw [r.hlast, Nat.mod_add_mod]
    congr 1
    simp only [List.length_cons]
    omega
  · rw [Nat.mod_add_mod]
    have e : pos + 1 + i = pos + (i + 1) := by omega
    rw [e, h]
    · exact r.hat (i + 1) (by simp; omega)
    · have := mod_ne (q := q) (p := pos) (i := 0) (j := i + 1) (by omega) (by omega)
      rw [Nat.add_zero, Nat.mod_eq_of_lt r.hpos] at this
      exact fun h => this h.symm

/-- A frame comes in at the end. -/
theorem Ring.push {q : Nat} {cache : Nat → Option Nat} {pos last : Nat} {l : List Nat} (r : Ring q cache pos last l) (f : Nat)
    (h : l.length + 1 < q) : Ring q (set cache last (some f)) pos ((last + 1) % q) (l ++ [f]) := by
  refine ⟨r.hpos, by simp; omega, ?_, fun i hi => ?_⟩
  · rw [r.hlast, Nat.mod_add_mod]
    simp only [List.length_append, List.length_cons, List.length_nil]
    congr 1
  · simp only [List.length_append, List.length_cons, List.length_nil] at hi
    by_cases e : i = l.length
    · subst e
      rw [r.hlast, set_same]
      simp
    · have hi' : i < l.length := by omega
      rw [set_ne _ _ (by rw [r.hlast]; exact mod_ne hi' (by omega)), r.hat i hi']
      simp [List.getElem_append_left hi']

theorem Ring.head {q : Nat} {cache : Nat → Option Nat} {pos last f : Nat} {l : List Nat} (r : Ring q cache pos last (f :: l)) :
    cache pos = some f ∧ pos ≠ last := by
  have h0 := r.hat 0 (by simp)
  rw [Nat.add_zero, Nat.mod_eq_of_lt r.hpos] at h0
  refine ⟨h0, ?_⟩
  have := mod_ne (q := q) (p := pos) (i := 0) (j := l.length + 1) (by omega) (by have := r.hlen; simp at this; omega)
  rw [Nat.add_zero, Nat.mod_eq_of_lt r.hpos] at this
  rw [r.hlast]; exact this

theorem Ring.nil {q : Nat} {cache : Nat → Option Nat} {pos last : Nat} (r : Ring q cache pos last []) : pos = last := by
  rw [r.hlast]; simp [Nat.mod_eq_of_lt r.hpos]

/-- A frame is given back. -/
theorem Refs.free {acc l : List Nat} {info : Nat → Fr} {aac avc : Option Nat} {acq rel : Nat → Nat} {f : Nat}
    (r : Refs acc (f :: l) info aac avc acq rel) (hm : f ∈ acc) (hn : (f :: l).Nodup) : Refs acc l info aac avc acq (set rel f (rel f + 1)) := by
  rw [List.nodup_cons] at hn
  refine ⟨fun x h => ?_, fun x h => ?_, r.hacq, fun x => ?_⟩
  · obtain ⟨h1, h2, h3⟩ := r.haac x h
    exact ⟨h1, fun h => h2 (List.mem_cons_of_mem _ h), h3⟩
  · obtain ⟨h1, h2, h3⟩ := r.havc x h
    exact ⟨h1, fun h => h2 (List.mem_cons_of_mem _ h), h3⟩
  · by_cases e : x = f
    · subst e
      rw [set_same, r.hrel, if_neg (fun h => h.2.1 (by simp)), if_pos]
      exact ⟨hm, hn.1, fun h => (r.haac x h).2.1 (by simp), fun h => (r.havc x h).2.1 (by simp)⟩
    · rw [set_ne _ _ e, r.hrel]
      simp only [List.mem_cons, e, false_or]

/-- A header leaves the ring and is kept. -/
theorem Refs.keep {acc l : List Nat} {s : St} {f : Nat} (r : Refs acc (f :: l) s.info s.aac s.avc s.acq s.rel) (hm : f ∈ acc) (hn : (f :: l).Nodup) :
    Refs acc l s.info (resetAvheader s f).aac (resetAvheader s f).avc s.acq (resetAvheader s f).rel ∧
    (resetAvheader s f).info = s.info ∧ (resetAvheader s f).acq = s.acq := by
  rw [List.nodup_cons] at hn
  unfold resetAvheader
  by_cases hv : (s.info f).video = true
  · rw [if_pos hv]
    refine ⟨⟨fun x h => ?_, fun x h => ?_, r.hacq, fun x => ?_⟩, ?_⟩
    · have h : s.aac = some x := by cases e : s.avc <;> rw [e] at h <;> exact h
      obtain ⟨h1, h2, h3⟩ := r.haac x h
      exact ⟨h1, fun h => h2 (List.mem_cons_of_mem _ h), h3⟩
    · have h : some f = some x := h
      cases h; exact ⟨hm, hn.1, hv⟩
    · have ea : (freeOpt s s.avc).aac = s.aac := by cases e : s.avc <;> rfl
      show (freeOpt s s.avc).rel x = if x ∈ acc ∧ x ∉ l ∧ (freeOpt s s.avc).aac ≠ some x ∧ some f ≠ some x then 1 else 0
      rw [ea]
      by_cases ef : x = f
      · subst ef
        rw [if_neg (fun h => h.2.2.2 rfl)]
        have h0 : s.rel x = 0 := by rw [r.hrel, if_neg (fun h => h.2.1 (by simp))]
        cases e : s.avc with
        | none => exact h0
        | some g =>
          have : x ≠ g := fun e' => (r.havc g e).2.1 (by simp [e'])
          show set s.rel g (s.rel g + 1) x = 0
          rw [set_ne _ _ this]; exact h0
      · have hne : ¬ some f = some x := fun e => by cases e; exact ef rfl
        cases e : s.avc with
        | none =>
          show s.rel x = _
          rw [r.hrel, e]
          simp only [List.mem_cons, ef, false_or]
          simp [hne]
        | some g =>
          show set s.rel g (s.rel g + 1) x = _
          by_cases eg : x = g
          · subst eg
            obtain ⟨g1, g2, g3⟩ := r.havc x e
            rw [set_same, r.hrel, if_neg (fun h => h.2.2.2 e), if_pos]
            refine ⟨g1, fun h => g2 (List.mem_cons_of_mem _ h), fun h => ?_, hne⟩
            have := (r.haac x h).2.2
            rw [g3] at this; cases this
          · have : ¬ some g = some x := fun e => by cases e; exact eg rfl
            rw [set_ne _ _ eg, r.hrel, e]
            simp only [List.mem_cons, ef, false_or]
            simp [hne, this]
    · cases e : s.avc <;> exact ⟨rfl, rfl⟩
  · rw [if_neg hv]
    have hv : (s.info f).video = false := by simpa using hv
    refine ⟨⟨fun x h => ?_, fun x h => ?_, r.hacq, fun x => ?_⟩, ?_⟩
    · have h : some f = some x := h
      cases h; exact ⟨hm, hn.1, hv⟩
    · have h : s.avc = some x := by cases e : s.aac <;> rw [e] at h <;> exact h
      obtain ⟨h1, h2, h3⟩ := r.havc x h
      exact ⟨h1, fun h => h2 (List.mem_cons_of_mem _ h), h3⟩
    · have ea : (freeOpt s s.aac).avc = s.avc := by cases e : s.aac <;> rfl
      show (freeOpt s s.aac).rel x = if x ∈ acc ∧ x ∉ l ∧ some f ≠ some x ∧ (freeOpt s s.aac).avc ≠ some x then 1 else 0
      rw [ea]
      by_cases ef : x = f
      · subst ef
        rw [if_neg (fun h => h.2.2.1 rfl)]
        have h0 : s.rel x = 0 := by rw [r.hrel, if_neg (fun h => h.2.1 (by simp))]
        cases e : s.aac with
        | none => exact h0
        | some g =>
          have : x ≠ g := fun e' => (r.haac g e).2.1 (by simp [e'])
          show set s.rel g (s.rel g + 1) x = 0
          rw [set_ne _ _ this]; exact h0
      · have hne : ¬ some f = some x := fun e => by cases e; exact ef rfl
        cases e : s.aac with
        | none =>
          show s.rel x = _
          rw [r.hrel, e]
          simp only [List.mem_cons, ef, false_or]
          simp [hne]
        | some g =>
          show set s.rel g (s.rel g + 1) x = _
          by_cases eg : x = g
          · subst eg
            obtain ⟨g1, g2, g3⟩ := r.haac x e
            rw [set_same, r.hrel, if_neg (fun h => h.2.2.1 e), if_pos]
            refine ⟨g1, fun h => g2 (List.mem_cons_of_mem _ h), hne, fun h => ?_⟩
            have := (r.havc x h).2.2
            rw [g3] at this; cases this
          · have : ¬ some g = some x := fun e => by cases e; exact eg rfl
            rw [set_ne _ _ eg, r.hrel, e]
            simp only [List.mem_cons, ef, false_or]
            simp [hne, this]
    · cases e : s.aac <;> exact ⟨rfl, rfl⟩

theorem resetAvheader_same (s : St) (f : Nat) : (resetAvheader s f).cache = s.cache ∧ (resetAvheader s f).pos = s.pos ∧ (resetAvheader s f).last = s.last ∧
    (resetAvheader s f).keyframe = s.keyframe ∧ (resetAvheader s f).next = s.next ∧ (resetAvheader s f).n = s.n ∧ (resetAvheader s f).info = s.info ∧
    (resetAvheader s f).acq = s.acq := by
  unfold resetAvheader
  split
  · cases s.avc <;> exact ⟨rfl, rfl, rfl, rfl, rfl, rfl, rfl, rfl⟩
  · cases s.aac <;> exact ⟨rfl, rfl, rfl, rfl, rfl, rfl, rfl, rfl⟩

/-- Suffix, empty slots: what stays when the first frame leaves. -/
theorem Inv.rest {c : Cfg} {s : St} {acc l : List Nat} {f : Nat} (i : Inv c s acc (f :: l)) :
    f ∈ acc ∧ (f :: l).Nodup := ⟨i.mem (by simp), i.nodup_l⟩

theorem resetAvheader_kept (s : St) (f : Nat) : (resetAvheader s f).aac = (if (s.info f).video = false then some f else s.aac) ∧
    (resetAvheader s f).avc = (if (s.info f).video = true then some f else s.avc) := by
  unfold resetAvheader
  cases e : (s.info f).video
  · cases e1 : s.aac <;> exact ⟨rfl, by simp [freeOpt, free]⟩
  · cases e1 : s.avc <;> exact ⟨by simp [freeOpt, free], rfl⟩

theorem Inv.sufHeader {c : Cfg} {s : St} {acc l : List Nat} {f : Nat} (i : Inv c s acc (f :: l)) (hh : (s.info f).header = true) :
    ∃ d, acc = d ++ l ∧ (resetAvheader s f).aac = lastHdr s.info false d ∧ (resetAvheader s f).avc = lastHdr s.info true d := by
  obtain ⟨d, e, e1, e2⟩ := i.suf
  obtain ⟨k1, k2⟩ := resetAvheader_kept s f
  refine ⟨d ++ [f], by rw [e]; simp, ?_, ?_⟩
  · rw [k1, lastHdr_snoc, e1]; simp only [hh, true_and]
  · rw [k2, lastHdr_snoc, e2]; simp only [hh, true_and]

theorem Inv.sufPlain {c : Cfg} {s : St} {acc l : List Nat} {f : Nat} (i : Inv c s acc (f :: l)) (hh : ¬ (s.info f).header = true) :
    ∃ d, acc = d ++ l ∧ s.aac = lastHdr s.info false d ∧ s.avc = lastHdr s.info true d := by
  obtain ⟨d, e, e1, e2⟩ := i.suf
  refine ⟨d ++ [f], by rw [e]; simp, ?_, ?_⟩
  · rw [lastHdr_snoc, e1, if_neg (fun h => hh h.1)]
  · rw [lastHdr_snoc, e2, if_neg (fun h => hh h.1)]

theorem Inv.fresh_pop {c : Cfg} {s : St} {acc l : List Nat} {f : Nat} (i : Inv c s acc (f :: l)) {cache' : Nat → Option Nat}
    (h : ∀ j, cache' j = s.cache j ∨ cache' j = none) (ha : acc.length < c.q) :
    (s.pos + 1) % c.q + l.length = acc.length ∧ ∀ j, acc.length ≤ j → cache' j = none := by
  obtain ⟨h1, h2⟩ := i.fresh ha
  simp only [List.length_cons] at h1
  refine ⟨?_, fun j hj => (h j).elim (fun e => e.trans (h2 j hj)) id⟩
  rw [Nat.mod_eq_of_lt (by omega)]
  omega

/-- A header at the front. -/
theorem Inv.popHeader {c : Cfg} {s : St} {acc l : List Nat} {f : Nat} (i : Inv c s acc (f :: l)) (hh : (s.info f).header = true) :
    Inv c { resetAvheader s f with pos := nxt c s.pos } acc l := by
  obtain ⟨h2, h3⟩ := i.rest
  obtain ⟨e1, e2, e3, e4, e5, e6, e7, e8⟩ := resetAvheader_same s f
  obtain ⟨k1, _, _⟩ := i.refs.keep h2 h3
  refine ⟨?_, by dsimp only; rw [e7]; exact i.sufHeader hh, ?_, i.nodup, ?_, ?_, ?_, fun ha => ?_⟩
  · dsimp only; rw [e1, e3]; exact i.ring.pop (fun _ _ => rfl)
  · dsimp only; rw [e6]; exact i.lt
  · dsimp only
    rw [e4, e5, e7]
    have := i.keys
    rw [List.filter_cons_of_neg (by simp [isKey, hh])] at this
    exact this
  · dsimp only; rw [e4, e7]; exact i.nokey
  · dsimp only; rw [e7, e8]; exact k1
  · dsimp only; rw [e1]; exact i.fresh_pop (fun j => .inl rfl) ha

/-- A frame at the front is dropped; `kf` is where the list of key frames starts then. -/
theorem Inv.popDrop {c : Cfg} {s : St} {acc l : List Nat} {f : Nat} (i : Inv c s acc (f :: l)) (hk : s.keyframe ≠ none → s.next f ≠ none ∨ isKey s.info f = false) :
    Inv c { drop s s.pos f with pos := nxt c s.pos, keyframe := if isKey s.info f then s.next f else s.keyframe } acc l := by
  obtain ⟨h2, h3⟩ := i.rest
  obtain ⟨e1, e2, e3, e4, e5, e6, e7, e8⟩ := resetAvheader_same s f
  obtain ⟨k1, _, _⟩ := i.refs.keep h2 h3
  have kf := i.refs.free h2 h3
  have hkeys : Linked s.next (if isKey s.info f then s.next f else s.keyframe) (l.filter (isKey s.info)) := by
    have := i.keys
    by_cases hi : isKey s.info f = true
    · rw [List.filter_cons_of_pos hi] at this
      rw [if_pos hi]; exact this.2
    · rw [List.filter_cons_of_neg hi] at this
      rw [if_neg hi]; exact this
  have hno : (if isKey s.info f then s.next f else s.keyframe) = none → ∀ x ∈ acc, isKey s.info x = false := by
    by_cases hi : isKey s.info f = true
    · rw [if_pos hi]
      intro hn
      have hkf : s.keyframe ≠ none := fun e => by have := i.nokey e f h2; rw [hi] at this; cases this
      rcases hk hkf with h | h
      · exact absurd hn h
      · rw [hi] at h; cases h
    · rw [if_neg hi]; exact i.nokey
  unfold drop
  by_cases hh : (s.info f).header = true
  · simp only [hh, if_true]
    refine ⟨?_, by dsimp only; rw [e7]; exact i.sufHeader hh, ?_, i.nodup, ?_, ?_, ?_, fun ha => ?_⟩
    · dsimp only; rw [e1, e3]; exact i.ring.pop (fun j hj => set_ne _ _ hj)
    · dsimp only; rw [e6]; exact i.lt
    · dsimp only; rw [e5, e7]; exact hkeys
    · dsimp only; rw [e7]; exact hno
    · dsimp only; rw [e7, e8]; exact k1
    · dsimp only; rw [e1]
      exact i.fresh_pop (fun j => by by_cases e : j = s.pos; exact .inr (by rw [e, set_same]); exact .inl (set_ne _ _ e)) ha
  · simp only [hh]
    refine ⟨i.ring.pop (fun j hj => set_ne _ _ hj), i.sufPlain hh, i.lt, i.nodup, hkeys, hno, kf, fun ha => ?_⟩
    exact i.fresh_pop (fun j => by by_cases e : j = s.pos; exact .inr (by rw [e]; exact set_same _ _ _); exact .inl (set_ne _ _ e)) ha

theorem strip_spec {c : Cfg} {acc : List Nat} : ∀ {l : List Nat} {s : St} {k : Nat}, Inv c s acc l → l.length < k →
    ∃ s', strip c k s = some s' ∧ Inv c s' acc (l.dropWhile fun f => (s.info f).header) ∧ s'.info = s.info ∧ s'.keyframe = s.keyframe ∧
      s'.next = s.next ∧ s'.last = s.last ∧ s'.cache = s.cache ∧ s'.n = s.n
  | _, _, 0, _, hk => absurd hk (Nat.not_lt_zero _)
  | [], s, k + 1, i, _ => by
    refine ⟨s, ?_, i, rfl, rfl, rfl, rfl, rfl, rfl⟩
    unfold strip
    rw [if_pos i.ring.nil]
  | f :: l, s, k + 1, i, hk => by
    obtain ⟨h1, h2⟩ := i.ring.head
    obtain ⟨e1, e2, e3, e4, e5, e6, e7, e8⟩ := resetAvheader_same s f
    unfold strip
    rw [if_neg h2, h1]
    dsimp only
    by_cases hh : (s.info f).header = true
    · rw [if_pos hh]
      obtain ⟨s', g1, g2, g3, g4, g5, g6, g7, g8⟩ := strip_spec (i.popHeader hh) (k := k) (by simp at hk; omega)
      refine ⟨s', g1, ?_, by rw [g3]; exact e7, by rw [g4]; exact e4, by rw [g5]; exact e5, by rw [g6]; exact e3, by rw [g7]; exact e1, by rw [g8]; exact e6⟩
      rw [List.dropWhile_cons_of_pos (p := fun f => (s.info f).header) hh]
      dsimp only at g2
      rw [e7] at g2
      exact g2
    · rw [if_neg hh]
      refine ⟨s, rfl, ?_, rfl, rfl, rfl, rfl, rfl, rfl⟩
      rw [List.dropWhile_cons_of_neg (p := fun f => (s.info f).header) hh]
      exact i

theorem drop_same (s : St) (p f : Nat) : (drop s p f).info = s.info ∧ (drop s p f).next = s.next ∧ (drop s p f).last = s.last ∧ (drop s p f).n = s.n ∧
    (drop s p f).keyframe = s.keyframe ∧ (drop s p f).cache = set s.cache p none ∧ (drop s p f).pos = s.pos := by
  obtain ⟨e1, e2, e3, e4, e5, e6, e7, e8⟩ := resetAvheader_same s f
  unfold drop
  split
  · dsimp only; rw [e1]; exact ⟨e7, e5, e3, e6, e4, rfl, e2⟩
  · exact ⟨rfl, rfl, rfl, rfl, rfl, rfl, rfl⟩

/-- The loop that drops frames up to the second key frame. -/
theorem trim_spec {c : Cfg} {acc l2 : List Nat} {target : Nat} : ∀ {l1 : List Nat} {s : St} {kf : Option Nat} {p k : Nat},
    Inv c { s with pos := p, keyframe := kf } acc (l1 ++ target :: l2) → isKey s.info target = true → target ∉ l1 → l1.length < k →
    ∃ s', trim c target k s p = some s' ∧ Inv c s' acc (target :: l2) ∧ s'.info = s.info ∧ s'.n = s.n
  | _, _, _, _, 0, _, _, _, hk => absurd hk (Nat.not_lt_zero _)
  | [], s, kf, p, k + 1, i, ht, _, _ => by
    obtain ⟨h1, h2⟩ := i.ring.head
    have h1 : s.cache p = some target := h1
    unfold trim
    rw [h1]
    dsimp only
    rw [if_pos rfl]
    refine ⟨_, rfl, ?_, rfl, rfl⟩
    have hkf : kf = some target := by
      have := i.keys
      rw [List.nil_append, List.filter_cons_of_pos (by exact ht)] at this
      exact this.1
    rw [hkf] at i
    exact i
  | f :: l1, s, kf, p, k + 1, i, ht, hn, hk => by
    rw [List.cons_append] at i
    obtain ⟨h1, h2⟩ := i.ring.head
    have h1 : s.cache p = some f := h1
    simp only [List.mem_cons, not_or] at hn
    unfold trim
    rw [h1]
    dsimp only
    rw [if_neg (fun e => hn.1 e.symm)]
    have hpop := i.popDrop (fun _ => by
      cases hi : isKey s.info f with
      | false => exact .inr rfl
      | true =>
        left
        have hl := i.keys
        dsimp only at hl ⊢
        rw [List.filter_cons_of_pos hi] at hl
        have h3 := hl.2
        intro e
        rw [e] at h3
        have hm : target ∈ (l1 ++ target :: l2).filter (isKey s.info) := by simp [ht]
        cases hf : (l1 ++ target :: l2).filter (isKey s.info) with
        | nil => rw [hf] at hm; cases hm
        | cons a b => rw [hf] at h3; cases h3.1)
    obtain ⟨d1, d2, d3, d4, d5, d6, d7⟩ := drop_same s p f
    have ed : drop { s with pos := p, keyframe := kf } p f = { drop s p f with pos := p, keyframe := kf } := by
      unfold drop resetAvheader free freeOpt
      dsimp only
      split
      · split
        · cases s.avc <;> rfl
        · cases s.aac <;> rfl
      · rfl
    dsimp only at hpop
    rw [ed] at hpop
    obtain ⟨s', g1, g2, g3, g4⟩ := trim_spec (l1 := l1) (s := drop s p f) (p := nxt c p) (k := k) hpop (by rw [d1]; exact ht) hn.2 (by simp at hk; omega)
    exact ⟨s', g1, g2, by rw [g3, d1], by rw [g4, d4]⟩

/-! ### A new frame -/

theorem Inv.new {c : Cfg} {s : St} {acc l : List Nat} (i : Inv c s acc l) (fr : Fr) : Inv c (newFrame s fr) acc l := by
  have hi : ∀ f ∈ acc, (newFrame s fr).info f = s.info f := fun f hf => set_ne _ _ (by have := i.lt f hf; omega)
  have hk : ∀ f ∈ acc, isKey (newFrame s fr).info f = isKey s.info f := fun f hf => by unfold isKey; rw [hi f hf]
  refine ⟨i.ring, ?_, fun f hf => Nat.lt_succ_of_lt (i.lt f hf), i.nodup, ?_, fun h f hf => by rw [hk f hf]; exact i.nokey h f hf, ?_, i.fresh⟩
  · obtain ⟨d, e, e1, e2⟩ := i.suf
    refine ⟨d, e, ?_, ?_⟩
    · rw [lastHdr_congr (fun f hf => hi f (by rw [e]; simp [hf]))]; exact e1
    · rw [lastHdr_congr (fun f hf => hi f (by rw [e]; simp [hf]))]; exact e2
  · rw [List.filter_congr (fun f hf => hk f (i.mem hf))]
    refine i.keys.congr (fun a ha => set_ne _ _ ?_)
    have := i.lt a (i.mem (List.mem_filter.1 ha).1)
    omega
  · refine ⟨fun f h => ?_, fun f h => ?_, i.refs.hacq, i.refs.hrel⟩
    · obtain ⟨h1, h2, h3⟩ := i.refs.haac f h
      exact ⟨h1, h2, by rw [hi f h1]; exact h3⟩
    · obtain ⟨h1, h2, h3⟩ := i.refs.havc f h
      exact ⟨h1, h2, by rw [hi f h1]; exact h3⟩

/-- The frame of number `f` (not accepted so far) is put in; `s'` is `s` with the key frame list as after `addKey`. -/
theorem Inv.push {c : Cfg} {s : St} {acc l : List Nat} {f : Nat} (i : Inv c s acc l) (hf : f ∉ acc) (hn : f < s.n) (hl : l.length + 1 < c.q)
    {next' : Nat → Option Nat} {kf : Option Nat} (hk : Linked next' kf ((l ++ [f]).filter (isKey s.info)))
    (hno : kf = none → s.keyframe = none ∧ isKey s.info f = false) :
    Inv c (push c { s with next := next', keyframe := kf } f) (acc ++ [f]) (l ++ [f]) := by
  refine ⟨i.ring.push f hl, ?_, fun x hx => ?_, ?_, hk, fun h x hx => ?_, ⟨fun x h => ?_, fun x h => ?_, fun x => ?_, fun x => ?_⟩, fun ha => ?_⟩
  · obtain ⟨d, e, e1, e2⟩ := i.suf
    exact ⟨d, by rw [e]; simp, e1, e2⟩
  · rcases List.mem_append.1 hx with h | h
    · exact i.lt x h
    · rw [List.mem_singleton.1 h]; exact hn
  · refine List.nodup_append.2 ⟨i.nodup, by simp, fun a ha b hb e => ?_⟩
    rw [List.mem_singleton.1 hb] at e
    exact hf (e ▸ ha)
  · obtain ⟨h1, h2⟩ := hno h
    rcases List.mem_append.1 hx with h | h
    · exact i.nokey h1 x h
    · rw [List.mem_singleton.1 h]; exact h2
  · obtain ⟨h1, h2, h3⟩ := i.refs.haac x h
    exact ⟨by simp [h1], by simp only [List.mem_append, List.mem_singleton, not_or]; exact ⟨h2, fun e => hf (e ▸ h1)⟩, h3⟩
  · obtain ⟨h1, h2, h3⟩ := i.refs.havc x h
    exact ⟨by simp [h1], by simp only [List.mem_append, List.mem_singleton, not_or]; exact ⟨h2, fun e => hf (e ▸ h1)⟩, h3⟩
  · show set s.acq f (s.acq f + 1) x = _
    by_cases e : x = f
    · subst e; rw [set_same, i.refs.hacq, if_neg hf]; simp
    · rw [set_ne _ _ e, i.refs.hacq]; simp [e]
  · show s.rel x = if x ∈ acc ++ [f] ∧ x ∉ l ++ [f] ∧ s.aac ≠ some x ∧ s.avc ≠ some x then 1 else 0
    rw [i.refs.hrel]
    by_cases e : x = f
    · subst e; simp [hf]
    · simp [e]
  · simp only [List.length_append, List.length_cons, List.length_nil] at ha ⊢
    obtain ⟨h1, h2⟩ := i.fresh (by omega)
    refine ⟨by show s.pos + _ = _; omega, fun j hj => ?_⟩
    show set s.cache s.last (some f) j = none
    rw [set_ne, h2 j (by omega)]
    rw [i.ring.hlast, h1, Nat.mod_eq_of_lt (by omega)]
    omega

theorem addKey_spec {c : Cfg} {s : St} {acc l : List Nat} {f : Nat} (i : Inv c s acc l) (hf : f ∉ acc) (hx : s.next f = none)
    (hk : isKey s.info f = true) (hlen : l.length < s.n + 2) :
    ∃ next' kf, addKey s f = some { s with next := next', keyframe := kf } ∧ Linked next' kf ((l ++ [f]).filter (isKey s.info)) ∧ kf ≠ none := by
  have hnd : (l.filter (isKey s.info)).Nodup := List.Pairwise.filter _ i.nodup_l
  have hnf : f ∉ l.filter (isKey s.info) := fun h => hf (i.mem (List.mem_filter.1 h).1)
  have hfl : (l.filter (isKey s.info)).length ≤ l.length := List.length_filter_le _ _
  have e : searchLink s.next (fun _ => false) (s.n + 2) none s.keyframe = some (lastOr none (l.filter (isKey s.info)), none) := by
    rcases searchLink_spec (p := fun _ => false) (pr := none) (k := s.n + 2) i.keys (by omega) with ⟨_, _, _, _, _, h, _⟩ | ⟨_, h⟩
    · cases h
    · exact h
  refine ⟨_, _, by unfold addKey; rw [e], ?_, ?_⟩
  · rw [List.filter_append, List.filter_cons_of_pos hk]
    refine i.keys.append hnd hnf ?_ (fun _ _ => rfl)
    rw [setNext_ne]
    · exact hx
    · intro h
      rcases lastOr_mem _ _ _ h with h | h
      · cases h
      · exact hnf h
  · cases h : l.filter (isKey s.info) with
    | nil => exact fun h => by cases h
    | cons a b =>
      have h1 := i.keys
      rw [h] at h1
      intro h2
      have : setHead s.keyframe (lastOr none (a :: b)) (some f) = s.keyframe := by
        have : ∀ (b : List Nat) (a : Nat), ∃ x, lastOr (some a) b = some x := by
          intro b
          induction b with
          | nil => exact fun a => ⟨a, rfl⟩
          | cons x b ih => exact fun a => ih x
        obtain ⟨x, hx⟩ := this b a
        show setHead s.keyframe (lastOr (some a) b) (some f) = _
        rw [hx]; rfl
      rw [this, h1.1] at h2
      cases h2

end Verif.Gop
