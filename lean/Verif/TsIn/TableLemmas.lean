import Verif.TsIn.PacketLemmas
/-
Lemmas about tables for C69 (`ReadProps`).
-/
namespace Verif.TsIn
open Verif

theorem mod4096 (a b : UInt8) : (a.toNat * 256 + b.toNat) % 4096 = a.toNat % 16 * 256 + b.toNat := by have := b.toNat_lt; omega
theorem mod8192 (a b : UInt8) : (a.toNat * 256 + b.toNat) % 8192 = a.toNat % 32 * 256 + b.toNat := by have := b.toNat_lt; omega

theorem rd_pre {n : Nat} {c : List Bytes} {x r tail : Bytes} (h : c.flatten ++ tail = x ++ r) (hx : x.length = n) :
    (rd n c = none ∧ tail ≠ []) ∨ ∃ c', rd n c = some (x, c') ∧ c'.flatten ++ tail = r := by
  by_cases hl : n ≤ c.flatten.length
  · right
    obtain ⟨c', h1, h2⟩ := rd_ok hl
    have e1 : c.flatten.take n = x := by
      have := congrArg (List.take n) h
      rwa [List.take_append_of_le_length hl, List.take_append_of_le_length (by omega), List.take_of_length_le (l := x) (by omega)] at this
    have e2 : c.flatten.drop n ++ tail = r := by
      have := congrArg (List.drop n) h
      rwa [List.drop_append_of_le_length hl, List.drop_append_of_le_length (by omega), List.drop_of_length_le (l := x) (by omega), List.nil_append] at this
    exact ⟨c', by rw [h1, e1], by rw [h2, e2]⟩
  · left
    refine ⟨rd_none.2 (by omega), ?_⟩
    rintro rfl
    have := congrArg List.length h
    rw [List.length_append, List.length_append] at this
    simp only [List.length_nil] at this
    omega

theorem rd8_pre {c : List Bytes} {a : UInt8} {r tail : Bytes} (h : c.flatten ++ tail = a :: r) :
    (rd8 c = none ∧ tail ≠ []) ∨ ∃ c', rd8 c = some (a.toNat, c') ∧ c'.flatten ++ tail = r := by
  rcases rd_pre (x := [a]) (n := 1) h rfl with ⟨h1, h2⟩ | ⟨c', h1, h2⟩
  · exact .inl ⟨by unfold rd8; rw [h1]; rfl, h2⟩
  · exact .inr ⟨c', by unfold rd8; rw [h1]; simp [beDec], h2⟩

theorem rd16_pre {c : List Bytes} {a b : UInt8} {r tail : Bytes} (h : c.flatten ++ tail = a :: b :: r) :
    (rd16 c = none ∧ tail ≠ []) ∨ ∃ c', rd16 c = some (a.toNat * 256 + b.toNat, c') ∧ c'.flatten ++ tail = r := by
  rcases rd_pre (x := [a, b]) (n := 2) h rfl with ⟨h1, h2⟩ | ⟨c', h1, h2⟩
  · exact .inl ⟨by unfold rd16; rw [h1]; rfl, h2⟩
  · exact .inr ⟨c', by unfold rd16; rw [h1]; simp [beDec], h2⟩

/-- A section that is all there is found; a part of it waits. -/
theorem section_spec {least t : Nat} {body tail : Bytes} {c : List Bytes} (h : Spec.readSection (c.flatten ++ tail) = some (t, body)) (hl : least ≤ body.length + 4) :
    (readSection least c = .again ∧ tail ≠ []) ∨ ∃ c' x, readSection least c = .full (body.length + 4, c') ∧ c'.flatten = body ++ x := by
  unfold Spec.readSection at h
  split at h
  case h_2 => cases h
  rename_i ptr r hr
  split at h
  case h_2 => cases h
  rename_i t' l1 l0 rest hd
  dsimp only at h
  split at h
  case isFalse => cases h
  rename_i hc
  obtain ⟨-, h4, h1021, hle, -⟩ := hc
  simp only [Option.some.injEq, Prod.mk.injEq] at h
  obtain ⟨-, rfl⟩ := h
  have hlen : (rest.take ((l1.toNat % 16 * 256 + l0.toNat) - 4)).length + 4 = l1.toNat % 16 * 256 + l0.toNat := by simp only [List.length_take]; omega
  rw [hlen] at hl ⊢
  have hmod := mod4096 l1 l0
  obtain ⟨len, hlv⟩ : ∃ n, l1.toNat % 16 * 256 + l0.toNat = n := ⟨_, rfl⟩
  simp only [hlv] at h4 h1021 hle hlen hl hmod ⊢
  clear hlv
  unfold readSection
  rcases rd8_pre hr with ⟨g, k⟩ | ⟨c1, g1, f1⟩
  · rw [g]; exact .inl ⟨rfl, k⟩
  rw [g1]
  dsimp only
  have hptr : ptr.toNat ≤ r.length := by
    have := congrArg List.length hd
    simp at this
    omega
  have hsp : r = (r.take ptr.toNat ++ [t']) ++ (l1 :: l0 :: rest) := by
    rw [List.append_assoc, List.singleton_append, ← hd, List.take_append_drop]
  rw [hsp] at f1
  rcases rd_pre (n := ptr.toNat + 1) f1 (by simp; omega) with ⟨g, k⟩ | ⟨c2, g2, f2⟩
  · rw [g]; exact .inl ⟨rfl, k⟩
  rw [g2]
  dsimp only
  rcases rd16_pre f2 with ⟨g, k⟩ | ⟨c3, g3, f3⟩
  · rw [g]; exact .inl ⟨rfl, k⟩
  rw [g3]
  dsimp only
  rw [hmod, if_neg (by omega), if_neg (by omega)]
  have hsr : c3.flatten ++ tail = rest.take len ++ rest.drop len := by rw [f3, List.take_append_drop]
  rcases rd_pre (n := len) hsr (by simp only [List.length_take]; omega) with ⟨g, k⟩ | ⟨c4, g4, f4⟩
  · rw [g]; exact .inl ⟨rfl, k⟩
  rw [g4]
  refine .inr ⟨c3, c3.flatten.drop (len - 4), rfl, ?_⟩
  have hle3 := (rd_some g4).1
  rw [← f3, List.take_append_of_le_length (by omega), List.take_append_drop]

theorem progs_spec (b : Bytes) (l : List (Nat × Nat)) (h : Spec.readPrograms b = some l) (c : List Bytes) (x : Bytes) (hc : c.flatten = b ++ x) :
    b.length % 4 = 0 ∧ readProgs (b.length / 4) c = some ((l.filter (·.1 ≠ 0)).map mkProg) := by
  induction b using Spec.readPrograms.induct generalizing l c with
  | case1 =>
    simp only [Spec.readPrograms, Option.some.injEq] at h
    subst h
    exact ⟨rfl, rfl⟩
  | case2 a b d e r ih =>
    simp only [Spec.readPrograms, Option.map_eq_some_iff] at h
    obtain ⟨l', h1, rfl⟩ := h
    obtain ⟨c1, g1, f1⟩ := rd16_ok (c := c) (a := a) (b := b) (r := d :: e :: (r ++ x)) (by rw [hc]; rfl)
    obtain ⟨c2, g2, f2⟩ := rd16_ok f1
    obtain ⟨k1, k2⟩ := ih l' h1 c2 f2
    refine ⟨by simp only [List.length_cons]; omega, ?_⟩
    rw [show (a :: b :: d :: e :: r).length / 4 = r.length / 4 + 1 by simp only [List.length_cons]; omega]
    simp only [readProgs, g1, g2, k2, Option.map_some]
    have hm := mod8192 d e
    rw [hm]
    by_cases h0 : a.toNat * 256 + b.toNat = 0
    · rw [if_pos h0, List.filter_cons_of_neg (by simp; omega)]
    · rw [if_neg h0, List.filter_cons_of_pos (by simp; omega)]
      rfl
  | case3 b h1 h2 =>
    unfold Spec.readPrograms at h
    split at h
    · exact absurd rfl h1
    · exact absurd rfl (h2 _ _ _ _ _)
    · cases h

theorem pat_spec {tail : Bytes} {c : List Bytes} {l : List (Nat × Nat)} (h : Spec.readPat (c.flatten ++ tail) = some l) :
    (patOf c = .again ∧ tail ≠ []) ∨ patOf c = .full (l.map mkProg) := by
  unfold Spec.readPat at h
  split at h
  case h_2 => cases h
  rename_i a0 a1 v a3 a4 body hs
  split at h
  case isFalse => cases h
  simp only [Option.map_eq_some_iff] at h
  obtain ⟨l', hp, rfl⟩ := h
  unfold patOf
  rcases section_spec (least := 9) hs (by simp) with ⟨g, k⟩ | ⟨c1, x, g1, f1⟩
  · rw [g]; exact .inl ⟨rfl, k⟩
  right
  rw [g1]
  dsimp only
  obtain ⟨c2, g2, f2⟩ := rd_ok (n := 5) (c := c1) (by rw [f1]; simp)
  rw [g2]
  dsimp only
  rw [f1] at f2
  obtain ⟨k1, k2⟩ := progs_spec body l' hp c2 x f2
  rw [show ((a0 :: a1 :: v :: a3 :: a4 :: body).length + 4 - 9) / 4 = body.length / 4 by simp only [List.length_cons]; omega, k2]

theorem streams_spec (n : Nat) (b : Bytes) (ss : List (Nat × Nat)) (h : Spec.readStreams n b = some ss) (c : List Bytes) (x : Bytes) (hc : c.flatten = b ++ x) :
    countEs b.length c = some ss.length ∧ readEss ss.length c = some (ss.map mkEs) := by
  induction n generalizing b ss c with
  | zero =>
    cases b with
    | nil =>
      simp only [Spec.readStreams, Option.some.injEq] at h
      subst h
      exact ⟨by rw [countEs]; simp, rfl⟩
    | cons a b => simp [Spec.readStreams] at h
  | succ n ih =>
    match b, h, hc with
    | [], h, hc =>
      simp only [Spec.readStreams, Option.some.injEq] at h
      subst h
      exact ⟨by rw [countEs]; simp, rfl⟩
    | t :: p1 :: p0 :: i1 :: i0 :: r, h, hc =>
      simp only [Spec.readStreams] at h
      split at h
      case isFalse => cases h
      rename_i hl
      simp only [Option.map_eq_some_iff] at h
      obtain ⟨ss', h1, rfl⟩ := h
      have hm := mod4096 i1 i0
      have hm2 := mod8192 p1 p0
      have hsum : 5 + (i1.toNat % 16 * 256 + i0.toNat) ≤ (t :: p1 :: p0 :: i1 :: i0 :: r).length := by simp only [List.length_cons]; omega
      have hlen : (t :: p1 :: p0 :: i1 :: i0 :: r).length - (5 + (i1.toNat % 16 * 256 + i0.toNat)) = (r.drop (i1.toNat % 16 * 256 + i0.toNat)).length := by
        simp only [List.length_cons, List.length_drop]; omega
      obtain ⟨li, hlv⟩ : ∃ n, i1.toNat % 16 * 256 + i0.toNat = n := ⟨_, rfl⟩
      simp only [hlv] at hl h1 hm hsum hlen
      clear hlv
      constructor
      · rw [countEs, dif_neg (by simp)]
        obtain ⟨c1, g1, f1⟩ := rd_ok (n := 3) (c := c) (by rw [hc]; simp)
        rw [g1]
        dsimp only
        rw [hc] at f1
        obtain ⟨c2, g2, f2⟩ := rd16_ok (c := c1) (a := i1) (b := i0) (r := r ++ x) f1
        rw [g2]
        dsimp only
        rw [hm]
        obtain ⟨c3, g3, f3⟩ := rd_ok (n := li) (c := c2) (by rw [f2, List.length_append]; omega)
        rw [g3]
        dsimp only
        rw [f2, List.drop_append_of_le_length hl] at f3
        rw [if_neg (by omega), hlen, (ih _ _ h1 c3 f3).1]
        rfl
      · simp only [List.length_cons, readEss]
        obtain ⟨c1, g1, f1⟩ := rd8_ok (c := c) (a := t) (r := p1 :: p0 :: i1 :: i0 :: (r ++ x)) hc
        obtain ⟨c2, g2, f2⟩ := rd16_ok f1
        obtain ⟨c3, g3, f3⟩ := rd16_ok f2
        rw [g1]; dsimp only
        rw [g2]; dsimp only
        rw [g3]; dsimp only
        rw [hm, hm2]
        obtain ⟨c4, g4, f4⟩ := rd_ok (n := li) (c := c3) (by rw [f3, List.length_append]; omega)
        rw [g4]
        dsimp only
        rw [f3, List.drop_append_of_le_length hl] at f4
        rw [(ih _ _ h1 c4 f4).2]
        rfl
    | [_], h, _ => simp [Spec.readStreams] at h
    | [_, _], h, _ => simp [Spec.readStreams] at h
    | [_, _, _], h, _ => simp [Spec.readStreams] at h
    | [_, _, _, _], h, _ => simp [Spec.readStreams] at h

theorem pmt_spec {tail : Bytes} {c : List Bytes} {q : Nat} {ss : List (Nat × Nat)} (h : Spec.readPmt (c.flatten ++ tail) = some (q, ss)) :
    (pmtOf c = .again ∧ tail ≠ []) ∨ pmtOf c = .full (q, ss.map mkEs) := by
  unfold Spec.readPmt at h
  split at h
  case h_2 => cases h
  rename_i a0 a1 v a3 a4 p1 p0 i1 i0 body hs
  dsimp only at h
  split at h
  case isFalse => cases h
  rename_i hc
  simp only [Option.map_eq_some_iff, Prod.mk.injEq] at h
  obtain ⟨ss', hp, rfl, rfl⟩ := h
  have hm := mod4096 i1 i0
  have hm2 := mod8192 p1 p0
  unfold pmtOf
  rcases section_spec (least := 13) hs (by simp only [List.length_cons]; omega) with ⟨g, k⟩ | ⟨c1, x, g1, f1⟩
  · rw [g]; exact .inl ⟨rfl, k⟩
  right
  rw [g1]
  dsimp only
  obtain ⟨c2, g2, f2⟩ := rd_ok (n := 5) (c := c1) (by rw [f1]; simp)
  rw [g2]
  dsimp only
  rw [f1] at f2
  obtain ⟨c3, g3, f3⟩ := rd16_ok (c := c2) (a := p1) (b := p0) (r := i1 :: i0 :: (body ++ x)) f2
  rw [g3]
  dsimp only
  obtain ⟨c4, g4, f4⟩ := rd16_ok f3
  rw [g4]
  dsimp only
  rw [hm, hm2]
  have hli := hc.2
  obtain ⟨li, hlv⟩ : ∃ n, i1.toNat % 16 * 256 + i0.toNat = n := ⟨_, rfl⟩
  simp only [hlv] at hli hp ⊢
  clear hlv
  obtain ⟨c5, g5, f5⟩ := rd_ok (n := li) (c := c4) (by rw [f4, List.length_append]; omega)
  rw [g5]
  dsimp only
  rw [f4, List.drop_append_of_le_length hli] at f5
  obtain ⟨k1, k2⟩ := streams_spec _ _ _ hp c5 x f5
  rw [if_neg (by simp only [List.length_cons]; omega),
    show (a0 :: a1 :: v :: a3 :: a4 :: p1 :: p0 :: i1 :: i0 :: body).length + 4 - (13 + li) = (body.drop li).length by
      simp only [List.length_cons, List.length_drop]; omega, k1]
  dsimp only
  rw [k2]

/-! ### Units of tables -/

theorem steps_pat_done (s : St) (l : List Spec.Pkt) (hl : ∀ p ∈ l, p.pid = 0) (hs : s.progs ≠ []) : steps s l = .ok s := by
  induction l with
  | nil => rfl
  | cons p l ih =>
    have : step s (hdr p) p.payload = .ok s := by
      unfold step
      rw [if_pos (show (hdr p).pid = 0 from hl p (by simp))]
      unfold readPat
      rw [if_pos hs]
    simp only [steps, this, bind_ok]
    exact ih (fun q hq => hl q (by simp [hq]))

/-- The state after the PAT. -/
def withPat (s : St) (l : List (Nat × Nat)) : St := { s with progs := l.map mkProg, bufs := [], events := s.events ++ [.pat (l.map mkProg)] }

theorem steps_pat_rest (s : St) (ps : List Spec.Pkt) (hpid : ∀ p ∈ ps, p.pid = 0) (hp : ∀ p ∈ ps, p.pusi = false) (hs : s.progs = []) (hb : s.bufs ≠ [])
    (l : List (Nat × Nat)) (hl : l ≠ []) (h : Spec.readPat (s.bufs.flatten ++ Spec.unitBytes ps) = some l) (hne : Spec.unitBytes ps ≠ []) :
    steps s ps = .ok (withPat s l) := by
  induction ps generalizing s with
  | nil => exact absurd rfl hne
  | cons p ps ih =>
    have hu : Spec.unitBytes (p :: ps) = p.payload ++ Spec.unitBytes ps := by simp [Spec.unitBytes]
    rw [hu, ← List.append_assoc] at h
    have hfl : (s.bufs ++ [p.payload]).flatten = s.bufs.flatten ++ p.payload := by simp
    rw [← hfl] at h
    have hstep : step s (hdr p) p.payload = match patOf (s.bufs ++ [p.payload]) with
        | .again => .ok { s with bufs := s.bufs ++ [p.payload] }
        | .bad => .error
        | .ub => .ub
        | .full l => .ok { s with progs := l, bufs := [], events := s.events ++ [.pat l] } := by
      unfold step
      rw [if_pos (show (hdr p).pid = 0 from hpid p (by simp))]
      unfold readPat
      rw [if_neg (by simp [hs])]
      have : appendBuf (hdr p).pusi s.bufs p.payload = s.bufs ++ [p.payload] := by simp [appendBuf, hdr, hp p (by simp), hb]
      rw [this]
      rfl
    simp only [steps, hstep]
    rcases pat_spec h with ⟨g, k⟩ | g
    · rw [g]
      simp only [bind_ok]
      exact ih { s with bufs := s.bufs ++ [p.payload] } (fun q hq => hpid q (by simp [hq])) (fun q hq => hp q (by simp [hq])) hs (by simp) h k
    · rw [g]
      simp only [bind_ok]
      exact steps_pat_done _ ps (fun q hq => hpid q (by simp [hq])) (by simpa using hl)

/-- The unit of a PAT. -/
theorem steps_pat (s : St) (p : Spec.Pkt) (ps : List Spec.Pkt) (hpid : ∀ q ∈ p :: ps, q.pid = 0) (hpp : p.pusi = true) (hp : ∀ q ∈ ps, q.pusi = false)
    (hs : s.progs = []) (l : List (Nat × Nat)) (hl : l ≠ []) (h : Spec.readPat (Spec.unitBytes (p :: ps)) = some l) :
    steps s (p :: ps) = .ok (withPat s l) := by
  have hu : Spec.unitBytes (p :: ps) = [p.payload].flatten ++ Spec.unitBytes ps := by simp [Spec.unitBytes]
  rw [hu] at h
  have hstep : step s (hdr p) p.payload = match patOf [p.payload] with
      | .again => .ok { s with bufs := [p.payload] }
      | .bad => .error
      | .ub => .ub
      | .full l => .ok { s with progs := l, bufs := [], events := s.events ++ [.pat l] } := by
    unfold step
    rw [if_pos (show (hdr p).pid = 0 from hpid p (by simp))]
    unfold readPat
    rw [if_neg (by simp [hs])]
    have : appendBuf (hdr p).pusi s.bufs p.payload = [p.payload] := by simp [appendBuf, hdr, hpp]
    rw [this]
    rfl
  simp only [steps, hstep]
  rcases pat_spec h with ⟨g, k⟩ | g
  · rw [g]
    simp only [bind_ok]
    exact steps_pat_rest { s with bufs := [p.payload] } ps (fun q hq => hpid q (by simp [hq])) hp hs (by simp) l hl h k
  · rw [g]
    simp only [bind_ok]
    exact steps_pat_done _ ps (fun q hq => hpid q (by simp [hq])) (by simpa using hl)

/-- Programs that do not know the PID. -/
def Strange (pid : Nat) (ps : List Prog) : Prop := ∀ p ∈ ps, p.pid ≠ pid ∧ ∀ e ∈ p.es, e.pid ≠ pid

theorem toEs_none (prog : Prog) (h : Header) (b : Bytes) (l : List Es) (hl : ∀ e ∈ l, e.pid ≠ h.pid) : toEs prog h b l = none := by
  induction l with
  | nil => rfl
  | cons e l ih =>
    simp only [toEs]
    rw [if_neg (fun x => hl e (by simp) x.symm), ih (fun x hx => hl x (by simp [hx]))]
    rfl

theorem toProg_skip (h : Header) (b : Bytes) (a l : List Prog) (ha : Strange h.pid a) :
    toProg h b (a ++ l) = (toProg h b l).map fun r => r.bind fun x => .ok (a ++ x.1, x.2) := by
  induction a with
  | nil =>
    simp only [List.nil_append]
    cases toProg h b l with
    | none => rfl
    | some r => cases r <;> rfl
  | cons p a ih =>
    obtain ⟨h1, h2⟩ := ha p (by simp)
    simp only [List.cons_append, toProg]
    rw [if_neg (fun x => h1 x.symm), toEs_none p h b p.es h2, ih (fun x hx => ha x (by simp [hx]))]
    cases toProg h b l with
    | none => rfl
    | some r => cases r <;> rfl

/-- A packet for the map of a program. -/
theorem step_pmt (s : St) (h : Header) (b : Bytes) (u v : List Prog) (P : Prog) (h0 : h.pid ≠ 0) (hs : s.progs = u ++ P :: v) (hu : Strange h.pid u)
    (hP : P.pid = h.pid) :
    step s h b = (readPmt P h b).bind fun x => .ok { s with progs := u ++ x.1 :: v, events := s.events ++ x.2 } := by
  unfold step
  rw [if_neg h0, hs, toProg_skip h b u (P :: v) hu]
  simp only [toProg]
  rw [if_pos hP.symm]
  cases readPmt P h b <;> rfl

/-- The program after its map. -/
def withMap (P : Prog) (q : Nat) (ss : List (Nat × Nat)) : Prog :=
  { P with pcrPid := q, es := ss.map mkEs, video := P.video || (ss.map mkEs).any (·.video), bufs := [] }

theorem steps_pmt_done (s : St) (l : List Spec.Pkt) (pid : Nat) (h0 : pid ≠ 0) (hl : ∀ p ∈ l, p.pid = pid) (u v : List Prog) (P : Prog)
    (hs : s.progs = u ++ P :: v) (hu : Strange pid u) (hP : P.pid = pid) (he : P.es ≠ []) : steps s l = .ok s := by
  induction l with
  | nil => rfl
  | cons p l ih =>
    have hh := hl p (by simp)
    have : step s (hdr p) p.payload = .ok s := by
      rw [step_pmt s (hdr p) p.payload u v P (by rw [← hh] at h0; exact h0) hs (by rw [← hh] at hu; exact hu) (by rw [hP, ← hh]; rfl)]
      unfold readPmt
      rw [if_pos he]
      simp only [bind_ok, List.append_nil, ← hs]
    simp only [steps, this, bind_ok]
    exact ih (fun q hq => hl q (by simp [hq]))

/-- What the handlers see of the program at its map. -/
def mapEvent (P : Prog) (q : Nat) (ss : List (Nat × Nat)) : List Event → Prop
  | [.pmt P'] => P'.number = P.number ∧ P'.pid = P.pid ∧ P'.pcrPid = q ∧ P'.es = ss.map mkEs
  | _ => False

theorem steps_pmt_rest (s : St) (ps : List Spec.Pkt) (pid : Nat) (h0 : pid ≠ 0) (hpid : ∀ p ∈ ps, p.pid = pid) (hp : ∀ p ∈ ps, p.pusi = false)
    (u v : List Prog) (P : Prog) (hs : s.progs = u ++ P :: v) (hu : Strange pid u) (hP : P.pid = pid) (he : P.es = []) (hb : P.bufs ≠ [])
    (q : Nat) (ss : List (Nat × Nat)) (hss : ss ≠ []) (h : Spec.readPmt (P.bufs.flatten ++ Spec.unitBytes ps) = some (q, ss)) (hne : Spec.unitBytes ps ≠ []) :
    ∃ ev, steps s ps = .ok { s with progs := u ++ withMap P q ss :: v, events := s.events ++ ev } ∧ mapEvent P q ss ev := by
  induction ps generalizing s P with
  | nil => exact absurd rfl hne
  | cons p ps ih =>
    have hh := hpid p (by simp)
    have hu' : Spec.unitBytes (p :: ps) = p.payload ++ Spec.unitBytes ps := by simp [Spec.unitBytes]
    rw [hu', ← List.append_assoc] at h
    have hfl : (P.bufs ++ [p.payload]).flatten = P.bufs.flatten ++ p.payload := by simp
    rw [← hfl] at h
    have hstep := step_pmt s (hdr p) p.payload u v P (by rw [← hh] at h0; exact h0) hs (by rw [← hh] at hu; exact hu) (by rw [hP, ← hh]; rfl)
    simp only [steps, hstep]
    unfold readPmt
    rw [if_neg (by simp [he])]
    have : appendBuf (hdr p).pusi P.bufs p.payload = P.bufs ++ [p.payload] := by simp [appendBuf, hdr, hp p (by simp), hb]
    rw [this]
    dsimp only
    rcases pmt_spec h with ⟨g, k⟩ | g
    · rw [g]
      simp only [bind_ok]
      obtain ⟨ev, k1, k2⟩ := ih { s with progs := u ++ { P with bufs := P.bufs ++ [p.payload] } :: v, events := s.events ++ [] }
        (fun q hq => hpid q (by simp [hq])) (fun q hq => hp q (by simp [hq])) { P with bufs := P.bufs ++ [p.payload] } rfl hP he (by simp) h k
      refine ⟨ev, ?_, k2⟩
      rw [k1]
      simp [withMap]
    · rw [g]
      simp only [bind_ok]
      refine ⟨[.pmt { P with pcrPid := q, es := ss.map mkEs, video := P.video || (ss.map mkEs).any (·.video), bufs := P.bufs ++ [p.payload] }], ?_, rfl, rfl, rfl, rfl⟩
      rw [steps_pmt_done _ ps pid h0 (fun q hq => hpid q (by simp [hq])) u v (withMap P q ss) rfl hu hP (by simpa [withMap] using hss)]
      rfl

theorem steps_pmt (s : St) (p : Spec.Pkt) (ps : List Spec.Pkt) (pid : Nat) (h0 : pid ≠ 0) (hpid : ∀ q ∈ p :: ps, q.pid = pid) (hpp : p.pusi = true)
    (hp : ∀ q ∈ ps, q.pusi = false) (u v : List Prog) (P : Prog) (hs : s.progs = u ++ P :: v) (hu : Strange pid u) (hP : P.pid = pid) (he : P.es = [])
    (q : Nat) (ss : List (Nat × Nat)) (hss : ss ≠ []) (h : Spec.readPmt (Spec.unitBytes (p :: ps)) = some (q, ss)) :
    ∃ ev, steps s (p :: ps) = .ok { s with progs := u ++ withMap P q ss :: v, events := s.events ++ ev } ∧ mapEvent P q ss ev := by
  have hh := hpid p (by simp)
  have hu' : Spec.unitBytes (p :: ps) = [p.payload].flatten ++ Spec.unitBytes ps := by simp [Spec.unitBytes]
  rw [hu'] at h
  have hstep := step_pmt s (hdr p) p.payload u v P (by rw [← hh] at h0; exact h0) hs (by rw [← hh] at hu; exact hu) (by rw [hP, ← hh]; rfl)
  simp only [steps, hstep]
  unfold readPmt
  rw [if_neg (by simp [he])]
  have : appendBuf (hdr p).pusi P.bufs p.payload = [p.payload] := by simp [appendBuf, hdr, hpp]
  rw [this]
  dsimp only
  rcases pmt_spec h with ⟨g, k⟩ | g
  · rw [g]
    simp only [bind_ok]
    obtain ⟨ev, k1, k2⟩ := steps_pmt_rest { s with progs := u ++ { P with bufs := [p.payload] } :: v, events := s.events ++ [] } ps pid h0
      (fun q hq => hpid q (by simp [hq])) hp u v { P with bufs := [p.payload] } rfl hu hP he (by simp) q ss hss h k
    refine ⟨ev, ?_, k2⟩
    rw [k1]
    simp [withMap]
  · rw [g]
    simp only [bind_ok]
    refine ⟨[.pmt { P with pcrPid := q, es := ss.map mkEs, video := P.video || (ss.map mkEs).any (·.video), bufs := [p.payload] }], ?_, rfl, rfl, rfl, rfl⟩
    rw [steps_pmt_done _ ps pid h0 (fun q hq => hpid q (by simp [hq])) u v (withMap P q ss) rfl hu hP (by simpa [withMap] using hss)]
    rfl

end Verif.TsIn
