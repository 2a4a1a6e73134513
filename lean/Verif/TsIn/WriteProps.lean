import Verif.TsIn.WriteContent
import Verif.TsIn.ReadProps
/-
C70: the transport streams that are written.
-/
namespace Verif.TsIn
open Verif

/-! ### Packets that are written can be read -/

theorem exact_adaptation {b : Bytes} {x : Bool × Option Nat} (h : Spec.exactAdaptation b = some x) : Spec.readAdaptation b = some x := by
  match b with
  | [] => exact h
  | fl :: r =>
    simp only [Spec.exactAdaptation] at h
    split at h
    · rename_i g
      split at h
      · cases h
        rcases g with rfl | rfl <;> simp [Spec.readAdaptation]
      · cases h
    · split at h
      · rename_i g
        match r, h with
        | b0 :: b1 :: b2 :: b3 :: b4 :: b5 :: s, h =>
          dsimp only at h
          split at h
          · rw [Spec.readAdaptation]
            have ht : (b0 :: b1 :: b2 :: b3 :: b4 :: b5 :: s).take 6 = [b0, b1, b2, b3, b4, b5] := by simp
            rcases g with rfl | rfl
            · rw [if_pos (by decide), ht]
              rw [Option.map_eq_some_iff] at h ⊢
              obtain ⟨v, h1, h2⟩ := h
              exact ⟨v, h1, by rw [← h2]; rfl⟩
            · rw [if_pos (by decide), ht]
              rw [Option.map_eq_some_iff] at h ⊢
              obtain ⟨v, h1, h2⟩ := h
              exact ⟨v, h1, by rw [← h2]; rfl⟩
          · cases h
      · cases h

theorem exact_pkt {b : Bytes} {p : Spec.Pkt} (h : Spec.exactPkt b = some p) : Spec.readPkt b = some p := by
  match b, h with
  | s :: a :: q :: c :: rest, h =>
    simp only [Spec.exactPkt] at h
    split at h
    · rename_i g
      simp only [Spec.readPkt]
      rw [if_pos ⟨g.1, g.2.1, g.2.2.1, g.2.2.2.2⟩]
      split at h
      · rw [if_pos (by omega)]
        exact h
      · split at h
        · rename_i g2
          rw [if_neg (by omega)]
          match rest, h with
          | l :: r, h =>
            dsimp only at h ⊢
            split at h
            · rw [if_pos (.inl ⟨by omega, by assumption⟩)]
              rw [Option.map_eq_some_iff] at h ⊢
              obtain ⟨af, h1, h2⟩ := h
              exact ⟨af, exact_adaptation h1, h2⟩
            · cases h
        · cases h
    · cases h

theorem exact_all {bs : List Bytes} {ps : List Spec.Pkt} (h : Spec.exactAll bs = some ps) : Spec.readAll bs = some ps := by
  induction bs generalizing ps with
  | nil => exact h
  | cons b bs ih =>
    simp only [Spec.exactAll, Option.bind_eq_some_iff, Option.map_eq_some_iff] at h
    obtain ⟨p, h1, l, h2, rfl⟩ := h
    simp [Spec.readAll, exact_pkt h1, ih h2]

theorem exact_append {as bs : List Bytes} {ps qs : List Spec.Pkt} (h : Spec.exactAll as = some ps) (g : Spec.exactAll bs = some qs) :
    Spec.exactAll (as ++ bs) = some (ps ++ qs) := by
  induction as generalizing ps with
  | nil => cases h; exact g
  | cons b as ih =>
    simp only [Spec.exactAll, Option.bind_eq_some_iff, Option.map_eq_some_iff] at h
    obtain ⟨p, h1, l, h2, rfl⟩ := h
    simp [Spec.exactAll, h1, ih h2]

theorem units_rest (ps rest : List Spec.Pkt) (h : ∀ q ∈ ps, q.pusi = false) : Spec.units (ps ++ rest) = (ps ++ (Spec.units rest).1, (Spec.units rest).2) := by
  induction ps with
  | nil => rfl
  | cons p ps ih =>
    simp only [List.cons_append, Spec.units]
    rw [ih (fun q hq => h q (by simp [hq])), if_neg (by simp [h p (by simp)])]

theorem units_one {pid cc : Nat} {rai : Bool} {pcr : Option Nat} {u : List Spec.Pkt} (h : Spec.OneUnit pid cc rai pcr u) (rest : List Spec.Pkt) (hr : (Spec.units rest).1 = []) :
    Spec.units (u ++ rest) = ([], u :: (Spec.units rest).2) := by
  match u, h with
  | p :: ps, ⟨h1, h2, h3, h4, h5, h6⟩ =>
    simp only [List.cons_append, Spec.units]
    rw [units_rest ps rest (fun q hq => (h4 q hq).1), if_pos h1, hr]
    simp

theorem oneUnit_pid {pid cc : Nat} {rai : Bool} {pcr : Option Nat} {u : List Spec.Pkt} (h : Spec.OneUnit pid cc rai pcr u) : ∀ q ∈ u, q.pid = pid := by
  match u, h with
  | p :: ps, ⟨h1, h2, h3, h4, h5, h6⟩ => exact h5

theorem oneUnit_cc {pid cc : Nat} {rai : Bool} {pcr : Option Nat} {u : List Spec.Pkt} (h : Spec.OneUnit pid cc rai pcr u) :
    u.map (·.cc) = (List.range u.length).map fun i => (cc + i) % 16 := by
  match u, h with
  | p :: ps, ⟨h1, h2, h3, h4, h5, h6⟩ => exact h6

theorem oneUnit_unit {pid cc : Nat} {rai : Bool} {pcr : Option Nat} {u : List Spec.Pkt} (h : Spec.OneUnit pid cc rai pcr u) (e : Spec.Pes)
    (g : Spec.readPes (Spec.unitBytes u) = some e) : Spec.readUnit u = some (e.bounded, ⟨rai, e.sid, e.stamps, e.data⟩) := by
  match u, h with
  | p :: ps, ⟨h1, h2, h3, h4, h5, h6⟩ => simp only [Spec.readUnit, g, Option.map_some, h2]

/-! ### What is written -/

/-- Data for which the length of the PES packet need not be given: it does not fit, or there is none. -/
def Long (d : Bytes) : Prop := 0xffff < d.length + 13 ∨ d = []

/-- A PES packet of any stream with any data is written, in packets of the stream that are exact: the first starts it, has the random access indicator of the
unit and the clock if this is the stream for the clock; counters go on from the last unit and are left for the next; the bytes are a PES packet with
the times and the data. A chain may have no buffer, the last must not be empty. -/
theorem C70_pes (P : Prog) (e : Es) (bufs : List Bytes) (hb : bufs.getLast? ≠ some []) (hpid : e.pid < 8192) (hs : e.sid < 256) (hc : e.cont < 16) (hp : e.pts < 2 ^ 33)
    (hd : e.dts < 2 ^ 33) (hq : P.pcrPid = e.pid → P.pcr < 2 ^ 33 * 300) :
    ∃ out ps, (∀ n, 19 + bufs.flatten.length ≤ n → writePes n P e bufs = some (out, (e.cont + ps.length) % 16)) ∧ Spec.exactAll out = some ps ∧
      Spec.OneUnit e.pid e.cont e.rand (if P.pcrPid = e.pid then some P.pcr else none) ps ∧
      ∃ x, Spec.readPes (Spec.unitBytes ps) = some x ∧ x.sid = e.sid ∧ x.stamps = (if e.sid ∈ Spec.bare then none else some (e.pts, e.dts)) ∧ x.data = bufs.flatten ∧
        (x.bounded = false → Long bufs.flatten) := by
  have ho : (optData e).length ≤ 13 := by
    rw [optData_bare]
    split
    · simp
    · split <;> simp [stamp]
  have hl : (pesData e bufs.flatten.length).length ≤ 19 ∧ pesData e bufs.flatten.length ≠ [] := by
    unfold pesData
    dsimp only
    constructor
    · rw [List.length_append, List.length_append]
      split <;> simp <;> omega
    · simp
  have hends : Ends (pesData e bufs.flatten.length :: bufs) := by
    cases hg : bufs.getLast? with
    | none =>
      rw [List.getLast?_eq_none_iff] at hg
      subst hg
      exact ⟨_, rfl, hl.2⟩
    | some b =>
      refine ⟨b, ?_, fun hb0 => hb (by rw [hg, hb0])⟩
      cases bufs with
      | nil => cases hg
      | cons x y => rw [List.getLast?_cons_cons]; exact hg
  have key := rounds_stuff _ { pid := e.pid, rand := e.rand, cont := e.cont, stuff := true, pcr := if P.pcrPid = e.pid then some P.pcr else none } true
    (pesData e bufs.flatten.length :: bufs) (Nat.le_refl _) rfl hends hpid hc (by
      intro v hv
      dsimp only at hv
      split at hv
      · cases hv; exact hq (by assumption)
      · cases hv)
  obtain ⟨out, ps, k1, k2, k3, k4⟩ := key
  refine ⟨out, ps, ?_, k2, ?_, ?_⟩
  · intro n hn
    unfold writePes packetize
    exact k1 n (by rw [List.flatten_cons, List.length_append]; omega)
  · match ps, k4 with
    | p :: ps, h => exact h
  · rw [k3, List.flatten_cons]
    refine ⟨_, pes_read e bufs.flatten hs hp hd, rfl, rfl, rfl, ?_⟩
    intro hx
    simp only [boundedOf, decide_eq_false_iff_not] at hx
    by_cases h0 : bufs.flatten = []
    · exact .inr h0
    · have := List.length_pos_iff.2 h0
      exact .inl (by omega)

/-- If and only if the last buffer is not empty does it end; else it writes packets for ever. -/
theorem C70_ends (P : Prog) (e : Es) (bufs : List Bytes) (hpid : e.pid < 8192) (hs : e.sid < 256) (hc : e.cont < 16) (hp : e.pts < 2 ^ 33)
    (hd : e.dts < 2 ^ 33) (hq : P.pcrPid = e.pid → P.pcr < 2 ^ 33 * 300) : (∃ n r, writePes n P e bufs = some r) ↔ bufs.getLast? ≠ some [] := by
  constructor
  · rintro ⟨n, r, h⟩ g
    unfold writePes packetize at h
    rw [rounds_hollow n _ true _ rfl] at h
    · cases h
    · unfold Hollow
      cases bufs with
      | nil => cases g
      | cons x y => rw [List.getLast?_cons_cons]; exact g
  · intro g
    obtain ⟨out, ps, k1, -⟩ := C70_pes P e bufs g hpid hs hc hp hd hq
    exact ⟨_, _, k1 _ (Nat.le_refl _)⟩

/-- The programs are told by a PAT, in exact packets of PID 0 counted from 0. -/
theorem C70_pat (progs : List Prog) (h : ∀ p ∈ progs, p.number < 65536 ∧ p.number ≠ 0 ∧ p.pid < 8192) (hl : progs.length ≤ 253) :
    ∃ out ps, (∀ n, 1025 ≤ n → writePat n progs = some (out, ps.length % 16)) ∧ Spec.exactAll out = some ps ∧ Spec.OneUnit 0 0 false none ps ∧
      Spec.readPat (Spec.unitBytes ps) = some (progs.map fun p => (p.number, p.pid)) := by
  have hbody : ([0, 0, 0x01, 0, 0] ++ progs.flatMap progData : Bytes).length = 5 + progs.length * 4 := by rw [List.length_append, progs_length]; rfl
  obtain ⟨d, hdd⟩ : ∃ d, sectionData 0 (9 + progs.length * 4) ([0, 0, 0x01, 0, 0] ++ progs.flatMap progData) = d := ⟨_, rfl⟩
  have hdl : d.length = 13 + progs.length * 4 := by
    rw [← hdd]
    unfold sectionData
    dsimp only
    rw [List.length_append, List.length_cons, List.length_append, hbody]
    simp [crcBytes]
    omega
  have key := rounds_table _ { pid := 0 } true [d] (Nat.le_refl _) rfl rfl rfl ⟨d, rfl, by intro h0; rw [h0] at hdl; simp at hdl; omega⟩ (by decide) (by decide)
  obtain ⟨out, ps, k, k1, k2, k3, k4⟩ := key
  refine ⟨out, ps, ?_, k2, ?_, ?_⟩
  · intro n hn
    unfold writePat packetize
    rw [hdd, k1 n (by simp [hdl]; omega)]
    simp
  · match ps, k4 with
    | p :: ps, h => exact h
  · have hsec := section_read 0 (9 + progs.length * 4) ([0, 0, 0x01, 0, 0] ++ progs.flatMap progData) (List.replicate k 0xff) (by decide) (by rw [hbody]; omega) (by omega)
    rw [hdd] at hsec
    unfold Spec.readPat
    rw [k3, show [d].flatten = d by simp, hsec]
    simp only [List.cons_append, List.nil_append]
    rw [programs_read progs (fun p hp => ⟨(h p hp).1, (h p hp).2.2⟩)]
    simp
    intro p hp
    exact (h p hp).2.1

/-- The streams of a program are told by a map, in exact packets counted from 0. -/
theorem C70_pmt (P : Prog) (hpid : P.pid < 8192) (hc : P.pcrPid < 8192) (hnum : P.number < 65536) (h : ∀ e ∈ P.es, e.type < 256 ∧ e.pid < 8192) (hl : P.es.length ≤ 201) :
    ∃ out ps, (∀ n, 1025 ≤ n → writePmt n P = some (out, ps.length % 16)) ∧ Spec.exactAll out = some ps ∧ Spec.OneUnit P.pid 0 false none ps ∧
      Spec.readPmt (Spec.unitBytes ps) = some (P.pcrPid, P.es.map fun e => (e.type, e.pid)) ∧
      ∃ a b r, Spec.readSection (Spec.unitBytes ps) = some (2, a :: b :: r) ∧ a.toNat * 256 + b.toNat = P.number := by
  have hbody : ([UInt8.ofNat (P.number / 256), UInt8.ofNat P.number, 0x01, 0, 0, UInt8.ofNat (P.pcrPid / 256), UInt8.ofNat P.pcrPid, 0, 0] ++ P.es.flatMap esData : Bytes).length =
      9 + 5 * P.es.length := by rw [List.length_append, streams_length]; rfl
  obtain ⟨d, hdd⟩ : ∃ d, sectionData 2 (13 + 5 * P.es.length) ([UInt8.ofNat (P.number / 256), UInt8.ofNat P.number, 0x01, 0, 0, UInt8.ofNat (P.pcrPid / 256),
    UInt8.ofNat P.pcrPid, 0, 0] ++ P.es.flatMap esData) = d := ⟨_, rfl⟩
  have hdl : d.length = 17 + 5 * P.es.length := by
    rw [← hdd]
    unfold sectionData
    dsimp only
    rw [List.length_append, List.length_cons, List.length_append, hbody]
    simp [crcBytes]
    omega
  have key := rounds_table _ { pid := P.pid } true [d] (Nat.le_refl _) rfl rfl rfl ⟨d, rfl, by intro h0; rw [h0] at hdl; simp at hdl; omega⟩ hpid (by simp)
  obtain ⟨out, ps, k, k1, k2, k3, k4⟩ := key
  have hsec := section_read 2 (13 + 5 * P.es.length) ([UInt8.ofNat (P.number / 256), UInt8.ofNat P.number, 0x01, 0, 0, UInt8.ofNat (P.pcrPid / 256),
    UInt8.ofNat P.pcrPid, 0, 0] ++ P.es.flatMap esData) (List.replicate k 0xff) (by decide) (by rw [hbody]; omega) (by omega)
  rw [hdd, show d ++ List.replicate k 0xff = Spec.unitBytes ps by rw [k3]; simp] at hsec
  refine ⟨out, ps, ?_, k2, ?_, ?_, ⟨_, _, _, hsec, two_bytes _ hnum⟩⟩
  · intro n hn
    unfold writePmt packetize
    rw [hdd, k1 n (by simp [hdl]; omega)]
    simp
  · match ps, k4 with
    | p :: ps, h => exact h
  · unfold Spec.readPmt
    rw [hsec]
    simp only [List.cons_append, List.nil_append]
    rw [show (0 : UInt8).toNat % 16 * 256 + (0 : UInt8).toNat = 0 from rfl, if_pos ⟨rfl, by omega⟩, List.drop_zero,
      streams_read P.es h _ (by rw [streams_length]; omega), pid_bytes _ hc]
    rfl

/-! ### Many units -/

/-- A unit that fits: fields in range, and the last buffer of the chain is not empty. -/
def Fits (u : Prog × Es × List Bytes) : Prop :=
  u.2.1.pid < 8192 ∧ u.2.1.sid < 256 ∧ u.2.1.pts < 2 ^ 33 ∧ u.2.1.dts < 2 ^ 33 ∧ (u.1.pcrPid = u.2.1.pid → u.1.pcr < 2 ^ 33 * 300) ∧ u.2.2.getLast? ≠ some []

instance (u : Prog × Es × List Bytes) : Decidable (Fits u) := by unfold Fits; infer_instance

/-- What is to be read of a unit. -/
def unitOf (u : Prog × Es × List Bytes) : Spec.Au :=
  ⟨u.2.1.rand, u.2.1.sid, if u.2.1.sid ∈ Spec.bare then none else some (u.2.1.pts, u.2.1.dts), u.2.2.flatten⟩

theorem range_add (m k a : Nat) : ((List.range m).map fun i => (a + i) % 16) ++ ((List.range k).map fun i => ((a + m) % 16 + i) % 16) =
    (List.range (m + k)).map fun i => (a + i) % 16 := by
  rw [List.range_add, List.map_append, List.map_map]
  congr 1
  apply List.map_congr_left
  intro i _
  simp only [Function.comp]
  omega

/-- Units of any streams in any order are written as exact packets; on each PID there are just its units, and the counters of its packets go up by one each,
from the value before. -/
theorem C70_units (us : List (Prog × Es × List Bytes)) (h : ∀ u ∈ us, Fits u) (k : Nat → Nat) (hk : ∀ q, k q < 16) :
    ∃ N out k' ps, (∀ n, N ≤ n → writeEach n k us = some (out, k')) ∧ (∀ q, k' q < 16) ∧ Spec.exactAll out = some ps ∧ (∀ q ∈ ps, ∃ u ∈ us, q.pid = u.2.1.pid) ∧ ∀ pid,
      (ps.filter (·.pid == pid)).map (·.cc) = ((List.range (ps.filter (·.pid == pid)).length).map fun i => (k pid + i) % 16) ∧
      (Spec.units (ps.filter (·.pid == pid))).1 = [] ∧
      ∃ rs, Spec.readUnits (Spec.units (ps.filter (·.pid == pid))).2 = some rs ∧ rs.map (·.2) = (us.filter (·.2.1.pid == pid)).map unitOf ∧
        ∀ r ∈ rs, r.1 = false → Long r.2.data := by
  induction us generalizing k with
  | nil => exact ⟨0, [], k, [], fun _ _ => rfl, hk, rfl, (fun q hq => by cases hq), fun pid => ⟨rfl, rfl, [], rfl, rfl, fun r hr => by cases hr⟩⟩
  | cons u us ih =>
    obtain ⟨P, e, b⟩ := u
    obtain ⟨f1, f2, f3, f4, f5, f6⟩ := h (P, e, b) (by simp)
    dsimp only at f1 f2 f3 f4 f5 f6
    obtain ⟨out1, ps1, a1, a2, a3, x, a4, a5, a6, a7, a8⟩ := C70_pes P { e with cont := k e.pid } b f6 f1 f2 (hk _) f3 f4 f5
    dsimp only at a1 a3 a5 a6 a8
    obtain ⟨N, out2, k', ps2, b1, bk, b2, b0, b3⟩ := ih (fun u hu => h u (by simp [hu])) (fun q => if q = e.pid then (k e.pid + ps1.length) % 16 else k q) (by
      intro q
      split
      · omega
      · exact hk q)
    refine ⟨max N (19 + b.flatten.length), out1 ++ out2, k', ps1 ++ ps2, ?_, bk, exact_append a2 b2, ?_, ?_⟩
    · intro n hn
      simp only [writeEach]
      rw [a1 n (by omega)]
      simp only [Option.bind_some]
      rw [b1 n (by omega)]
      rfl
    · intro q hq
      rcases List.mem_append.1 hq with hq | hq
      · exact ⟨(P, e, b), by simp, oneUnit_pid a3 q hq⟩
      · obtain ⟨u, hu, h2⟩ := b0 q hq
        exact ⟨u, by simp [hu], h2⟩
    · intro pid
      obtain ⟨c1, c2, rs, c3, c4, c5⟩ := b3 pid
      rw [List.filter_append]
      by_cases hp : pid = e.pid
      · subst hp
        have hf : ps1.filter (·.pid == e.pid) = ps1 := by
          rw [List.filter_eq_self]
          intro q hq
          simp [oneUnit_pid a3 q hq]
        rw [hf, units_one a3 _ c2]
        refine ⟨?_, rfl, (x.bounded, ⟨e.rand, x.sid, x.stamps, x.data⟩) :: rs, ?_, ?_, ?_⟩
        · rw [List.map_append, oneUnit_cc a3, c1, List.length_append]
          simp only [if_true]
          exact range_add _ _ _
        · simp only [Spec.readUnits]
          rw [oneUnit_unit a3 x a4, c3]
          rfl
        · rw [List.map_cons, c4, List.filter_cons_of_pos (by simp), List.map_cons]
          simp only [unitOf, a5, a6, a7]
        · intro r hr hr1
          rcases List.mem_cons.1 hr with rfl | hr
          · dsimp only at hr1 ⊢
            rw [a7]
            exact a8 hr1
          · exact c5 r hr hr1
      · have hf : ps1.filter (·.pid == pid) = [] := by
          rw [List.filter_eq_nil_iff]
          intro q hq
          simp only [oneUnit_pid a3 q hq, beq_iff_eq]
          exact fun g => hp g.symm
        rw [hf, List.nil_append]
        simp only [if_neg hp] at c1
        refine ⟨c1, c2, rs, c3, ?_, c5⟩
        rw [c4, List.filter_cons_of_neg (by simp; exact fun g => hp g.symm)]

/-- What is read of the units of a stream: all, but the last may be kept back if its length is not given; padding is left out. -/
def Heard (l w : List Spec.Au) : Prop :=
  w = l.filter (·.sid ≠ 0xbe) ∨ ∃ x, l.getLast? = some x ∧ Long x.data ∧ w = l.dropLast.filter (·.sid ≠ 0xbe)

theorem complete_heard (rs : List (Bool × Spec.Au)) (hl : ∀ r ∈ rs, r.1 = false → Long r.2.data) : Heard (rs.map (·.2)) (Spec.complete rs) := by
  match rs with
  | [] => exact .inl rfl
  | [x] =>
    unfold Heard
    simp only [Spec.complete, List.map_cons, List.map_nil]
    by_cases hx : x.1 = true
    · left
      by_cases h2 : x.2.sid = 0xbe
      · rw [if_neg (by simp [h2])]; simp [h2]
      · rw [if_pos (by simp [hx, h2])]; simp [h2]
    · right
      refine ⟨x.2, rfl, hl x (by simp) (by simpa using hx), ?_⟩
      rw [if_neg (by simp [hx])]
      rfl
  | x :: y :: l =>
    have ih := complete_heard (y :: l) (fun r hr => hl r (by simp [hr]))
    simp only [Spec.complete]
    rcases ih with ih | ⟨z, g1, g2, ih⟩
    · left
      rw [ih, List.map_cons (l := y :: l)]
      by_cases h2 : x.2.sid = 0xbe
      · rw [if_neg (by simp [h2]), List.filter_cons_of_neg (by simp [h2])]; rfl
      · rw [if_pos h2, List.filter_cons_of_pos (by simp [h2])]; rfl
    · right
      refine ⟨z, by rw [List.map_cons, List.map_cons, List.getLast?_cons_cons]; simpa using g1, g2, ?_⟩
      rw [ih, List.map_cons (l := y :: l)]
      have : (x.2 :: (y :: l).map (·.2)).dropLast = x.2 :: ((y :: l).map (·.2)).dropLast := by simp
      rw [this]
      by_cases h2 : x.2.sid = 0xbe
      · rw [if_neg (by simp [h2]), List.filter_cons_of_neg (by simp [h2])]; rfl
      · rw [if_pos h2, List.filter_cons_of_pos (by simp [h2])]; rfl

/-- What is written with the table of one program, its map and any units of its streams, in any order, then cut anyhow, is read as this: the program, the streams,
and of each stream all units with their times, indicators and data; only a last one that is too large for the
length field, or empty, may be kept back by the reader. -/
theorem C70_roundtrip (P : Prog) (hP : P.number < 65536 ∧ P.number ≠ 0) (hpid : P.pid < 8192 ∧ P.pid ≠ 0) (hc : P.pcrPid < 8192) (he : P.es ≠ []) (hl : P.es.length ≤ 201)
    (h : ∀ e ∈ P.es, e.type < 256 ∧ e.pid < 8192 ∧ e.pid ≠ 0 ∧ e.pid ≠ P.pid) (hn : (P.es.map (·.pid)).Nodup)
    (us : List (Prog × Es × List Bytes)) (hu : ∀ u ∈ us, Fits u) (k : Nat → Nat) (hk : ∀ q, k q < 16) :
    ∃ N, ∀ n, N ≤ n → ∃ a m r, writePat n [P] = some a ∧ writePmt n P = some m ∧ writeEach n k us = some r ∧
      ∀ ds : List Bytes, ds.flatten = (a.1 ++ m.1 ++ r.1).flatten →
        ∃ s' P' ev, read {} ds = .ok s' ∧ s'.events = .pat [{ number := P.number, pid := P.pid }] :: .pmt P' :: ev ∧ P'.number = P.number ∧ P'.pid = P.pid ∧
          P'.pcrPid = P.pcrPid ∧ (P'.es.map fun e => (e.type, e.pid)) = (P.es.map fun e => (e.type, e.pid)) ∧
          ∀ e ∈ P.es, Heard ((us.filter (·.2.1.pid == e.pid)).map unitOf) (ausOf e.pid ev) := by
  obtain ⟨o1, p1, a1, a2, a3, a4⟩ := C70_pat [P] (by intro p hp; rw [List.mem_singleton] at hp; subst hp; exact ⟨hP.1, hP.2, hpid.1⟩) (by simp)
  obtain ⟨o2, p2, b1, b2, b3, b4, -⟩ := C70_pmt P hpid.1 hc hP.1 (fun e he => ⟨(h e he).1, (h e he).2.1⟩) hl
  obtain ⟨N, o3, k', p3, c1, -, c2, -, c3⟩ := C70_units us hu k hk
  refine ⟨max N 1025, fun n hn' => ⟨(o1, p1.length % 16), (o2, p2.length % 16), (o3, k'), a1 n (by omega), b1 n (by omega), c1 n (by omega), ?_⟩⟩
  intro ds hds
  have hall := exact_all (exact_append (exact_append a2 b2) c2)
  have hd : ∀ pid, ∃ W, Spec.demux pid p3 = some W ∧ Heard ((us.filter (·.2.1.pid == pid)).map unitOf) W := by
    intro pid
    obtain ⟨-, -, rs, g1, g2, g3⟩ := c3 pid
    refine ⟨Spec.complete rs, ?_, ?_⟩
    · unfold Spec.demux
      rw [g1]
      rfl
    · rw [← g2]
      exact complete_heard rs g3
  obtain ⟨s', P', ev, r1, r2, ⟨r3, r4, r5, r6⟩, r7⟩ := C69_stream_partial (o1 ++ o2 ++ o3) ds p1 p2 p3 hall hds P.number P.pid P.pcrPid (P.es.map fun e => (e.type, e.pid))
    (by have := units_one a3 [] rfl; rwa [List.append_nil] at this) (oneUnit_pid a3) a4 (by have := units_one b3 [] rfl; rwa [List.append_nil] at this)
    (oneUnit_pid b3) b4 hpid.2 (by simpa using he) (by rw [List.map_map]; exact hn) (by
      intro x hx
      rw [List.mem_map] at hx
      obtain ⟨e, he, rfl⟩ := hx
      exact (h e he).2.2) (fun pid => (Spec.demux pid p3).getD []) (by
      intro x hx
      obtain ⟨W, g1, -⟩ := hd x.2
      rw [g1]
      rfl)
  refine ⟨s', P', ev, r1, r2, r3, r4, r5, ?_, ?_⟩
  · rw [r6, List.map_map]
    simp only [List.map_map]
    apply List.map_congr_left
    intro e _
    rfl
  · intro e he
    have := r7 (e.type, e.pid) (List.mem_map.2 ⟨e, he, rfl⟩)
    dsimp only at this
    rw [this]
    obtain ⟨W, g1, g2⟩ := hd e.pid
    rw [g1]
    exact g2

end Verif.TsIn
