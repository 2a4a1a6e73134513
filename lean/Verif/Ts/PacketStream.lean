import Verif.Ts.PacketLemmas
/-
Frames and interleaved frame sequences written by the packetiser are read back by the demultiplexer.
-/
namespace Verif.Ts
open Verif

/-! ### PES packets -/

theorem readPes_header (f : Frame) (data : Bytes) (hs : f.sid < 256) :
    Spec.readPes (pesHeader f data.length ++ data)
      = some ⟨f.sid, (f.pts + delay) % 2 ^ 33, if f.dts = f.pts then none else some ((f.dts + delay) % 2 ^ 33), data⟩ := by
  have hm : ∀ x : Nat, x % 2 ^ 64 % 2 ^ 33 = x % 2 ^ 33 := by intro x; omega
  have hl5 : ∀ fb t, (writePts fb t).length = 5 := fun _ _ => rfl
  have hlen : ∀ x, x = data.length + headerSize f + 3 →
      (pesSize f data.length >>> 8 % 256 * 256 + pesSize f data.length % 256 = 0 ∨
        pesSize f data.length >>> 8 % 256 * 256 + pesSize f data.length % 256 = x) := by
    intro x hx
    unfold pesSize
    rw [Nat.shiftRight_eq_div_pow]
    dsimp only
    split
    · left; rfl
    · right; omega
  unfold pesHeader
  by_cases hd : f.dts = f.pts
  · have hb : hasDts f = false := by simp [hasDts, hd]
    have hlen' := hlen (data.length + 5 + 3) (by simp [headerSize, hb])
    simp only [List.cons_append, List.nil_append, List.append_assoc]
    unfold Spec.readPes
    dsimp only
    have hh : (UInt8.ofNat (headerSize f)).toNat = 5 := by simp [headerSize, hb]
    rw [hh, hb, if_neg Bool.false_ne_true, if_pos hd]
    rw [if_pos (by
      simp only [List.length_append, hl5, UInt8.toNat_ofNat', List.length_nil]
      refine ⟨⟨trivial, trivial, trivial⟩, ?_, trivial, by omega⟩
      rcases hlen' with h | h
      · left; exact h
      · right; omega)]
    rw [List.take_append_of_le_length (by rw [hl5]; omega), List.take_of_length_le (by rw [hl5]; omega),
      List.drop_append_of_le_length (by rw [hl5]; omega), List.drop_of_length_le (by rw [hl5]; omega)]
    unfold Spec.readStamps
    rw [if_pos ⟨by simp [flagsOf, hb], hl5 _ _⟩]
    rw [show flagsOf f >>> 6 = 2 by simp [flagsOf, hb], readTs_writePts 2 _ (by decide), hm]
    simp
    omega
  · have hb : hasDts f = true := by simp [hasDts, hd]
    have hlen' := hlen (data.length + 10 + 3) (by simp [headerSize, hb])
    simp only [List.cons_append, List.nil_append]
    unfold Spec.readPes
    dsimp only
    have hh : (UInt8.ofNat (headerSize f)).toNat = 10 := by simp [headerSize, hb]
    rw [hh, hb, if_pos rfl, if_neg hd]
    rw [if_pos (by
      simp only [List.length_append, hl5, UInt8.toNat_ofNat']
      refine ⟨⟨trivial, trivial, trivial⟩, ?_, trivial, by omega⟩
      rcases hlen' with h | h
      · left; exact h
      · right; omega)]
    rw [List.take_append_of_le_length (by simp [hl5]), List.take_of_length_le (by simp [hl5]),
      List.drop_append_of_le_length (by simp [hl5]), List.drop_of_length_le (by simp [hl5])]
    unfold Spec.readStamps
    rw [if_neg (by simp [flagsOf, hb]), if_pos ⟨by simp [flagsOf, hb], by simp [hl5]⟩]
    rw [List.take_append_of_le_length (by rw [hl5]; omega), List.take_of_length_le (by rw [hl5]; omega),
      List.drop_append_of_le_length (by rw [hl5]; omega), List.drop_of_length_le (by rw [hl5]; omega)]
    simp only [List.nil_append]
    rw [show flagsOf f >>> 6 = 3 by simp [flagsOf, hb], readTs_writePts 3 _ (by decide), readTs_writePts 1 _ (by decide), hm, hm]
    simp
    omega

/-! ### Packets of one frame -/

theorem readPkt_length (b : Bytes) (p : Spec.Pkt) (h : Spec.readPkt b = some p) : b.length = 188 := by
  unfold Spec.readPkt at h
  split at h
  · split at h
    · rename_i hc; exact hc.1
    · cases h
  · cases h

theorem continuous_append (xs ys : List Spec.Pkt) : ∀ c : Nat, Spec.continuous (c % 16) xs →
    Spec.continuous ((c + xs.length) % 16) ys → Spec.continuous (c % 16) (xs ++ ys) := by
  induction xs with
  | nil => intro c _ h; simpa using h
  | cons x xs ih =>
    intro c h1 h2
    obtain ⟨hx, h1⟩ := h1
    refine ⟨hx, ?_⟩
    have e : x.cc = (c + 1) % 16 := by omega
    rw [e] at h1 ⊢
    apply ih (c + 1) h1
    rw [List.length_cons] at h2
    rwa [show c + 1 + xs.length = c + (xs.length + 1) by omega]

/-- A run of packets of one unit. -/
structure Good (live : Bool) (f : Frame) (cc : Nat) (first : Bool) (payload : Bytes) (ps : List Spec.Pkt) : Prop where
  pid : ∀ p ∈ ps, p.pid = f.pid
  cont : Spec.continuous (cc % 16) ps
  shape : ∃ pl tl, ps = expPkt live f (cc + 1) first pl :: tl ∧
    ∀ p ∈ tl, p.pusi = false ∧ p.rai = false ∧ p.pcr = none
  bytes : (ps.map (·.payload)).flatten = payload

theorem packets_read (live : Bool) (f : Frame) (hpid : f.pid < 8192) : ∀ (n : Nat) (data : Bytes) (cc : Nat) (first : Bool),
    data.length = n → data ≠ [] →
    ∃ ps, Spec.readAll (packets live f cc first data).1 = some ps ∧ (packets live f cc first data).2 = cc + ps.length ∧
      Good live f cc first (prePes f first data.length ++ data) ps := by
  intro n
  induction n using Nat.strongRecOn with
  | ind n ih =>
    intro data cc first hn hne
    have hh := packetHead_length live f (cc + 1) first data.length
    have hdpos : 0 < data.length := List.length_pos_iff.2 hne
    rw [packets.eq_1]
    rw [dif_neg hne]
    dsimp only
    by_cases hb : 188 - (packetHead live f (cc + 1) first data.length).length ≤ data.length
    · rw [if_pos hb]
      generalize hbd : 188 - (packetHead live f (cc + 1) first data.length).length = body at hb ⊢
      have hpk := pkt_full live f (cc + 1) first data.length (data.take body) hpid (by
        rw [List.length_take]; omega)
      by_cases hr : data.drop body = []
      · have hp0 : packets live f (cc + 1) false (data.drop body) = ([], cc + 1) := by
          rw [packets.eq_1, dif_pos hr]
        have htake : data.take body = data := by
          have := List.drop_eq_nil_iff.1 hr
          exact List.take_of_length_le this
        rw [hp0]
        rw [htake] at hpk ⊢
        refine ⟨[expPkt live f (cc + 1) first (prePes f first data.length ++ data)], ?_, rfl, ?_, ?_, ?_, ?_⟩
        · simp [Spec.readAll, hpk]
        · intro p hp; simp at hp; subst hp; rfl
        · exact ⟨by show (cc + 1) % 16 = _; omega, trivial⟩
        · exact ⟨_, [], rfl, by simp⟩
        · simp [expPkt]
      · obtain ⟨ps, h1, h2, h3⟩ := ih (data.drop body).length (by rw [List.length_drop]; omega) (data.drop body) (cc + 1) false
          rfl hr
        refine ⟨expPkt live f (cc + 1) first (prePes f first data.length ++ data.take body) :: ps, ?_, ?_, ?_, ?_, ?_, ?_⟩
        · simp [Spec.readAll, hpk, h1]
        · rw [h2, List.length_cons]; omega
        · intro p hp
          rcases List.mem_cons.1 hp with h | h
          · subst h; rfl
          · exact h3.pid p h
        · refine ⟨by show (cc + 1) % 16 = _; omega, ?_⟩
          exact h3.cont
        · refine ⟨_, ps, rfl, ?_⟩
          obtain ⟨pl, tl, hps, htl⟩ := h3.shape
          intro p hp
          rw [hps] at hp
          rcases List.mem_cons.1 hp with h | h
          · subst h; simp [expPkt]
          · exact htl p h
        · simp only [List.map_cons, List.flatten_cons]
          rw [h3.bytes]
          simp [expPkt, prePes]
    · rw [if_neg hb]
      have hpk := pkt_stuffed live f (cc + 1) first data.length
        (188 - (packetHead live f (cc + 1) first data.length).length - data.length) data hpid (by omega) hdpos (by omega)
      refine ⟨[expPkt live f (cc + 1) first (prePes f first data.length ++ data)], ?_, rfl, ?_, ?_, ?_, ?_⟩
      · simp [Spec.readAll, hpk]
      · intro p hp; simp at hp; subst hp; rfl
      · exact ⟨by show (cc + 1) % 16 = _; omega, trivial⟩
      · exact ⟨_, [], rfl, by simp⟩
      · simp [expPkt]

/-! ### Cutting and reading lists -/

theorem readAll_append (xs ys : List Bytes) (ps qs : List Spec.Pkt) (h1 : Spec.readAll xs = some ps)
    (h2 : Spec.readAll ys = some qs) : Spec.readAll (xs ++ ys) = some (ps ++ qs) := by
  induction xs generalizing ps with
  | nil => cases h1; simpa using h2
  | cons x xs ih =>
    simp only [Spec.readAll] at h1
    cases hx : Spec.readPkt x with
    | none => rw [hx] at h1; cases h1
    | some p =>
      rw [hx] at h1
      cases ha : Spec.readAll xs with
      | none => rw [ha] at h1; cases h1
      | some ps' =>
        rw [ha] at h1
        cases h1
        simp [Spec.readAll, hx, ih ps' ha]

theorem readAll_lengths (xs : List Bytes) (ps : List Spec.Pkt) (h : Spec.readAll xs = some ps) :
    xs.length = ps.length ∧ ∀ x ∈ xs, x.length = 188 := by
  induction xs generalizing ps with
  | nil => cases h; simp
  | cons x xs ih =>
    simp only [Spec.readAll] at h
    cases hx : Spec.readPkt x with
    | none => rw [hx] at h; cases h
    | some p =>
      rw [hx] at h
      cases ha : Spec.readAll xs with
      | none => rw [ha] at h; cases h
      | some ps' =>
        rw [ha] at h
        cases h
        have := ih ps' ha
        refine ⟨by simp [this.1], ?_⟩
        intro y hy
        rcases List.mem_cons.1 hy with e | e
        · subst e; exact readPkt_length _ _ hx
        · exact this.2 y e

theorem flatten_length (xs : List Bytes) (h : ∀ x ∈ xs, x.length = 188) : xs.flatten.length = 188 * xs.length := by
  induction xs with
  | nil => rfl
  | cons x xs ih =>
    rw [List.flatten_cons, List.length_append, h x (by simp), ih (fun y hy => h y (by simp [hy])), List.length_cons]
    omega

theorem cut_flatten (xs : List Bytes) (h : ∀ x ∈ xs, x.length = 188) : Spec.cut xs.length xs.flatten = xs := by
  induction xs with
  | nil => rfl
  | cons x xs ih =>
    have hx := h x (by simp)
    rw [List.length_cons, List.flatten_cons]
    show (x ++ xs.flatten).take 188 :: Spec.cut xs.length ((x ++ xs.flatten).drop 188) = _
    rw [← hx, List.take_left, List.drop_left, ih (fun y hy => h y (by simp [hy]))]

/-! ### Units -/

theorem units_append (p : Spec.Pkt) (tl rest : List Spec.Pkt) (hp : p.pusi = true) (htl : ∀ q ∈ tl, q.pusi = false)
    (hr : (Spec.units rest).1 = []) :
    Spec.units (p :: tl ++ rest) = ([], (p :: tl) :: (Spec.units rest).2) := by
  have : ∀ tl : List Spec.Pkt, (∀ q ∈ tl, q.pusi = false) → Spec.units (tl ++ rest) = (tl, (Spec.units rest).2) := by
    intro tl htl
    induction tl with
    | nil => rw [List.nil_append]; exact Prod.ext hr rfl
    | cons q tl ih =>
      simp only [List.cons_append, Spec.units]
      rw [ih (fun x hx => htl x (by simp [hx])), htl q (by simp)]
      simp
  simp only [List.cons_append, Spec.units]
  rw [this tl htl, hp]
  simp

/-- What the demultiplexer must return for a frame. -/
def expUnit (live : Bool) (o : Op) : Spec.AccessUnit :=
  ⟨o.frame.key, if o.frame.key then some (pcrOf live o.frame.dts % 2 ^ 33, 0) else none,
    ⟨o.frame.sid, (o.frame.pts + delay) % 2 ^ 33,
      if o.frame.dts = o.frame.pts then none else some ((o.frame.dts + delay) % 2 ^ 33), o.data⟩⟩

theorem op_sid (o : Op) : o.frame.sid < 256 := by cases o <;> simp [Op.frame]
theorem op_pid (o : Op) : o.frame.pid < 8192 := by cases o <;> simp [Op.frame]

theorem good_unit (live : Bool) (o : Op) (cc : Nat) (ps : List Spec.Pkt)
    (h : Good live o.frame cc true (prePes o.frame true o.data.length ++ o.data) ps) :
    Spec.readUnit ps = some (expUnit live o) := by
  obtain ⟨pl, tl, hps, htl⟩ := h.shape
  have hb := h.bytes
  subst hps
  unfold Spec.readUnit
  dsimp only
  rw [if_pos (by
    rw [List.all_eq_true]
    intro q hq
    have := htl q hq
    simp [this.2.1, this.2.2]), hb]
  unfold prePes
  rw [if_pos rfl, readPes_header _ _ (op_sid o)]
  simp [expPkt, expUnit]

/-- State of the demultiplexer after the packets `ps` for one stream. -/
structure Reads (live : Bool) (pid cc cc' : Nat) (ops : List Op) (ps : List Spec.Pkt) : Prop where
  cont : Spec.continuous (cc % 16) (ps.filter (·.pid == pid))
  last : cc' = cc + (ps.filter (·.pid == pid)).length
  start : (Spec.units (ps.filter (·.pid == pid))).1 = []
  read : Spec.readUnits (Spec.units (ps.filter (·.pid == pid))).2
    = some ((ops.filter (fun o => o.frame.pid == pid && !o.data.isEmpty)).map (expUnit live))

theorem reads_nil (live pid cc) : Reads live pid cc cc [] [] := ⟨trivial, rfl, rfl, rfl⟩

theorem reads_other (live pid cc cc') (o : Op) (ops) (qs ps : List Spec.Pkt) (hq : ∀ p ∈ qs, p.pid = o.frame.pid)
    (hne : o.frame.pid ≠ pid) (h : Reads live pid cc cc' ops ps) : Reads live pid cc cc' (o :: ops) (qs ++ ps) := by
  have hf : (qs ++ ps).filter (·.pid == pid) = ps.filter (·.pid == pid) := by
    rw [List.filter_append, List.filter_eq_nil_iff.2 (by intro p hp; simp [hq p hp, hne]), List.nil_append]
  refine ⟨by rw [hf]; exact h.cont, by rw [hf]; exact h.last, by rw [hf]; exact h.start, ?_⟩
  rw [hf, h.read, List.filter_cons_of_neg (by simp [hne])]

theorem reads_empty (live pid cc cc') (o : Op) (ops) (ps : List Spec.Pkt) (he : o.data = [])
    (h : Reads live pid cc cc' ops ps) : Reads live pid cc cc' (o :: ops) ps := by
  refine ⟨h.cont, h.last, h.start, ?_⟩
  rw [h.read, List.filter_cons_of_neg (by simp [he])]

theorem reads_mine (live cc cc') (o : Op) (ops) (qs ps : List Spec.Pkt) (hne : o.data ≠ [])
    (hg : Good live o.frame cc true (prePes o.frame true o.data.length ++ o.data) qs)
    (h : Reads live o.frame.pid (cc + qs.length) cc' ops ps) : Reads live o.frame.pid cc cc' (o :: ops) (qs ++ ps) := by
  have hf : (qs ++ ps).filter (·.pid == o.frame.pid) = qs ++ ps.filter (·.pid == o.frame.pid) := by
    rw [List.filter_append, List.filter_eq_self.2 (by intro p hp; simp [hg.pid p hp])]
  have hu : Spec.units (qs ++ ps.filter (·.pid == o.frame.pid))
      = ([], qs :: (Spec.units (ps.filter (·.pid == o.frame.pid))).2) := by
    obtain ⟨pl, tl, hps, htl⟩ := hg.shape
    rw [hps]
    exact units_append _ _ _ rfl (fun q hq => (htl q hq).1) h.start
  refine ⟨?_, ?_, ?_, ?_⟩
  · rw [hf]; exact continuous_append _ _ _ hg.cont h.cont
  · rw [hf, List.length_append, h.last]; omega
  · rw [hf, hu]
  · rw [hf, hu, List.filter_cons_of_pos (by simp [hne])]
    simp only [Spec.readUnits, List.map_cons]
    rw [good_unit _ _ _ _ hg, h.read]
    rfl

/-- Counter of a stream. -/
def Mux.cc (m : Mux) (pid : Nat) : Nat := if pid = 0x100 then m.videoCc else m.audioCc

theorem step_cc_other (live : Bool) (m : Mux) (o : Op) (pid : Nat) (hp : pid = 0x100 ∨ pid = 0x101)
    (h : o.frame.pid ≠ pid) : (m.step live o).1.cc pid = m.cc pid := by
  cases o <;> rcases hp with hp | hp <;> subst hp <;> simp [Op.frame] at h <;> simp [Mux.step, Mux.cc]

theorem step_eq (live : Bool) (m : Mux) (o : Op) :
    (m.step live o).2 = (writeFrame live o.frame (m.cc o.frame.pid) o.data).1 ∧
    (m.step live o).1.cc o.frame.pid = (writeFrame live o.frame (m.cc o.frame.pid) o.data).2 := by
  cases o <;> simp [Op.frame, Mux.step, Mux.cc]

theorem run_read (live : Bool) (ops : List Op) : ∀ m : Mux,
    ∃ ps, Spec.readAll (m.run live ops).2 = some ps ∧
      ∀ pid, pid = 0x100 ∨ pid = 0x101 → Reads live pid (m.cc pid) ((m.run live ops).1.cc pid) ops ps := by
  induction ops with
  | nil => intro m; exact ⟨[], rfl, fun pid _ => reads_nil live pid _⟩
  | cons o ops ih =>
    intro m
    obtain ⟨ps, h1, h2⟩ := ih (m.step live o).1
    have he := step_eq live m o
    show ∃ ps, Spec.readAll ((m.step live o).2 ++ ((m.step live o).1.run live ops).2) = some ps ∧ _
    show ∃ ps, _ ∧ ∀ pid, pid = 0x100 ∨ pid = 0x101 → Reads live pid (m.cc pid) (((m.step live o).1.run live ops).1.cc pid) (o :: ops) ps
    by_cases hd : o.data = []
    · have hw : ∀ cc, writeFrame live o.frame cc o.data = ([], cc) := by
        intro cc; unfold writeFrame; rw [packets.eq_1, dif_pos hd]
      rw [hw] at he
      refine ⟨ps, by rw [he.1]; exact h1, fun pid hpid => ?_⟩
      have hcc : (m.step live o).1.cc pid = m.cc pid := by
        by_cases hp : o.frame.pid = pid
        · subst hp; exact he.2
        · exact step_cc_other live m o pid hpid hp
      have := h2 pid hpid
      rw [hcc] at this
      exact reads_empty _ _ _ _ o ops ps hd this
    · obtain ⟨qs, hq1, hq2, hq3⟩ := packets_read live o.frame (op_pid o) _ o.data (m.cc o.frame.pid) true rfl hd
      refine ⟨qs ++ ps, readAll_append _ _ _ _ (by rw [he.1]; exact hq1) h1, fun pid hpid => ?_⟩
      by_cases hp : o.frame.pid = pid
      · subst hp
        have := h2 _ hpid
        rw [he.2, show (writeFrame live o.frame (m.cc o.frame.pid) o.data).2 = _ from hq2] at this
        exact reads_mine _ _ _ o ops qs ps hd hq3 this
      · have := h2 pid hpid
        rw [step_cc_other live m o pid hpid hp] at this
        exact reads_other _ _ _ _ o ops qs ps hq3.pid hp this

end Verif.Ts
