import Verif.TsIn.StreamLemmas
/-
C69: A transport stream that is sent to the server is taken apart as ISO/IEC 13818-1 says, however it is cut when it arrives.
-/
namespace Verif.TsIn
open Verif

/-- However the input is cut, the outcome is the same. -/
theorem C69_parts (s : St) (h : s.buf.length < 188) (ds ds' : List Bytes) (hd : ds.flatten = ds'.flatten) : read s ds = read s ds' := by
  rw [read_flatten s ds h, read_flatten s ds' h, hd]

/-- No input makes it read memory outside of a packet or a value that was not set. -/
theorem C69_safe (s : St) (h : s.buf.length < 188) (ds : List Bytes) : read s ds ≠ .ub := by
  rw [read_flatten s ds h]
  exact feed_safe _ s _ (Nat.le_refl _) h

/-- After any input the next can come. -/
theorem C69_safe_next (s s' : St) (h : s.buf.length < 188) (ds : List Bytes) (g : read s ds = .ok s') : s'.buf.length < 188 := by
  rw [read_flatten s ds h] at g
  exact feed_buf _ s s' _ (Nat.le_refl _) h g

/-- The head of every packet is read as specified. -/
theorem C69_header (b : Bytes) (p : Spec.Pkt) (h : Spec.readPkt b = some p) :
    ∃ n, readHeader b = .ok ({ pusi := p.pusi, pid := p.pid, cont := p.cc, rand := p.rai, pcr := p.pcr }, n) ∧ b.drop n = p.payload := header_ok h

/-- The first PAT, in any number of packets, gives the programs. -/
theorem C69_pat (s : St) (hs : s.progs = []) (hb : s.buf = []) (bs ds : List Bytes) (p : Spec.Pkt) (ps : List Spec.Pkt) (h : Spec.readAll bs = some (p :: ps))
    (hd : ds.flatten = bs.flatten) (hpid : ∀ q ∈ p :: ps, q.pid = 0) (hu : Spec.units (p :: ps) = ([], [p :: ps])) (l : List (Nat × Nat)) (hl : l ≠ [])
    (ht : Spec.readPat (Spec.unitBytes (p :: ps)) = some l) :
    read s ds = .ok { s with progs := l.map mkProg, bufs := [], events := s.events ++ [.pat (l.map mkProg)] } := by
  rw [read_packets s ds hb hd h]
  obtain ⟨q, r, e1, e2, e3⟩ := units_shape (p :: ps) (p :: ps) (by rw [hu]; simp)
  cases e1
  exact steps_pat s p ps hpid e2 e3 hs l hl ht

/-- The first map of a program gives its streams. -/
theorem C69_pmt (s : St) (hb : s.buf = []) (u v : List Prog) (P : Prog) (hs : s.progs = u ++ P :: v) (h0 : P.pid ≠ 0)
    (hu' : ∀ p ∈ u, p.pid ≠ P.pid ∧ ∀ e ∈ p.es, e.pid ≠ P.pid) (he : P.es = []) (bs ds : List Bytes) (p : Spec.Pkt) (ps : List Spec.Pkt)
    (h : Spec.readAll bs = some (p :: ps)) (hd : ds.flatten = bs.flatten) (hpid : ∀ q ∈ p :: ps, q.pid = P.pid)
    (hu : Spec.units (p :: ps) = ([], [p :: ps])) (q : Nat) (ss : List (Nat × Nat)) (hss : ss ≠ []) (ht : Spec.readPmt (Spec.unitBytes (p :: ps)) = some (q, ss)) :
    ∃ P' P'' s', read s ds = .ok s' ∧ s'.progs = u ++ P' :: v ∧ s'.events = s.events ++ [.pmt P''] ∧ s'.buf = [] ∧
      (P'.number = P.number ∧ P'.pid = P.pid ∧ P'.pcrPid = q ∧ P'.es = ss.map mkEs) ∧
      (P''.number = P.number ∧ P''.pid = P.pid ∧ P''.pcrPid = q ∧ P''.es = ss.map mkEs) := by
  rw [read_packets s ds hb hd h]
  obtain ⟨q', r, e1, e2, e3⟩ := units_shape (p :: ps) (p :: ps) (by rw [hu]; simp)
  cases e1
  obtain ⟨ev, k1, k2⟩ := steps_pmt s p ps P.pid h0 hpid e2 e3 u v P hs hu' rfl he q ss hss ht
  unfold mapEvent at k2
  split at k2
  · rename_i P''
    exact ⟨withMap P q ss, P'', _, k1, rfl, rfl, hb, ⟨rfl, rfl, rfl, rfl⟩, k2⟩
  · exact k2.elim

/-- Once the tables are known, however packets of streams are mixed with each other, with tables and with unknown packets: handlers get of each stream
exactly the access units, in order, with their times, random access indicator and data. The last one is kept back if its length is not given. -/
theorem C69_demux_partial (s : St) (hr : Ready s.progs) (hb : s.buf = []) (hes : ∀ e ∈ allEs s.progs, e.bufs = []) (bs ds : List Bytes) (ps : List Spec.Pkt)
    (h : Spec.readAll bs = some ps) (hd : ds.flatten = bs.flatten) (W : Nat → List Spec.Au) (hW : ∀ e ∈ allEs s.progs, Spec.demux e.pid ps = some (W e.pid)) :
    ∃ s' ev, read s ds = .ok s' ∧ s'.events = s.events ++ ev ∧ ∀ e ∈ allEs s.progs, ausOf e.pid ev = W e.pid := by
  rw [read_packets s ds hb hd h]
  obtain ⟨s', ev, k1, k2, -, -, k5⟩ := steps_streams ps s hr W (by
    intro e he
    have := hW e he
    simp only [Spec.demux, Option.map_eq_some_iff] at this
    obtain ⟨rs, h1, h2⟩ := this
    obtain ⟨e', o, g1, g2⟩ := runEs_all e _ (hes e he) rs h1
    exact ⟨e', o, g1, by rw [g2, h2]⟩)
  exact ⟨s', ev, k1, k2, k5⟩

/-- Bytes after the end of a PES packet whose length is given, in the packet in which it ends, are not given to handlers. -/
theorem C69_cut (prog : Prog) (es : Es) (flush : Bool) (c : List Bytes) (b d ex : Bytes) (e : Spec.Pes) (hes : es.bufs = c ++ [b])
    (hc : c.flatten ++ b = d ++ ex) (hl : c.flatten.length < d.length) (h : Spec.readPes d = some e) (hb : e.bounded = true) (hd : e.data ≠ []) (hp : e.sid ≠ 0xbe) :
    ∃ es' bufs, finishPes prog es flush = .ok ({ es' with bufs := [] }, [.pes prog es' bufs]) ∧ bufs.flatten = e.data ∧
      es'.pid = es.pid ∧ es'.sid = e.sid ∧ es'.rand = es.rand ∧ es'.ptsf = e.stamps.isSome ∧ ∀ t, e.stamps = some t → (es'.pts, es'.dts) = t := by
  have hex : (c ++ [b]).flatten = d ++ ex := by simpa using hc
  rcases parse_fit (c := c ++ [b]) h hex (.inr ⟨hd, hb, c, b, rfl, hl⟩) flush (.inl hb) with ⟨x, -⟩ | ⟨-, bufs, g1, g2⟩
  · exact absurd x hp
  · unfold finishPes
    rw [hes, g1]
    refine ⟨_, bufs, rfl, g2, rfl, rfl, rfl, rfl, ?_⟩
    intro t ht
    simp [ht]

/-- From the first byte: a PAT with one program, its map, then anything. -/
theorem C69_stream_partial (bs ds : List Bytes) (a m rest : List Spec.Pkt) (h : Spec.readAll bs = some (a ++ m ++ rest)) (hd : ds.flatten = bs.flatten)
    (number pid clock : Nat) (ss : List (Nat × Nat))
    (ha : Spec.units a = ([], [a])) (ha0 : ∀ q ∈ a, q.pid = 0) (hat : Spec.readPat (Spec.unitBytes a) = some [(number, pid)])
    (hm : Spec.units m = ([], [m])) (hm0 : ∀ q ∈ m, q.pid = pid) (hmt : Spec.readPmt (Spec.unitBytes m) = some (clock, ss))
    (hpid : pid ≠ 0) (hss : ss ≠ []) (hn : (ss.map (·.2)).Nodup) (hs : ∀ x ∈ ss, x.2 ≠ 0 ∧ x.2 ≠ pid)
    (W : Nat → List Spec.Au) (hW : ∀ x ∈ ss, Spec.demux x.2 rest = some (W x.2)) :
    ∃ s' P ev, read {} ds = .ok s' ∧ s'.events = .pat [{ number := number, pid := pid }] :: .pmt P :: ev ∧
      (P.number = number ∧ P.pid = pid ∧ P.pcrPid = clock ∧ P.es = ss.map mkEs) ∧ ∀ x ∈ ss, ausOf x.2 ev = W x.2 := by
  rw [read_packets {} ds rfl hd h, steps_append, steps_append]
  obtain ⟨p, ps, rfl, p2, p3⟩ := units_shape a a (by rw [ha]; simp)
  rw [steps_pat {} p ps ha0 p2 p3 rfl _ (by simp) hat]
  simp only [bind_ok]
  obtain ⟨p', ps', rfl, p2', p3'⟩ := units_shape m m (by rw [hm]; simp)
  obtain ⟨ev, k1, k2⟩ := steps_pmt (withPat {} [(number, pid)]) p' ps' pid hpid hm0 p2' p3' [] [] (mkProg (number, pid)) rfl (by intro x hx; cases hx) rfl rfl clock ss hss hmt
  rw [k1]
  simp only [bind_ok, List.nil_append]
  unfold mapEvent at k2
  split at k2
  case h_2 => exact k2.elim
  rename_i P
  have hes : allEs [withMap (mkProg (number, pid)) clock ss] = ss.map mkEs := by simp [allEs, withMap]
  have hpids : (ss.map mkEs).map (·.pid) = ss.map (·.2) := by simp [mkEs]
  have hr : Ready [withMap (mkProg (number, pid)) clock ss] := by
    refine ⟨by simp, by simp [withMap, hss], by rw [hes, hpids]; exact hn, ?_⟩
    intro e he
    rw [hes, List.mem_map] at he
    obtain ⟨x, hx, rfl⟩ := he
    refine ⟨(hs x hx).1, ?_⟩
    intro q hq
    simp only [List.mem_singleton] at hq
    subst hq
    exact fun y => (hs x hx).2 y.symm
  obtain ⟨s', ev, g1, g2, -, -, g5⟩ := steps_streams rest
    { withPat {} [(number, pid)] with progs := [withMap (mkProg (number, pid)) clock ss], events := (withPat {} [(number, pid)]).events ++ [.pmt P] } hr W (by
      intro e he
      dsimp only at he
      rw [hes, List.mem_map] at he
      obtain ⟨x, hx, rfl⟩ := he
      have := hW x hx
      simp only [Spec.demux, Option.map_eq_some_iff] at this
      obtain ⟨rs, h1, h2⟩ := this
      obtain ⟨e', o, g1, g2⟩ := runEs_all (mkEs x) _ rfl rs h1
      exact ⟨e', o, g1, by rw [g2, h2]; rfl⟩)
  refine ⟨s', P, ev, g1, g2, k2, ?_⟩
  intro x hx
  exact g5 (mkEs x) (by dsimp only; rw [hes]; exact List.mem_map_of_mem hx)

/-- A program's clock is the last one on its PID, and an access unit on that PID goes with the clock at the packet that completed it. -/
theorem C69_clock_partial (s s1 s' : St) (hr : Ready s.progs) (hb : s.buf = []) (bs ds : List Bytes) (b : Bytes) (ps : List Spec.Pkt) (p : Spec.Pkt)
    (h : Spec.readAll bs = some ps) (hd : ds.flatten = bs.flatten) (hp : Spec.readPkt b = some p) (h1 : read s ds = .ok s1) (h2 : read s1 [b] = .ok s') :
    ∃ ev, s'.events = s1.events ++ ev ∧ ∀ P e bufs, Event.pes P e bufs ∈ ev → P.pcrPid = e.pid →
      e.pid = p.pid ∧ ∃ v, clockOf s.progs e.pid = some v ∧ P.pcr = lastPcr v ((ps ++ [p]).filter (·.pid == e.pid)) := by
  have hb1 : s1.buf = [] := by
    rw [read_flatten s ds (by simp [hb]), hd, feed_packets s bs hb (readAll_length h)] at h1
    rw [packets_buf bs s s1 h1, hb]
  rw [read_packets s ds hb hd h] at h1
  have hone : Spec.readAll [b] = some [p] := by simp [Spec.readAll, hp]
  rw [read_packets s1 [b] hb1 rfl hone] at h2
  obtain ⟨hr1, -⟩ := steps_clock ps s s1 hr h1 0
  have hstep : step s1 (hdr p) p.payload = .ok s' := by
    simp only [steps] at h2
    cases e : step s1 (hdr p) p.payload with
    | ub => rw [e] at h2; cases h2
    | error => rw [e] at h2; cases h2
    | ok x => rw [e] at h2; exact h2
  obtain ⟨ev, k1, k2⟩ := step_event s1 s' p hr1 hstep
  refine ⟨ev, k1, ?_⟩
  intro P e bufs hev hpc
  obtain ⟨g1, g2⟩ := k2 P e bufs hev hpc
  refine ⟨g2, ?_⟩
  have hall : steps s (ps ++ [p]) = .ok s' := by rw [steps_append, h1]; exact h2
  obtain ⟨-, c2⟩ := steps_clock (ps ++ [p]) s s' hr hall e.pid
  rw [g1] at c2
  cases e0 : clockOf s.progs e.pid with
  | none => rw [e0] at c2; cases c2
  | some v => rw [e0] at c2; exact ⟨v, rfl, by simpa using c2⟩

end Verif.TsIn
