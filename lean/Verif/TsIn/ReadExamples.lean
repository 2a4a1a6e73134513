import Verif.TsIn.ReadProps
/-
C69: examples that meet the hypotheses of `ReadProps`, and where the reader does not do what ISO/IEC 13818-1 wants.
-/
namespace Verif.TsIn
open Verif

/-- A packet with the payload at its end, behind an adaptation field with the given start. -/
def exPkt (pid cc : Nat) (pusi : Bool) (af payload : Bytes) : Bytes :=
  let room := 184 - payload.length
  [0x47, UInt8.ofNat ((if pusi then 64 else 0) + pid / 256), UInt8.ofNat (pid % 256), UInt8.ofNat ((if room = 0 then 16 else 48) + cc)] ++
    (if room = 0 then [] else UInt8.ofNat (room - 1) :: (af ++ List.replicate (room - 1 - af.length) 0xff)) ++ payload

def exPat : Bytes := exPkt 0 0 true [0] [0, 0, 176, 13, 0, 1, 193, 0, 0, 0, 1, 240, 0, 42, 177, 4, 178]
/-- The map in two packets. -/
def exPmt : List Bytes := [exPkt 0x1000 0 true [0] [0, 2, 176, 23, 0, 1, 193, 0, 0, 225, 0], exPkt 0x1000 1 false [0] [240, 0, 27, 225, 0, 240, 0, 15, 225, 1, 240, 0, 47, 68, 185, 155]]

/-- A PCR: flag, and 6 bytes. -/
def exClock (t : Nat) : Bytes := [0x50, 0, 0, 0, UInt8.ofNat t, 0x7e, 0]

/-- Video without length, with PTS and DTS, in two packets; audio with length, in between; then the start of the next video. -/
def exMedia : List Bytes :=
  [exPkt 0x100 0 true (exClock 10) [0, 0, 1, 0xe0, 0, 0, 0x80, 0xc0, 10, 0x31, 0, 1, 0, 5, 0x11, 0, 1, 0, 3, 1, 2, 3],
   exPkt 0x101 0 true [0] [0, 0, 1, 0xc0, 0, 10, 0x80, 0x80, 5, 0x21, 0, 1, 0, 9, 7, 8],
   exPkt 0x1000 2 true [0] [0, 2, 176, 23],
   exPkt 0x100 1 false [0] [4, 5],
   exPkt 0x100 2 true (exClock 20) [0, 0, 1, 0xe0, 0, 0, 0x80, 0x80, 5, 0x21, 0, 1, 0, 7, 6]]

def exVideo : Spec.Au := ⟨true, 0xe0, some (2, 1), [1, 2, 3, 4, 5]⟩
def exAudio : Spec.Au := ⟨false, 0xc0, some (4, 4), [7, 8]⟩

def exA : List Spec.Pkt := ((Spec.readAll [exPat]).getD [])
def exM : List Spec.Pkt := ((Spec.readAll exPmt).getD [])
def exR : List Spec.Pkt := ((Spec.readAll exMedia).getD [])

/-- The whole stream, cut at bytes that are not borders of packets. -/
def exCut : List Bytes := let x := ([exPat] ++ exPmt ++ exMedia).flatten; [x.take 100, (x.drop 100).take 333, x.drop 433]

theorem ex_read : Spec.readAll ([exPat] ++ exPmt ++ exMedia) = some (exA ++ exM ++ exR) := by decide +kernel
theorem ex_demux_v : Spec.demux 0x100 exR = some [exVideo] := by decide +kernel
theorem ex_demux_a : Spec.demux 0x101 exR = some [exAudio] := by decide +kernel

/-- Hypotheses of `C69_stream_partial`, and what it says. -/
example : ∃ s' P ev, read {} exCut = .ok s' ∧ s'.events = .pat [{ number := 1, pid := 0x1000 }] :: .pmt P :: ev ∧
    (P.number = 1 ∧ P.pid = 0x1000 ∧ P.pcrPid = 0x100 ∧ P.es = [(0x1b, 0x100), (0x0f, 0x101)].map mkEs) ∧
    ∀ x ∈ [(0x1b, 0x100), (0x0f, 0x101)], ausOf x.2 ev = (fun q => if q = 0x100 then [exVideo] else [exAudio]) x.2 :=
  C69_stream_partial ([exPat] ++ exPmt ++ exMedia) exCut exA exM exR ex_read (by decide +kernel) 1 0x1000 0x100 [(0x1b, 0x100), (0x0f, 0x101)]
    (by decide +kernel) (by decide +kernel) (by decide +kernel) (by decide +kernel) (by decide +kernel) (by decide +kernel) (by decide) (by decide) (by decide) (by decide)
    (fun q => if q = 0x100 then [exVideo] else [exAudio]) (by
      intro x hx
      simp only [List.mem_cons, List.not_mem_nil, or_false] at hx
      rcases hx with rfl | rfl
      · exact ex_demux_v
      · exact ex_demux_a)

/-- Two streams of a program that are known. -/
def exState : St := { progs := [{ number := 1, pid := 0x1000, pcrPid := 0x100, es := [mkEs (0x1b, 0x100), mkEs (0x0f, 0x101)] }] }

/-- Hypotheses of `C69_demux_partial` and `C69_clock_partial`. -/
example : Ready exState.progs ∧ exState.buf = [] ∧ (∀ e ∈ allEs exState.progs, e.bufs = []) ∧ Spec.readAll exMedia = some exR ∧
    (∀ e ∈ allEs exState.progs, Spec.demux e.pid exR = some ((fun q => if q = 0x100 then [exVideo] else [exAudio]) e.pid)) ∧
    clockOf exState.progs 0x100 = some 0 := by decide +kernel

/-- Hypotheses of `C69_pat`. -/
example : Spec.units exA = ([], [exA]) ∧ (∀ q ∈ exA, q.pid = 0) ∧ exA ≠ [] ∧ Spec.readPat (Spec.unitBytes exA) = some [(1, 0x1000)] := by decide +kernel
/-- Hypotheses of `C69_pmt`. -/
example : Spec.units exM = ([], [exM]) ∧ (∀ q ∈ exM, q.pid = 0x1000) ∧ exM.length = 2 ∧ Spec.readPmt (Spec.unitBytes exM) = some (0x100, [(0x1b, 0x100), (0x0f, 0x101)]) := by
  decide +kernel

/-- Hypotheses of `C69_cut`: two packets; after the audio unit come two bytes that are not of it. -/
example : ∃ (c : List Bytes) (b d ex : Bytes) (e : Spec.Pes), c.flatten ++ b = d ++ ex ∧ c.flatten.length < d.length ∧ Spec.readPes d = some e ∧
    e.bounded = true ∧ e.data = [7, 8] ∧ ex ≠ [] ∧ e.sid ≠ 0xbe :=
  ⟨[[0, 0, 1, 0xc0, 0, 10, 0x80]], [0x80, 5, 0x21, 0, 1, 0, 9, 7, 8, 0xff, 0xff], [0, 0, 1, 0xc0, 0, 10, 0x80, 0x80, 5, 0x21, 0, 1, 0, 9, 7, 8], [0xff, 0xff],
    ⟨0xc0, true, some (4, 4), [7, 8]⟩, by decide +kernel⟩

/-! ### Where it is wrong -/

/-- The access units of a result with the clock that handlers see. -/
def clocks : Res St → List (Spec.Au × Nat)
  | .ok s => s.events.filterMap fun | .pes P e bufs => some (auOf e bufs, P.pcr) | _ => none
  | _ => []

/-- The video unit of `exMedia` came with the clock reference 10 * 600, but handlers get it with that of the next unit: a PES packet without length is
finished by the start of the next, whose clock was already taken. So the clock is ahead of the decoding time that goes with it. -/
theorem C69_clock_violation : (exR.head?.bind (·.pcr)) = some (10 * 600) ∧ clocks (read exState exMedia) = [(exAudio, 10 * 600), (exVideo, 20 * 600)] := by
  have h : Spec.readAll exMedia = some exR := by decide +kernel
  rw [read_packets exState exMedia rfl rfl h]
  decide +kernel

/-- A PAT with another PID whose CRC is wrong. -/
def exBadPat : Bytes := exPkt 0 0 true [0] [0, 0, 176, 13, 0, 1, 193, 0, 0, 0, 1, 241, 0, 42, 177, 4, 178]

/-- The CRC of tables is not looked at, and the first table stays: with one bit of the first PAT wrong nothing is ever found, whatever follows. -/
theorem C69_crc_violation :
    ((Spec.readAll [exBadPat]).bind fun ps => Spec.readPat (Spec.unitBytes ps)) = none ∧
    ∃ ps, Spec.readAll ([exBadPat, exPat] ++ exPmt ++ exMedia) = some ps ∧
      read {} ([exBadPat, exPat] ++ exPmt ++ exMedia) = .ok { progs := [{ number := 1, pid := 0x1100 }], events := [.pat [{ number := 1, pid := 0x1100 }]] } := by
  refine ⟨by decide +kernel, (Spec.readAll ([exBadPat, exPat] ++ exPmt ++ exMedia)).getD [], by decide +kernel, ?_⟩
  have h : Spec.readAll ([exBadPat, exPat] ++ exPmt ++ exMedia) = some ((Spec.readAll ([exBadPat, exPat] ++ exPmt ++ exMedia)).getD []) := by decide +kernel
  rw [read_packets {} _ rfl rfl h]
  decide +kernel

/-- A unit with random access whose end is lost, then one without. -/
def exLoss : List Bytes :=
  [exPkt 0x101 0 true [0x40] [0, 0, 1, 0xc0, 0, 10, 0x80, 0x80],
   exPkt 0x101 2 true [0] [0, 0, 1, 0xc0, 0, 10, 0x80, 0x80, 5, 0x21, 0, 1, 0, 9, 7, 8]]

/-- After a unit whose end was lost the next has its random access indicator. -/
theorem C69_rand_violation : ((Spec.readAll exLoss).bind fun ps => ps.getLast?.map (·.rai)) = some false ∧
    clocks (read exState exLoss) = [({ exAudio with rai := true }, 0)] := by
  refine ⟨by decide +kernel, ?_⟩
  have h : Spec.readAll exLoss = some ((Spec.readAll exLoss).getD []) := by decide +kernel
  rw [read_packets exState exLoss rfl rfl h]
  decide +kernel

/-! Memory -/

/-- A packet full of payload. -/
def exFull (pusi : Bool) (payload : Bytes) : Bytes := [0x47, if pusi then 0x41 else 0x01, 0x00, 0x10] ++ payload

def exStart : Bytes := [0, 0, 1, 0xe0, 0, 0, 0x80, 0, 0] ++ List.replicate 175 0
def exMore : Bytes := List.replicate 184 0

theorem ex_start : Spec.readPkt (exFull true exStart) = some ⟨true, 0x100, 0, false, none, exStart⟩ := by decide +kernel
theorem ex_more : Spec.readPkt (exFull false exMore) = some ⟨false, 0x100, 0, false, none, exMore⟩ := by decide +kernel

def exOne : St := { progs := [{ number := 1, pid := 0x1000, pcrPid := 0x100, es := [mkEs (0x1b, 0x100)] }] }

theorem keep (es : Es) (x : Bytes) (h : es.bufs.flatten = 0 :: 0 :: 1 :: 0xe0 :: 0 :: 0 :: 0x80 :: 0 :: 0 :: x) :
    ∃ es', esStep es (hdr ⟨false, 0x100, 0, false, none, exMore⟩) exMore = .ok (es', []) ∧ es'.bufs = es.bufs ++ [exMore] ∧ es'.pid = es.pid := by
  have hb : es.bufs ≠ [] := by intro z; rw [z] at h; cases h
  unfold esStep
  rw [if_neg (by simp [hdr])]
  simp only [bind_ok, setRand, if_neg hb]
  have : appendBuf (hdr ⟨false, 0x100, 0, false, none, exMore⟩).pusi es.bufs exMore = es.bufs ++ [exMore] := by simp [appendBuf, hdr, hb]
  rw [this]
  obtain ⟨es', g1, g2, g3, -⟩ := finish_wait (e := ⟨0xe0, false, none, x ++ exMore⟩) (tail := []) { es with bufs := es.bufs ++ [exMore] } (by
    simp only [List.flatten_append, List.flatten_cons, List.flatten_nil, List.append_nil]
    rw [h]
    simp [Spec.readPes, Spec.bare, Spec.readStamps]) (by simp)
  rw [g1]
  exact ⟨es', rfl, g2, g3⟩

theorem keeps (n : Nat) (s : St) (P : Prog) (e : Es) (x : Bytes) (hs : s.progs = [P]) (hP : P.es = [e]) (hr : Ready s.progs) (hp : e.pid = 0x100)
    (h : e.bufs.flatten = 0 :: 0 :: 1 :: 0xe0 :: 0 :: 0 :: 0x80 :: 0 :: 0 :: x) :
    ∃ s' e', steps s (List.replicate n ⟨false, 0x100, 0, false, none, exMore⟩) = .ok s' ∧ s'.events = s.events ∧ allEs s'.progs = [e'] ∧
      e'.bufs.length = e.bufs.length + n := by
  induction n generalizing s P e x with
  | zero => exact ⟨s, e, rfl, rfl, by simp [allEs, hs, hP], rfl⟩
  | succ n ih =>
    obtain ⟨e1, g1, g2, g3⟩ := keep e x h
    rw [List.replicate_succ]
    simp only [steps]
    rw [step_at s _ _ hr [] [] P [] [] e hs hP hp, g1]
    simp only [bind_ok, List.nil_append]
    obtain ⟨s', e', k1, k2, k3, k4⟩ := ih { s with progs := [put P e (hdr ⟨false, 0x100, 0, false, none, exMore⟩) [] [] e1], events := s.events ++ toEvents (setPcr P e (hdr ⟨false, 0x100, 0, false, none, exMore⟩)) [] }
      (put P e (hdr ⟨false, 0x100, 0, false, none, exMore⟩) [] [] e1) e1 (x ++ exMore) rfl rfl (ready_put (a := []) (c := []) hP g3 (by rw [hs] at hr; exact hr))
      (by rw [g3, hp]) (by rw [g2]; simp [h])
    refine ⟨s', e', k1, by rw [k2]; simp [toEvents], k3, ?_⟩
    rw [k4, g2, List.length_append]
    simp only [List.length_cons, List.length_nil]
    omega

/-- A PES packet without length that is never ended is kept whole: after `n + 1` packets there are `n + 1` buffers, for every `n`. -/
theorem C69_memory_violation (n : Nat) :
    ∃ s' e, read exOne (exFull true exStart :: List.replicate n (exFull false exMore)) = .ok s' ∧ s'.events = [] ∧ allEs s'.progs = [e] ∧ e.bufs.length = n + 1 := by
  have h : Spec.readAll (exFull true exStart :: List.replicate n (exFull false exMore)) =
      some (⟨true, 0x100, 0, false, none, exStart⟩ :: List.replicate n ⟨false, 0x100, 0, false, none, exMore⟩) := by
    simp only [Spec.readAll, ex_start, Option.bind_some]
    have : ∀ n, Spec.readAll (List.replicate n (exFull false exMore)) = some (List.replicate n ⟨false, 0x100, 0, false, none, exMore⟩) := by
      intro n
      induction n with
      | zero => rfl
      | succ n ih => rw [List.replicate_succ, List.replicate_succ]; simp only [Spec.readAll, ex_more, Option.bind_some, ih, Option.map_some]
    rw [this]
    rfl
  rw [read_packets exOne _ rfl rfl h]
  simp only [steps]
  have h1 : step exOne (hdr ⟨true, 0x100, 0, false, none, exStart⟩) exStart =
      .ok { progs := [{ number := 1, pid := 0x1000, pcrPid := 0x100, es := [{ mkEs (0x1b, 0x100) with sid := 0xe0, bufs := [exStart] }] }] } := by decide +kernel
  rw [h1]
  simp only [bind_ok]
  obtain ⟨s', e', k1, k2, k3, k4⟩ := keeps n { progs := [{ number := 1, pid := 0x1000, pcrPid := 0x100, es := [{ mkEs (0x1b, 0x100) with sid := 0xe0, bufs := [exStart] }] }] }
    { number := 1, pid := 0x1000, pcrPid := 0x100, es := [{ mkEs (0x1b, 0x100) with sid := 0xe0, bufs := [exStart] }] }
    { mkEs (0x1b, 0x100) with sid := 0xe0, bufs := [exStart] } (List.replicate 175 0) rfl rfl (by decide) rfl (by decide +kernel)
  exact ⟨s', e', k1, k2, k3, by rw [k4]; simp only [List.length_cons, List.length_nil]; omega⟩

end Verif.TsIn
