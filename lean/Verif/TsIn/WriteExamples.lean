import Verif.TsIn.WriteProps
import Verif.TsIn.ReadExamples
/-
C70: examples that meet the hypotheses of `WriteProps`, and where the writer does not do what ISO/IEC 13818-1 wants.
-/
namespace Verif.TsIn
open Verif

/-- Two streams; the clock is on the first. -/
def exProg : Prog := { number := 1, pid := 0x1000, pcrPid := 0x100, pcr := 12345678, es := [mkEs (0x1b, 0x100), mkEs (0x0f, 0x101)] }
def exKey : Es := { mkEs (0x1b, 0x100) with sid := 0xe0, pts := 2 ^ 33 - 1, dts := 90000, rand := true }
def exSound : Es := { mkEs (0x0f, 0x101) with sid := 0xc0, pts := 5, dts := 5 }

/-- A key frame in three buffers, two of them empty, sound, and a key frame without any data. -/
def exUnits : List (Prog × Es × List Bytes) :=
  [(exProg, exKey, [[], [1, 2, 3], [], List.replicate 300 7]), (exProg, exSound, [[4, 5]]), ({ exProg with pcr := 2 ^ 33 * 300 - 1 }, exKey, [])]

/-- Hypotheses of `C70_units` and `C70_pes`. -/
example : (∀ u ∈ exUnits, Fits u) ∧ exUnits.length = 3 := by decide +kernel
/-- Hypotheses of `C70_roundtrip` (and with it of `C70_pat` and `C70_pmt`), and what it says. -/
example : ∃ N, ∀ n, N ≤ n → ∃ a m r, writePat n [exProg] = some a ∧ writePmt n exProg = some m ∧ writeEach n (fun _ => 15) exUnits = some r ∧
    ∀ ds : List Bytes, ds.flatten = (a.1 ++ m.1 ++ r.1).flatten →
      ∃ s' P' ev, read {} ds = .ok s' ∧ s'.events = .pat [{ number := exProg.number, pid := exProg.pid }] :: .pmt P' :: ev ∧ P'.number = exProg.number ∧ P'.pid = exProg.pid ∧
        P'.pcrPid = exProg.pcrPid ∧ (P'.es.map fun e => (e.type, e.pid)) = (exProg.es.map fun e => (e.type, e.pid)) ∧
        ∀ e ∈ exProg.es, Heard ((exUnits.filter (·.2.1.pid == e.pid)).map unitOf) (ausOf e.pid ev) :=
  C70_roundtrip exProg (by decide) (by decide) (by decide) (by decide) (by decide) (by decide) (by decide) exUnits (by decide +kernel) _ (by intro; omega)

/-! ### Where it is wrong -/

/-- A packet with an adaptation field and no payload, as encoders send them for the clock. -/
def exIdle (t : Nat) : Bytes := [0x47, 0x01, 0x00, 0x20, 183] ++ exClock t ++ List.replicate 176 0xff

/-- A frame without length; a packet with a clock only; the next frame. -/
def exHalt : List Bytes :=
  [exPkt 0x100 0 true (exClock 10) [0, 0, 1, 0xe0, 0, 0, 0x80, 0x80, 5, 0x21, 0, 1, 0, 7, 6], exIdle 15,
   exPkt 0x100 1 true (exClock 20) [0, 0, 1, 0xe0, 0, 0, 0x80, 0x80, 5, 0x21, 0, 1, 0, 9, 6]]

/-- The units of a result: whether there are times, and the chain of buffers. -/
def chains : Res St → List (Prog × Es × List Bytes)
  | .ok s => s.events.filterMap fun | .pes P e bufs => some (P, e, bufs) | _ => none
  | _ => []

theorem ex_halt : (chains (read exState exHalt)).map (fun x => (x.2.1.ptsf, x.2.2)) = [(true, [[6], []])] := by
  have h : Spec.readAll exHalt = some ((Spec.readAll exHalt).getD []) := by decide +kernel
  rw [read_packets exState exHalt rfl rfl h]
  decide +kernel

/-- A valid stream whose frame is followed by a packet with a clock and no payload makes the reader hand on a chain with an empty buffer at its end; a
program that writes it again, as HLS does, writes packets for ever: however many, it is not done. -/
theorem C70_endless_violation : (Spec.readAll exHalt).isSome = true ∧ ∃ P e bufs, chains (read exState exHalt) = [(P, e, bufs)] ∧ e.ptsf = true ∧ ∀ n, writePes n P e bufs = none := by
  refine ⟨by decide +kernel, ?_⟩
  have h := ex_halt
  revert h
  generalize chains (read exState exHalt) = l
  rcases l with - | ⟨⟨P, e, bufs⟩, - | ⟨y, l⟩⟩ <;> intro h
  · simp at h
  · simp only [List.map_cons, List.map_nil, List.cons.injEq, Prod.mk.injEq, and_true] at h
    obtain ⟨h1, rfl⟩ := h
    refine ⟨P, e, _, rfl, h1, fun n => ?_⟩
    unfold writePes packetize
    exact rounds_hollow n _ true _ rfl rfl
  · simp at h

/-- Reserved bits are 0, where the standard wants 1: a strict reader takes neither the tables nor the clock. -/
theorem C70_reserved_violation : (∃ out c, writePat 2 [exProg] = some (out, c) ∧ out.map Ts.Spec.readPat = [none] ∧
      (Spec.exactAll out).isSome = true ∧ (out.map fun b => (b[6]?.map (·.toNat / 16 % 4), b[15]?.map (·.toNat / 32))) = [(some 0, some 0)]) ∧
    Spec.readPcr (pcrBytes 12345678) = some 12345678 ∧ Ts.Spec.readPcr (pcrBytes 12345678) = none := by
  refine ⟨⟨((writePat 2 [exProg]).getD ([], 0)).1, ((writePat 2 [exProg]).getD ([], 0)).2, by decide +kernel, by decide +kernel, by decide +kernel, by decide +kernel⟩, by decide +kernel, by decide +kernel⟩

/-- A unit that came without times is written with times: those of the unit before. -/
theorem C70_times_violation (e : Es) (h : e.ptsf = false) : ∃ e' : Es, e'.ptsf = true ∧ { e' with ptsf := false } = e ∧ ∀ n P b, writePes n P e b = writePes n P e' b :=
  ⟨{ e with ptsf := true }, rfl, by cases e; simp_all, fun _ _ _ => rfl⟩

end Verif.TsIn
