import Verif.TsDash.Examples
/- What is not as one would want it in DASH segments made of transport streams -/
namespace Verif.TsDash
open Verif Verif.TsIn

def vEs (type : Nat) (video : Bool) (dts : Nat) (key : Bool) : Es := { type := type, pid := 256, video := video, pts := dts, dts := dts, rand := key }

/-- Another size: 720 lines -/
def sps2 : Bytes := [0x67, 0x64, 0x00, 0x1f, 0xac, 0xd9, 0x40, 0x50, 0x05, 0xbb, 0x01, 0x10]

/-- C77 (violation): when the size of the picture changes, the new parameter sets are dropped: the initialization segment keeps the first, the samples have none. -/
theorem C77_changed_violation :
    Spec.isSps sps2 = true ∧ sps2 ≠ exSps ∧
    ((run {} (newRep {} avcType true) [((exKey 0).e, (exKey 0).bufs), (vEs 0x1b true 450000 true, [[0, 0, 0, 1] ++ sps2 ++ [0, 0, 1] ++ exIdr]), (vEs 0x1b true 900000 true, [[0, 0, 1] ++ exIdr])]).map fun x =>
      (x.1.sps, x.2, x.1.files.map fun f => (Spec.readMedia f.2).map fun g => g.samples.map (·.bytes))) =
    some (some exSps, true, [some [[0, 0, 0, 3, 0x65, 0x88, 0x84]], some [[0, 0, 0, 3, 0x65, 0x88, 0x84]]]) := by
  refine ⟨by decide +kernel, by decide +kernel, by decide +kernel⟩

/-- C77 (violation): a frame of sound that goes on in the next PES packet (13818-1 allows it) is an error, which ends the whole stream; the file of the segment then says more than is in it: it cannot be read. -/
theorem C77_split_violation :
    let out := run {} (newRep {} aacType false) [((exSound 0).e, (exSound 0).bufs), (vEs 0x0f false 4180 true, [[0xff, 0xf1, 0x50, 0x80, 1, 0x5f, 0xfc, 1, 2]]), (vEs 0x0f false 6269 true, [[3]])]
    out.map (·.2) = some false ∧
    ((out.bind fun x => finish {} x.1 (vEs 0x0f false 4180 true)).map fun r => r.files.map fun f => (f.1, Spec.readMedia f.2)) = some [(0, none)] := by decide +kernel

/-- C77 (violation): a picture with three zeros in it is an error in its midst; what was copied of it is in the file behind the last box. -/
theorem C77_rest_violation :
    let out := run {} (newRep {} avcType true) [((exKey 0).e, (exKey 0).bufs), (vEs 0x1b true 3600 false, [[0, 0, 1] ++ exSlice ++ [0, 0, 1, 0x41, 0, 0, 0, 5]])]
    out.map (·.2) = some false ∧
    ((out.bind fun x => finish {} x.1 (vEs 0x1b true 3600 false)).map fun r => r.files.map fun f => (f.1, Spec.readMedia f.2)) = some [(0, none)] := by decide +kernel

/-- C77 (violation): times of PES packets have 33 bits. When they wrap, the segment does not end (until it is too large), and in the end it is said to last more than five million years. -/
theorem C77_wrap_violation :
    let out := run {} (newRep {} avcType true) ([(2 ^ 33 - 3600, 0), (0, 1), (900000, 2), (1800000, 3), (9000000, 4)].map fun t => ((exKey t.1).e, (exKey t.1).bufs))
    out.map (fun x => (x.2, x.1.files)) = some (true, []) ∧
    ((out.bind fun x => finish {} x.1 (exKey 9000000).e).map fun r => r.segs.head?) = some (some ⟨2 ^ 33 - 3600, 2 ^ 64 - (2 ^ 33 - 3600) + 9000000⟩) := by decide +kernel

/-- C77 (violation): at the end of a stream the last unit lasts no time: a segment of one unit is of length 0, so it is not listed (ngx_ts_dash.c:917). -/
theorem C77_last_violation :
    ((run {} (newRep {} avcType true) [((exKey 0).e, (exKey 0).bufs)]).bind fun x => finish {} x.1 (exKey 0).e).map (fun r => (r.segs.head?, r.files.map fun f => (Spec.readMedia f.2).map fun g => g.samples.map (·.duration))) =
      some (some ⟨0, 0⟩, [some [some 0]]) := by decide +kernel

/-- C77 (violation): nobody looks for the sync word: anything is a frame of sound. -/
theorem C77_sync_violation : ((run {} (newRep {} aacType false) [(vEs 0x0f false 0 true, [[0x47, 0x41, 0x50, 0x80, 1, 0x1f, 0xfc, 9]])]).map fun x => (x.2, x.1.nsamples)) = some (true, 1) := by decide +kernel

/-- C77 (violation): with `segment=0` the time to analyze is 0 (ngx_ts_dash.c:1407), and the first unit divides by 0, whatever it is. -/
theorem C77_analyze_violation (c : Conf) (hc : c.analyze = 0) (type : Nat) (video : Bool) (e : Es) (bufs : List Bytes) : run c (newRep c type video) [(e, bufs)] = none := by
  have h : updateBandwidth c (newRep c type video) bufs e.dts = none := by
    unfold updateBandwidth newRep
    simp [hc]
  rw [run, unit, h]
  rfl

/-- C77 (violation): without room for segments, the first that ends divides by 0. -/
theorem C77_segments_violation : run { nsegs := 0 } (newRep { nsegs := 0 } avcType true) (exIns.map fun x => (x.e, x.bufs)) = none := by
  have : (run { nsegs := 0 } (newRep { nsegs := 0 } avcType true) (exIns.map fun x => (x.e, x.bufs))).isNone = true := by decide +kernel
  simpa using this

/-- C77 (violation): a parameter set with eight zeros makes the decoder shift by 64 and more (C72). -/
theorem C77_crash_violation : run {} (newRep {} avcType true) [(vEs 0x1b true 0 true, [[0, 0, 1] ++ exPps ++ [0, 0, 1, 0x67, 0x4d, 0x00, 0x1e, 0x87, 0x3f]])] = none := by
  have : (run {} (newRep {} avcType true) [(vEs 0x1b true 0 true, [[0, 0, 1] ++ exPps ++ [0, 0, 1, 0x67, 0x4d, 0x00, 0x1e, 0x87, 0x3f]])]).isNone = true := by decide +kernel
  simpa using this

end Verif.TsDash
