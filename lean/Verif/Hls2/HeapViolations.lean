import Verif.Hls2.HeapProps
/-
C75: what the memory of HLS does when steps are not orderly.
-/
namespace Verif.Hls2.Mem
open Verif Verif.Hls2 Spec

/-- A player asks for two fragments at once, and the session is closed (by its timer, ngx_hls_live_module.c:441-456, or as the stream ends): only the request that was asked last is over with it
(ngx_hls_http_module.c:1211-1239). The other one goes on with a session that was given back: :884, 908. -/
theorem C75_close_violation : ∃ l, okRun 16 l {} = true ∧ (run l {}).isSome ∧ (run (l ++ [.close 0]) {}).isSome ∧ run (l ++ [.close 0, .send 0]) {} = none ∧ run (l ++ [.close 0, .finish 0]) {} = none :=
  ⟨exBefore ++ [.ask 0 (exName 3) ' ', .ask 0 (exName 4) ' '], by decide +kernel⟩

/-- When one of two requests is over the session forgets the other one too (:551-553), so even the last request that was asked can go on after its session was closed. -/
theorem C75_forget_violation : ∃ l, okRun 16 l {} = true ∧ ((run l {}).bind fun w => (w.session 0).map fun x => x.last) = some none ∧ ((run l {}).bind fun w => w.request 1).isSome ∧
    (run (l ++ [.close 0]) {}).isSome ∧ run (l ++ [.close 0, .send 1]) {} = none :=
  ⟨exBefore ++ [.ask 0 (exName 3) ' ', .ask 0 (exName 4) ' ', .send 0, .send 0, .finish 0], by decide +kernel⟩

/-- Any request of the session that is over does that: a playlist that was asked for while a fragment is sent, or a name that is not found. -/
theorem C75_playlist_violation : ∃ l, okRun 16 l {} = true ∧ run (l ++ [.close 0, .send 0]) {} ≠ none ∧ (∀ o, o = .playlist 0 ∨ o = .ask 0 [] ' ' → (run (l ++ [o, .close 0]) {}).isSome ∧ run (l ++ [o, .close 0, .send 0]) {} = none) := by
  refine ⟨exBefore ++ [.ask 0 (exName 3) ' ', .send 0], by decide +kernel, by decide +kernel, ?_⟩
  rintro o (rfl | rfl) <;> decide +kernel

/-- The header of a response cannot be sent at once: the reference that was not taken yet (:1057-1070) is given back. The fragment is then in its slot and in the free list,
the next session gets it, and what a player asks of the first stream is the second one's. -/
theorem C75_fail_violation : ∃ l, okRun 16 l {} = true ∧
    ((run l {}).bind fun w => (w.session 0).bind fun x => (findFrag x.conf (view w.heap x.st) (exName 3) ' ').map fun g => g.body) = some (List.replicate 376 0 ++ [0x47, 6, 0x47, 255, 0x47, 7, 0x47, 255]) ∧
    ((run (l ++ [.askFails 0 (exName 3) ' ', .join exConf, .feed 2 exCodec [{ video := true, key := true, pts := 0, data := [0x47, 100] }], .ask 0 (exName 3) ' ', .send 0]) {}).bind fun w =>
      (w.request 0).map fun r => (r.sess, r.length, decide (r.sent = List.replicate 376 0 ++ [0x47, 100]))) = some (0, 378, true) :=
  ⟨exBefore, by decide +kernel⟩

/-- Once is enough to free it too early; if the session is closed then, its ring frees it again. -/
theorem C75_twice_violation : ∃ l, okRun 16 l {} = true ∧ (run (l ++ [.askFails 0 (exName 3) ' ']) {}).isSome ∧ run (l ++ [.askFails 0 (exName 3) ' ', .close 0]) {} = none :=
  ⟨exBefore, by decide +kernel⟩

/-- A location has shorter queues than another (`hls2_out_queue`): an object of it that was freed is taken for the other, and cleared beyond its end (ngx_hls_live_module.c:556-566). -/
theorem C75_queue_violation : ∃ l, okRun 16 l {} = true ∧ (run l {}).isSome ∧ run (l ++ [.join { queue := 17 }, .feed 2 exCodec [exKey 0]]) {} = none :=
  ⟨exBefore ++ [.close 0], by decide +kernel⟩

/-- The fragment that is written to can be asked for: more is sent than was told. -/
theorem C75_open_violation : ∃ l, okRun 16 l {} = true ∧ ((run (l ++ [.ask 0 (exName 6) ' ', .feed 0 exCodec [exOther (13 * 225000 - 90000)], .send 0, .send 0]) {}).bind fun w =>
    (w.request 0).map fun r => (r.length, r.sent.length)) = some (380, 382) :=
  ⟨exBefore, by decide +kernel⟩

end Verif.Hls2.Mem
