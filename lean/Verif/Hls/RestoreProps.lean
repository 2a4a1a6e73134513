import Verif.Hls.RestoreRun
import Verif.Hls.FragProps
/-
C59: a stream that is published again with hls_continuous goes on where its playlist ends.
-/
namespace Verif.HlsRestore
open Verif.HlsFrag

/-- Reading a playlist gives the context that wrote it, with durations to the millisecond. -/
theorem C59_round_trip_partial (cfg : Cfg) (kf : Nat → Option Nat) (c : Names) (p : Playlist) (h : Fits c p) :
    restore cfg kf (render c p) = resume cfg p.seq kf (p.entries.map rounded) := restore_render cfg kf c p h

/-- A second publisher goes on: its files get the numbers after those of the first, and its playlists show the fragments of both, numbered through. -/
theorem C59_continued_partial (cfg : Cfg) (kf kf' : Nat → Option Nat) (c : Names) (ops ops' : List Op) (st st' : St) (p q : Playlist)
    (hn : cfg.naming = .sequential) (hg : cfg.gran = 0)
    (h1 : run cfg (resume cfg 0 kf []) ops = some st) (hp : st.list = some p) (hf : Fits c p)
    (h2 : run cfg (restore cfg kf' (render c p)) ops' = some st') (hq : st'.list = some q) :
    Shows cfg.win p.seq (p.entries.map rounded ++ st'.done.map (·.frag)) q ∧
    (∃ n, st'.opens = (List.range n).map (fun i => p.seq + p.entries.length + i)) ∧
    ∀ i f, q.entries[i]? = some f → f.id = q.seq + i := by
  rw [C59_round_trip_partial cfg kf' c p hf] at h2
  have hids := (C56_names_partial cfg 0 kf [] ops st hn hg (fun i f h => by simp at h) h1).2 p hp
  have hold : ∀ i f, (p.entries.map rounded)[i]? = some f → f.id = p.seq + i := by
    intro i f h
    rw [List.getElem?_map] at h
    cases hx : p.entries[i]? with
    | none => rw [hx] at h; simp at h
    | some g =>
      rw [hx] at h
      have e : rounded g = f := by simpa using h
      rw [← e]; exact hids i g hx
  obtain ⟨⟨n, hn1⟩, hn2⟩ := C56_names_partial cfg p.seq kf' (p.entries.map rounded) ops' st' hn hg hold h2
  refine ⟨?_, ⟨n, by rw [hn1, List.length_map]⟩, hn2 q hq⟩
  have hi := (invW_keeps cfg p.seq (p.entries.map rounded)).run (ops := ops') (fun op _ => by cases op <;> trivial) (invW_resume cfg p.seq kf' (p.entries.map rounded)) h2
  rcases hi.hL with ⟨_, h3⟩ | ⟨q', h3, h4, _⟩
  · rw [h3] at hq; cases hq
  · rw [hq] at h3
    have e : q = q' := by simpa using h3
    rw [e]; exact h4

def exNames : Names := { keys := true, name := "cam1".toList, baseUrl := "http://h/".toList }

/-- The playlist of the example run. -/
def exList : Playlist := ⟨3, 2, [⟨3, 2, 180000, false⟩, ⟨4, 4, 179, false⟩, ⟨5, 4, 1234567, true⟩]⟩

example : render exNames exList = ("#EXTM3U\n#EXT-X-VERSION:3\n#EXT-X-MEDIA-SEQUENCE:3\n#EXT-X-TARGETDURATION:2\n" ++
    "#EXT-X-KEY:METHOD=AES-128,URI=\"cam1-2.key\",IV=0x00000000000000000000000000000002\n#EXTINF:2.000,\nhttp://h/cam1-3.ts\n" ++
    "#EXT-X-KEY:METHOD=AES-128,URI=\"cam1-4.key\",IV=0x00000000000000000000000000000004\n#EXTINF:0.002,\nhttp://h/cam1-4.ts\n" ++
    "#EXT-X-DISCONTINUITY\n#EXTINF:13.717,\nhttp://h/cam1-5.ts\n").toList := by decide +kernel

example : Fits exNames exList where
  hSeq := by decide
  hTarget := by decide
  hName := by decide
  hBase := by decide
  hKeyUrl := by decide
  hLen := by decide
  hTag := by decide
  hFrags := by
    intro f hf
    simp only [exList, List.mem_cons, List.not_mem_nil, or_false] at hf
    rcases hf with rfl | rfl | rfl <;> decide

/-- The hypotheses of `C59_continued_partial` hold for the example streams. -/
example : ((run exCfg (resume exCfg 0 (fun _ => none) []) exOps).bind (·.list)) = some ⟨3, 2, [⟨3, 2, 180000, false⟩, ⟨4, 4, 0, false⟩, ⟨5, 4, 0, true⟩]⟩ ∧
    ((run exCfg (restore exCfg (fun _ => none) (render exNames ⟨3, 2, [⟨3, 2, 180000, false⟩, ⟨4, 4, 0, false⟩, ⟨5, 4, 0, true⟩]⟩)) [key 0 1, key 2000 2, .close]).bind (·.list)) =
      some ⟨5, 2, [⟨5, 4, 0, true⟩, ⟨6, 6, 180000, true⟩, ⟨7, 6, 0, false⟩]⟩ := by
  constructor <;> decide +kernel

/-- Entries are left out of the playlist of an event as of any other, which RFC 8216, 4.3.3.5 forbids. -/
theorem C56_event_violation : ∃ c ops ops' st st' p q, c.event = true ∧ run exCfg (resume exCfg 0 (fun _ => none) []) ops = some st ∧ st.list = some p ∧
    run exCfg st ops' = some st' ∧ st'.list = some q ∧ q.seq ≠ p.seq ∧
    "#EXTM3U\n#EXT-X-VERSION:3\n#EXT-X-MEDIA-SEQUENCE:0\n#EXT-X-TARGETDURATION:2\n#EXT-X-PLAYLIST-TYPE: EVENT\n".toList.isPrefixOf (render c p) = true ∧
    "#EXTM3U\n#EXT-X-VERSION:3\n#EXT-X-MEDIA-SEQUENCE:3\n#EXT-X-TARGETDURATION:2\n#EXT-X-PLAYLIST-TYPE: EVENT\n".toList.isPrefixOf (render c q) = true :=
  ⟨{ exNames with event := true }, exOps.take 6, exOps.drop 6, _, _, _, _, rfl, rfl, rfl, rfl, rfl, by decide +kernel, by decide +kernel, by decide +kernel⟩

/-- With a base URL of 1024 bytes the file names do not fit: nothing of the stream is restored. -/
theorem C59_long_violation : ∃ c p, c.keys = false ∧ c.name = "a".toList ∧ '\n' ∉ c.baseUrl ∧ p.entries.length = 2 ∧
    (restore exCfg (fun _ => none) (render c p)).nfrags = 0 ∧ (resume exCfg p.seq (fun _ => none) (p.entries.map rounded)).nfrags = 2 :=
  ⟨{ name := "a".toList, baseUrl := List.replicate 1024 'u' }, ⟨0, 2, [⟨0, 0, 180000, true⟩, ⟨1, 0, 180000, false⟩]⟩, rfl, rfl, by decide +kernel, rfl, by decide +kernel, by decide +kernel⟩

/-- A publisher chooses the name of the stream: newlines in it put lines into the playlist. -/
theorem C59_injection_violation : ∃ c p, c.keys = false ∧ c.baseUrl = [] ∧ p.entries.length = 1 ∧
    (restore exCfg (fun _ => none) (render c p)).frag = 99 ∧ p.seq = 0 ∧
    ∃ a b, render c p = a ++ "\nhttp://evil/x.ts\n".toList ++ b :=
  ⟨{ name := "a\nhttp://evil/x.ts\n#EXT-X-MEDIA-SEQUENCE:99\n".toList }, ⟨0, 2, [⟨0, 0, 180000, true⟩]⟩, rfl, rfl, rfl, by decide +kernel, rfl,
    "#EXTM3U\n#EXT-X-VERSION:3\n#EXT-X-MEDIA-SEQUENCE:0\n#EXT-X-TARGETDURATION:2\n#EXT-X-DISCONTINUITY\n#EXTINF:2.000,\na".toList, "#EXT-X-MEDIA-SEQUENCE:99\n-0.ts\n".toList, by decide +kernel⟩

end Verif.HlsRestore
