import Verif.Hls.CleanLemmas
import Verif.Hls.FragProps
/-
C60: the cleanup removes old fragments, keys and playlists and nothing else; what a playlist needs is not old.
-/
namespace Verif.HlsClean
open Verif.HlsFrag

open Classical in
/-- Of the files exactly those that are outdated, not hidden and can be deleted go; the others stay with their time. -/
theorem C60_files (w : World) (es : List (Name × Node)) :
    filesIn [] (clean w es) = (filesIn [] es).filter (fun f => decide (¬ Doomed w f)) := by
  unfold clean
  by_cases ho : w.openFails [] = true
  · rw [if_pos ho]; exact (left_closed w [] es ho).symm
  · rw [if_neg ho]
    exact (cleanList_files w [] trivial (by simpa using ho) es).symm

/-- What is neither file nor directory stays. -/
theorem C60_others (w : World) (es : List (Name × Node)) : othersIn [] (clean w es) = othersIn [] es := by
  unfold clean
  split
  · rfl
  · exact (cleanList_others w [] es).symm

/-- Directories go only if they can be deleted, and every empty one that can goes. -/
theorem C60_dirs (w : World) (es : List (Name × Node)) : DirsOk w (dirsIn [] es) (dirsIn [] (clean w es)) := by
  unfold clean
  by_cases ho : w.openFails [] = true
  · rw [if_pos ho]
    refine DirsOk.same (fun d hd hr => ?_)
    obtain ⟨pre, y, e⟩ := dirsIn_below [] es d hd
    have := hr.1
    rw [e] at this
    rw [this.of_inside] at ho; cases ho
  · rw [if_neg ho]
    exact cleanList_dirs w [] trivial (by simpa using ho) es

def exTree : List (Name × Node) := [("a.ts".toList, .file 10), ("b.ts".toList, .file 90), ("a.m3u8".toList, .file 60), ("notes".toList, .file 0), (".x.ts".toList, .file 0),
  ("cam".toList, .dir [("0.ts".toList, .file 1), ("0.key".toList, .file 1)]), ("live".toList, .dir [("7.ts".toList, .file 99)]), ("link".toList, .other)]

example : (filesIn [] (clean { now := 100, playlen := 30000 } exTree)).map (fun f => (f.1.map String.ofList, f.2)) =
      [(["b.ts"], 90), (["notes"], 0), ([".x.ts"], 0), (["7.ts", "live"], 99)] ∧
    (dirsIn [] (clean { now := 100, playlen := 30000 } exTree)).map (fun f => f.1.map String.ofList) = [["live"]] := by
  decide +kernel

/-- Milliseconds to the seconds of file times and of `ngx_cached_time`. -/
def sec (ms : Nat) : Nat := ms / 1000

/-- For a new stream with sequential names, fragments of at most `g` ms: `o i` is when fragment `i` was opened, `m i` when its file was last written, `ml` when the playlist was. If `win + 1` fragments fit into twice the length of the playlist, and one into its length, with 2 s to spare, nothing the playlist names is outdated, nor the playlist. -/
theorem C60_listed_partial (cfg : Cfg) (kf : Nat → Option Nat) (ops : List Op) (st : St) (p : Playlist)
    (playlen now g ml : Nat) (o m : Nat → Nat) (base : Name)
    (hn : cfg.naming = .sequential) (hg : cfg.gran = 0)
    (h : run cfg (resume cfg 0 kf []) ops = some st) (hp : st.list = some p) (hd : st.done ≠ [])
    (hgap : ∀ i, i + 1 < st.opens.length → o (i + 1) ≤ o i + g)
    (hnow : ∀ i, i + 1 = st.opens.length → now ≤ o i + g ∧ o i ≤ ml)
    (hm : ∀ i, i < st.opens.length → o i ≤ m i)
    (hfit : (cfg.win + 1) * g + 2000 ≤ 2 * playlen) (hfit1 : g + 2000 ≤ playlen) :
    (∀ f ∈ p.entries, ¬ Outdated playlen (sec now) (base ++ ".ts".toList) (sec (m f.id))) ∧
    ¬ Outdated playlen (sec now) (base ++ ".m3u8".toList) (sec ml) := by
  have hi := (invI_keeps cfg 0 [] hn hg).run (ops := ops) (fun op _ => by cases op <;> trivial) (invI_resume cfg 0 kf []) h
  have hids := (C56_names_partial cfg 0 kf [] ops st hn hg (fun i f h => by simp at h) h).2 p hp
  obtain ⟨N, hN⟩ : ∃ N, N = st.done.length + if st.opened then 1 else 0 := ⟨_, rfl⟩
  have hlen : st.opens.length = N := by rw [hi.hO, hN]; simp
  rw [hlen] at hgap hnow hm
  -- the age of a fragment
  have hage : ∀ k i, i + k + 1 = N → now ≤ o i + (k + 1) * g := by
    intro k
    induction k with
    | zero => intro i e; have := (hnow i (by omega)).1; omega
    | succ k ih =>
      intro i e
      have h1 := ih (i + 1) (by omega)
      have h2 := hgap i (by omega)
      have : (k + 1 + 1) * g = (k + 1) * g + g := by rw [Nat.add_mul (k + 1) 1 g]; omega
      omega
  have hw : p.entries = lastN cfg.win (st.done.map (·.frag)) ∧ p.seq = st.done.length - cfg.win ∧ 0 < st.done.length := by
    rcases hi.hW.hL with ⟨_, h3⟩ | ⟨q', h3, h4, _⟩
    · rw [h3] at hp; cases hp
    · rw [hp] at h3
      have e : p = q' := by simpa using h3
      rw [← e] at h4
      refine ⟨by simpa [all] using h4.hEntries, by simpa [all] using h4.hSeq, ?_⟩
      exact List.length_pos_iff.2 hd
  have hts : ∀ (b : Name) (t : Nat), Outdated playlen (sec now) (b ++ ".ts".toList) t → t + playlen / 500 ≤ sec now := by
    intro b t ho
    generalize hx : b ++ ".ts".toList = x at ho
    have hl : x.getLast? = some 's' := by rw [← hx]; simp
    cases ho with
    | ts _ _ h1 => exact h1
    | key _ _ h1 => simp at hl
    | list _ _ h1 => simp at hl
  have hml : ∀ (b : Name) (t : Nat), Outdated playlen (sec now) (b ++ ".m3u8".toList) t → t + playlen / 1000 ≤ sec now := by
    intro b t ho
    generalize hx : b ++ ".m3u8".toList = x at ho
    have hl : x.getLast? = some '8' := by rw [← hx]; simp
    cases ho with
    | ts _ _ h1 => simp at hl
    | key _ _ h1 => simp at hl
    | list _ _ h1 => exact h1
  constructor
  · intro f hf ho
    have ho := hts _ _ ho
    obtain ⟨i, hi'⟩ := List.getElem?_of_mem hf
    have hid := hids i f hi'
    have hil : i < p.entries.length := by
      rcases Nat.lt_or_ge i p.entries.length with hl | hl
      · exact hl
      · rw [List.getElem?_eq_none hl] at hi'; cases hi'
    rw [hw.1, lastN, List.length_drop, List.length_map] at hil
    have hf1 : f.id < st.done.length ∧ st.done.length ≤ f.id + cfg.win := by omega
    have h1 := hage (N - f.id - 1) f.id (by omega)
    have h2 := hm f.id (by omega)
    have h3 : (N - f.id - 1 + 1) * g ≤ (cfg.win + 1) * g := Nat.mul_le_mul_right g (by rw [hN]; split <;> omega)
    unfold sec at ho
    omega
  · intro ho
    have ho := hml _ _ ho
    have := hnow (N - 1) (by omega)
    unfold sec at ho
    omega

/-- With the limits of the defaults, 5 s fragments and a playlist of 30 s, fragments of 8 s are short enough. -/
example : (6 + 1) * 8000 + 2000 ≤ 2 * 30000 ∧ 8000 + 2000 ≤ 30000 := by decide

def liveCfg : Cfg := { fraglen := 5000, maxFraglen := 50000, win := 6 }

/-- `n` key frames, one every `d` ms. -/
def keyFrames (d n : Nat) : List Op := (List.range n).map fun i => key (i * d) i

theorem some_of_any {α : Type} {o : Option α} {P : α → Bool} (h : o.any P = true) : ∃ a, o = some a ∧ P a = true := by
  cases o with
  | none => cases h
  | some a => exact ⟨a, rfl, h⟩

/-- The default limits allow fragments of 50 s. With a key frame every 12 s the first entries of the playlist are deleted: fragment 1, written from 12 s to 24 s, is listed until 96 s and outdated at 85 s. -/
theorem C60_listed_violation : ∃ st, run liveCfg (resume liveCfg 0 (fun _ => none) []) (keyFrames 12000 8) = some st ∧
    (st.list.bind (·.entries.head?)).map (fun f => (f.id, f.dur)) = some (1, 12000 * 90) ∧ Outdated 30000 85 ("cam-1".toList ++ ".ts".toList) 24 := by
  obtain ⟨st, h1, h2⟩ := some_of_any (o := run liveCfg (resume liveCfg 0 (fun _ => none) []) (keyFrames 12000 8))
    (P := fun st => (st.list.bind (·.entries.head?)).map (fun f => (f.id, f.dur)) == some (1, 12000 * 90)) (by decide +kernel)
  exact ⟨st, h1, by simpa using h2, .ts _ _ (by decide)⟩

/-- With a key frame every 35 s the playlist itself is deleted while the stream runs: it is written at 35 s, when the first fragment ends, and at 69 s there is still one. -/
theorem C60_playlist_violation : ∃ st, run liveCfg (resume liveCfg 0 (fun _ => none) []) (keyFrames 35000 2 ++ [inter 69000 9]) = some st ∧
    st.opened = true ∧ st.done.map (fun d => (d.start, d.frag.dur)) = [(0, 35000 * 90)] ∧ Outdated 30000 69 ("cam".toList ++ ".m3u8".toList) 35 := by
  obtain ⟨st, h1, h2⟩ := some_of_any (o := run liveCfg (resume liveCfg 0 (fun _ => none) []) (keyFrames 35000 2 ++ [inter 69000 9]))
    (P := fun st => st.opened && st.done.map (fun d => (d.start, d.frag.dur)) == [(0, 35000 * 90)]) (by decide +kernel)
  simp only [Bool.and_eq_true, beq_iff_eq] at h2
  exact ⟨st, h1, h2.1, h2.2, .list _ _ (by decide)⟩

def keyCfg : Cfg := { liveCfg with keys := true, fragsPerKey := 20 }

/-- A key for 20 fragments is outdated after 60 s. Here it was written at 0 s, and not again (the file still has the first random number); at 65 s all entries of the playlist need it. -/
theorem C60_key_violation : ∃ st, run keyCfg (resume keyCfg 0 (fun _ => none) []) (keyFrames 5000 14) = some st ∧
    (st.list.map (fun p => p.entries.map (·.keyId))) = some [0, 0, 0, 0, 0, 0] ∧ st.keyFiles 0 = some 100 ∧ Outdated 30000 65 ("cam-0".toList ++ ".key".toList) 0 := by
  obtain ⟨st, h1, h2⟩ := some_of_any (o := run keyCfg (resume keyCfg 0 (fun _ => none) []) (keyFrames 5000 14))
    (P := fun st => st.list.map (fun p => p.entries.map (·.keyId)) == some [0, 0, 0, 0, 0, 0] && st.keyFiles 0 == some 100) (by decide +kernel)
  simp only [Bool.and_eq_true, beq_iff_eq] at h2
  exact ⟨st, h1, h2.1, h2.2, .key _ _ (by decide)⟩

/-- The hypotheses of `C60_listed_partial` hold for a stream with a key frame every 8 s. -/
example : ∃ st p, run liveCfg (resume liveCfg 0 (fun _ => none) []) (keyFrames 8000 12) = some st ∧ st.list = some p ∧ st.done ≠ [] ∧
    p.entries.map (·.id) = [5, 6, 7, 8, 9, 10] ∧
    (∀ i, i + 1 < st.opens.length → (fun i => 8000 * i) (i + 1) ≤ (fun i => 8000 * i) i + 8000) ∧
    (∀ i, i + 1 = st.opens.length → 95000 ≤ 8000 * i + 8000 ∧ 8000 * i ≤ 88000) := by
  obtain ⟨st, h1, h2⟩ := some_of_any (o := run liveCfg (resume liveCfg 0 (fun _ => none) []) (keyFrames 8000 12))
    (P := fun st => st.list.map (fun p => p.entries.map (·.id)) == some [5, 6, 7, 8, 9, 10] && st.done.length == 11 && st.opens.length == 12) (by decide +kernel)
  simp only [Bool.and_eq_true, beq_iff_eq, Option.map_eq_some_iff] at h2
  obtain ⟨⟨⟨p, h3, h4⟩, h5⟩, h6⟩ := h2
  refine ⟨st, p, h1, h3, ?_, h4, fun i _ => by dsimp only; omega, fun i h => by omega⟩
  intro h; rw [h] at h5; simp at h5

end Verif.HlsClean
