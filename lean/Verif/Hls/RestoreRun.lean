import Verif.Hls.RestoreLemmas
import Verif.Hls.RestoreSpec
/- Lemmas: the text of a playlist as lines. -/
namespace Verif.HlsRestore
open Verif.HlsFrag

def headerLines (c : Names) (p : Playlist) : List Text :=
  ["#EXTM3U".toList, "#EXT-X-VERSION:3".toList, "#EXT-X-MEDIA-SEQUENCE:".toList ++ dec p.seq, "#EXT-X-TARGETDURATION:".toList ++ dec p.target] ++
  (if c.event = true then ["#EXT-X-PLAYLIST-TYPE: EVENT".toList] else [])

def keyLine (c : Names) (k : Nat) : Text :=
  "#EXT-X-KEY:".toList ++ (("METHOD=AES-128,URI=\"".toList ++ prefixOf c.nested c.keyUrl c.name ++ dec k ++ ".key\",IV=0".toList) ++ 'x' :: hex 32 k)

def entryLines (c : Names) (newKey : Bool) (f : Frag) : List Text :=
  (if f.discont = true then ["#EXT-X-DISCONTINUITY".toList] else []) ++
  ((if c.keys = true ∧ newKey = true then [keyLine c f.keyId] else []) ++
  ["#EXTINF:".toList ++ fixed3 f.dur ++ [','], prefixOf c.nested c.baseUrl c.name ++ dec f.id ++ ".ts".toList])

attribute [local irreducible] hex dec prefixOf fixed3

theorem keyLine_text (P D H : Text) : "#EXT-X-KEY:METHOD=AES-128,URI=\"".toList ++ P ++ D ++ ".key\",IV=0x".toList ++ H ++ "\n".toList =
    unlines ["#EXT-X-KEY:".toList ++ (("METHOD=AES-128,URI=\"".toList ++ P ++ D ++ ".key\",IV=0".toList) ++ 'x' :: H)] := by
  have e1 : "#EXT-X-KEY:METHOD=AES-128,URI=\"".toList = "#EXT-X-KEY:".toList ++ "METHOD=AES-128,URI=\"".toList := rfl
  have e2 : ".key\",IV=0x".toList = ".key\",IV=0".toList ++ ['x'] := rfl
  have e3 : "\n".toList = ['\n'] := rfl
  rw [e1, e2, e3]
  obtain ⟨a, ha⟩ : ∃ a, a = "#EXT-X-KEY:".toList := ⟨_, rfl⟩
  obtain ⟨b, hb⟩ : ∃ b, b = "METHOD=AES-128,URI=\"".toList := ⟨_, rfl⟩
  obtain ⟨d, hd⟩ : ∃ d, d = ".key\",IV=0".toList := ⟨_, rfl⟩
  rw [← ha, ← hb, ← hd]
  simp [unlines]

theorem unlines_append (a b : List Text) : unlines (a ++ b) = unlines a ++ unlines b := by simp [unlines]

theorem header_eq (c : Names) (p : Playlist) (h1 : p.seq < 2 ^ 64) (h2 : p.target < 2 ^ 64) : header c p = unlines (headerLines c p) := by
  have e : "#EXTM3U\n#EXT-X-VERSION:3\n#EXT-X-MEDIA-SEQUENCE:".toList ++ dec p.seq ++ "\n#EXT-X-TARGETDURATION:".toList ++ dec p.target ++ "\n".toList ++
    (if c.event = true then "#EXT-X-PLAYLIST-TYPE: EVENT\n".toList else []) = unlines (headerLines c p) := by
    unfold headerLines
    rw [unlines_append]
    cases c.event <;> simp [unlines]
  unfold header
  rw [e]
  apply List.take_of_length_le
  have l1 := dec_length p.seq h1
  have l2 := dec_length p.target h2
  rw [← e]
  have : (if c.event = true then "#EXT-X-PLAYLIST-TYPE: EVENT\n".toList else []).length ≤ 28 := by
    split <;> decide
  obtain ⟨x, hx⟩ : ∃ x, x = (if c.event = true then "#EXT-X-PLAYLIST-TYPE: EVENT\n".toList else []) := ⟨_, rfl⟩
  rw [← hx] at this ⊢
  simp only [List.length_append]
  have k1 : "#EXTM3U\n#EXT-X-VERSION:3\n#EXT-X-MEDIA-SEQUENCE:".toList.length = 47 := by decide
  have k2 : "\n#EXT-X-TARGETDURATION:".toList.length = 23 := by decide
  have k3 : "\n".toList.length = 1 := by decide
  omega

theorem prefixOf_length (b : Bool) (u n : Text) : (prefixOf b u n).length ≤ u.length + n.length + 1 := by
  unfold prefixOf
  simp only [List.length_append]
  have h1 : (if b = false ∨ u ≠ [] then n else []).length ≤ n.length := by split <;> simp
  have h2 : (if b = true then (if u ≠ [] then ['/'] else []) else ['-']).length ≤ 1 := by
    split
    · split <;> simp
    · simp
  omega

theorem fixed3_length (d : Nat) (h : d < 2 ^ 64) : (fixed3 d).length ≤ 24 := by
  unfold fixed3
  dsimp only
  have := dec_length ((d + 45) / 90 / 1000) (by omega)
  simp only [List.length_append, List.length_cons, List.length_nil]
  omega

theorem entry_eq (c : Names) (nk : Bool) (f : Frag) (hi : f.id < 2 ^ 64) (hk : f.keyId < 2 ^ 64) (hd : f.dur < 2 ^ 64)
    (hl : 2 * c.name.length + c.baseUrl.length + c.keyUrl.length ≤ 800) : entry c nk f = unlines (entryLines c nk f) := by
  have e : (if f.discont = true then "#EXT-X-DISCONTINUITY\n".toList else []) ++
   (if c.keys = true ∧ nk = true then
      "#EXT-X-KEY:METHOD=AES-128,URI=\"".toList ++ prefixOf c.nested c.keyUrl c.name ++ dec f.keyId ++ ".key\",IV=0x".toList ++ hex 32 f.keyId ++ "\n".toList
    else []) ++
   "#EXTINF:".toList ++ fixed3 f.dur ++ ",\n".toList ++ prefixOf c.nested c.baseUrl c.name ++ dec f.id ++ ".ts\n".toList = unlines (entryLines c nk f) := by
    unfold entryLines
    rw [unlines_append, unlines_append]
    have e1 : (if f.discont = true then "#EXT-X-DISCONTINUITY\n".toList else []) = unlines (if f.discont = true then ["#EXT-X-DISCONTINUITY".toList] else []) := by
      split <;> simp [unlines]
    have e2 : (if c.keys = true ∧ nk = true then
      "#EXT-X-KEY:METHOD=AES-128,URI=\"".toList ++ prefixOf c.nested c.keyUrl c.name ++ dec f.keyId ++ ".key\",IV=0x".toList ++ hex 32 f.keyId ++ "\n".toList
      else []) = unlines (if c.keys = true ∧ nk = true then [keyLine c f.keyId] else []) := by
      split
      · exact keyLine_text _ _ _
      · simp [unlines]
    rw [e1, e2]
    have e3 : ",\n".toList = [',', '\n'] := rfl
    have e4 : ".ts\n".toList = ".ts".toList ++ ['\n'] := rfl
    rw [e3, e4]
    obtain ⟨a, ha⟩ : ∃ a, a = unlines (if f.discont = true then ["#EXT-X-DISCONTINUITY".toList] else []) := ⟨_, rfl⟩
    obtain ⟨b, hb⟩ : ∃ b, b = unlines (if c.keys = true ∧ nk = true then [keyLine c f.keyId] else []) := ⟨_, rfl⟩
    obtain ⟨d, hd⟩ : ∃ d, d = "#EXTINF:".toList := ⟨_, rfl⟩
    obtain ⟨g, hg⟩ : ∃ g, g = ".ts".toList := ⟨_, rfl⟩
    rw [← ha, ← hb, ← hd, ← hg]
    simp [unlines]
  unfold entry
  rw [e]
  apply List.take_of_length_le
  rw [← e]
  have l1 := dec_length f.id hi
  have l2 := dec_length f.keyId hk
  have l3 := fixed3_length f.dur hd
  have l4 := prefixOf_length c.nested c.keyUrl c.name
  have l5 := prefixOf_length c.nested c.baseUrl c.name
  have l6 := hex_length 32 f.keyId
  obtain ⟨x, hx⟩ : ∃ x, x = (if f.discont = true then "#EXT-X-DISCONTINUITY\n".toList else []) := ⟨_, rfl⟩
  have lx : x.length ≤ 21 := by rw [hx]; split <;> decide
  obtain ⟨y, hy⟩ : ∃ y, y = (if c.keys = true ∧ nk = true then
      "#EXT-X-KEY:METHOD=AES-128,URI=\"".toList ++ prefixOf c.nested c.keyUrl c.name ++ dec f.keyId ++ ".key\",IV=0x".toList ++ hex 32 f.keyId ++ "\n".toList
      else []) := ⟨_, rfl⟩
  have k1 : "#EXT-X-KEY:METHOD=AES-128,URI=\"".toList.length = 31 := by decide
  have k2 : ".key\",IV=0x".toList.length = 11 := by decide
  have k3 : "\n".toList.length = 1 := by decide
  have k4 : "#EXTINF:".toList.length = 8 := by decide
  have k5 : ",\n".toList.length = 2 := by decide
  have k6 : ".ts\n".toList.length = 4 := by decide
  have ly : y.length ≤ c.keyUrl.length + c.name.length + 1 + 31 + 20 + 11 + 32 + 1 := by
    rw [hy]
    split
    · simp only [List.length_append]; omega
    · simp
  rw [← hx, ← hy]
  simp only [List.length_append]
  omega

/-- Lines of all entries. -/
def allLines (c : Names) : Option Nat → List Frag → List Text
  | _, [] => []
  | prev, f :: fs => entryLines c (decide (prev ≠ some f.keyId)) f ++ allLines c (some f.keyId) fs

theorem entries_eq (c : Names) (hl : 2 * c.name.length + c.baseUrl.length + c.keyUrl.length ≤ 800) : ∀ fs prev,
    (∀ f ∈ fs, f.id < 2 ^ 64 ∧ f.keyId < 2 ^ 64 ∧ f.dur < 2 ^ 64) → entries c prev fs = unlines (allLines c prev fs) := by
  intro fs
  induction fs with
  | nil => intro prev _; rfl
  | cons f fs ih =>
    intro prev h
    obtain ⟨h1, h2, h3⟩ := h f (by simp)
    simp only [entries, allLines]
    rw [unlines_append, entry_eq c _ f h1 h2 h3 hl, ih _ (fun g hg => h g (List.mem_cons_of_mem _ hg))]

theorem prefixOf_stops (b : Bool) (u n : Text) : Stops (prefixOf b u n).reverse := by
  intro c cs e
  unfold prefixOf at e
  cases b with
  | false =>
    simp at e
    rw [← e.1]; decide
  | true =>
    by_cases hu : u = []
    · simp [hu] at e
    · simp [hu] at e
      rw [← e.1]; decide

theorem prefixOf_head (b : Bool) (u n : Text) (h : (u ++ n).head? ≠ some '#') : (prefixOf b u n).head? ≠ some '#' := by
  unfold prefixOf
  cases u with
  | cons x xs => simpa using h
  | nil =>
    cases b with
    | true => simp
    | false =>
      cases n with
      | nil => simp
      | cons y ys => simpa using h

/-- What an entry does to the reader. -/
theorem fold_entry (cfg : Cfg) (c : Names) (nk : Bool) (f : Frag) (r : R) (hi : f.id < 2 ^ 64) (hk : f.keyId < 2 ^ 64)
    (hh : (c.baseUrl ++ c.name).head? ≠ some '#') (hd : r.discont = false)
    (hkey : (c.keys = true ∧ nk = true) ∨ r.keyId = f.keyId) :
    (entryLines c nk f).foldl (line cfg) r =
      { st := nextFrag cfg (setFrag cfg r.st r.st.nfrags (rounded f)), dur := (f.dur + 45) / 90 * 90, discont := false, keyId := f.keyId } := by
  unfold entryLines
  rw [List.foldl_append, List.foldl_append]
  obtain ⟨r1, h1⟩ : ∃ r1, r1 = (if f.discont = true then ["#EXT-X-DISCONTINUITY".toList] else []).foldl (line cfg) r := ⟨_, rfl⟩
  rw [← h1]
  have e1 : r1 = { r with discont := f.discont } := by
    rw [h1]
    cases hf : f.discont with
    | true => simp only [if_pos, List.foldl_cons, List.foldl_nil]; exact line_disc cfg r
    | false => simp only [Bool.false_eq_true, if_false, List.foldl_nil]; rw [← hd]
  obtain ⟨r2, h2⟩ : ∃ r2, r2 = (if c.keys = true ∧ nk = true then [keyLine c f.keyId] else []).foldl (line cfg) r1 := ⟨_, rfl⟩
  rw [← h2]
  have e2 : r2 = { r with discont := f.discont, keyId := f.keyId } := by
    rw [h2]
    by_cases hn : c.keys = true ∧ nk = true
    · rw [if_pos hn, List.foldl_cons, List.foldl_nil]
      have := line_key cfg r1 ("METHOD=AES-128,URI=\"".toList ++ prefixOf c.nested c.keyUrl c.name ++ dec f.keyId ++ ".key\",IV=0".toList) f.keyId hk
      unfold keyLine
      rw [this, e1]
    · rw [if_neg hn, List.foldl_nil, e1]
      rcases hkey with hkey | hkey
      · exact absurd hkey hn
      · rw [← hkey]
  simp only [List.foldl_cons, List.foldl_nil]
  rw [line_inf, line_file cfg _ _ f.id hi (prefixOf_head _ _ _ hh) (prefixOf_stops _ _ _), e2]
  rfl

theorem fold_entries (cfg : Cfg) (c : Names) (hh : (c.baseUrl ++ c.name).head? ≠ some '#') : ∀ fs prev r,
    (∀ f ∈ fs, f.id < 2 ^ 64 ∧ f.keyId < 2 ^ 64 ∧ (c.keys = false → f.keyId = 0)) → r.discont = false →
    (c.keys = true → ∀ k, prev = some k → r.keyId = k) → (c.keys = false → r.keyId = 0) →
    ((allLines c prev fs).foldl (line cfg) r).st = (fs.map rounded).foldl (fun st f => nextFrag cfg (setFrag cfg st st.nfrags f)) r.st := by
  intro fs
  induction fs with
  | nil => intro prev r _ _ _ _; rfl
  | cons f fs ih =>
    intro prev r h hd h1 h2
    obtain ⟨a1, a2, a3⟩ := h f (by simp)
    simp only [allLines]
    rw [List.foldl_append, fold_entry cfg c _ f r a1 a2 hh hd]
    · rw [ih _ _ (fun g hg => h g (List.mem_cons_of_mem _ hg)) rfl (fun _ k e => by simpa using e) a3]
      rfl
    · cases hk : c.keys with
      | false => exact Or.inr (by rw [h2 hk, a3 hk])
      | true =>
        by_cases hp : prev = some f.keyId
        · exact Or.inr (h1 hk _ hp)
        · exact Or.inl ⟨rfl, by simpa using hp⟩

theorem not_mem_dec (n : Nat) : '\n' ∉ dec n := by
  intro h
  unfold dec at h
  obtain ⟨d, hd, e⟩ := decGo_mem _ _ _ h
  exact (digit_plain d hd).1 e.symm

theorem not_mem_hex (k n : Nat) : '\n' ∉ hex k n := by
  intro h
  obtain ⟨d, hd, e⟩ := hex_mem _ _ _ h
  exact (hexDigit_plain d hd).1 e.symm

theorem not_mem_fixed3 (d : Nat) : '\n' ∉ fixed3 d := by
  unfold fixed3
  dsimp only
  intro h
  rcases List.mem_append.1 h with h | h
  · exact not_mem_dec _ h
  · simp only [List.mem_cons, List.not_mem_nil, or_false] at h
    rcases h with h | h | h | h
    · exact absurd h (by decide)
    · exact (digit_plain _ (Nat.mod_lt _ (by decide))).1 h.symm
    · exact (digit_plain _ (Nat.mod_lt _ (by decide))).1 h.symm
    · exact (digit_plain _ (Nat.mod_lt _ (by decide))).1 h.symm

theorem not_mem_prefixOf (b : Bool) (u n : Text) (hu : '\n' ∉ u) (hn : '\n' ∉ n) : '\n' ∉ prefixOf b u n := by
  unfold prefixOf
  simp only [List.mem_append, not_or]
  refine ⟨⟨hu, ?_⟩, ?_⟩
  · split
    · exact hn
    · simp
  · split
    · split <;> simp
    · simp

theorem headerLines_ok (c : Names) (p : Playlist) (h1 : p.seq < 2 ^ 64) (h2 : p.target < 2 ^ 64) : ∀ l ∈ headerLines c p, '\n' ∉ l ∧ l.length < 4096 := by
  have l1 := dec_length p.seq h1
  have l2 := dec_length p.target h2
  have k1 : "#EXT-X-MEDIA-SEQUENCE:".toList.length = 22 := by decide
  have k2 : "#EXT-X-TARGETDURATION:".toList.length = 22 := by decide
  intro l hl
  unfold headerLines at hl
  rcases List.mem_append.1 hl with hl | hl
  · simp only [List.mem_cons, List.not_mem_nil, or_false] at hl
    rcases hl with rfl | rfl | rfl | rfl
    · decide
    · decide
    · refine ⟨?_, by rw [List.length_append]; omega⟩
      rw [List.mem_append, not_or]; exact ⟨by decide, not_mem_dec _⟩
    · refine ⟨?_, by rw [List.length_append]; omega⟩
      rw [List.mem_append, not_or]; exact ⟨by decide, not_mem_dec _⟩
  · split at hl
    · rw [List.mem_singleton.1 hl]; decide
    · simp at hl

theorem entryLines_ok (c : Names) (nk : Bool) (f : Frag) (hi : f.id < 2 ^ 64) (hk : f.keyId < 2 ^ 64) (hd : f.dur < 2 ^ 64)
    (hl : 2 * c.name.length + c.baseUrl.length + c.keyUrl.length ≤ 800) (hn : '\n' ∉ c.name) (hb : '\n' ∉ c.baseUrl) (hu : '\n' ∉ c.keyUrl) :
    ∀ l ∈ entryLines c nk f, '\n' ∉ l ∧ l.length < 4096 := by
  have l1 := dec_length f.id hi
  have l2 := dec_length f.keyId hk
  have l3 := fixed3_length f.dur hd
  have l4 := prefixOf_length c.nested c.keyUrl c.name
  have l5 := prefixOf_length c.nested c.baseUrl c.name
  have l6 := hex_length 32 f.keyId
  intro l h
  unfold entryLines at h
  rcases List.mem_append.1 h with h | h
  · split at h
    · rw [List.mem_singleton.1 h]; decide
    · simp at h
  · rcases List.mem_append.1 h with h | h
    · split at h
      · rw [List.mem_singleton.1 h]
        have k1 : "#EXT-X-KEY:".toList.length = 11 := by decide
        have k2 : "METHOD=AES-128,URI=\"".toList.length = 20 := by decide
        have k3 : ".key\",IV=0".toList.length = 10 := by decide
        unfold keyLine
        refine ⟨?_, by simp only [List.length_append, List.length_cons]; omega⟩
        simp only [List.mem_append, List.mem_cons, not_or]
        exact ⟨by decide, ⟨⟨⟨by decide, not_mem_prefixOf _ _ _ hu hn⟩, not_mem_dec _⟩, by decide⟩, by decide, not_mem_hex _ _⟩
      · simp at h
    · simp only [List.mem_cons, List.not_mem_nil, or_false] at h
      rcases h with rfl | rfl
      · have k1 : "#EXTINF:".toList.length = 8 := by decide
        refine ⟨?_, by simp only [List.length_append, List.length_cons, List.length_nil]; omega⟩
        simp only [List.mem_append, not_or]
        exact ⟨⟨by decide, not_mem_fixed3 _⟩, by decide⟩
      · have k1 : ".ts".toList.length = 3 := by decide
        refine ⟨?_, by simp only [List.length_append]; omega⟩
        simp only [List.mem_append, not_or]
        exact ⟨⟨not_mem_prefixOf _ _ _ hb hn, not_mem_dec _⟩, by decide⟩

theorem allLines_ok (c : Names) (hl : 2 * c.name.length + c.baseUrl.length + c.keyUrl.length ≤ 800) (hn : '\n' ∉ c.name) (hb : '\n' ∉ c.baseUrl) (hu : '\n' ∉ c.keyUrl) :
    ∀ fs prev, (∀ f ∈ fs, f.id < 2 ^ 64 ∧ f.keyId < 2 ^ 64 ∧ f.dur < 2 ^ 64) → ∀ l ∈ allLines c prev fs, '\n' ∉ l ∧ l.length < 4096 := by
  intro fs
  induction fs with
  | nil => intro prev _ l h; simp [allLines] at h
  | cons f fs ih =>
    intro prev h l hx
    obtain ⟨h1, h2, h3⟩ := h f (by simp)
    simp only [allLines] at hx
    rcases List.mem_append.1 hx with hx | hx
    · exact entryLines_ok c _ f h1 h2 h3 hl hn hb hu l hx
    · exact ih _ (fun g hg => h g (List.mem_cons_of_mem _ hg)) l hx

theorem fold_header (cfg : Cfg) (c : Names) (p : Playlist) (r : R) : (headerLines c p).foldl (line cfg) r = { r with st := { r.st with frag := p.seq } } := by
  unfold headerLines
  rw [List.foldl_append]
  simp only [List.foldl_cons, List.foldl_nil]
  have e1 : line cfg r "#EXTM3U".toList = r := rfl
  have e2 : line cfg r "#EXT-X-VERSION:3".toList = r := rfl
  have e3 : ∀ r, line cfg r "#EXT-X-PLAYLIST-TYPE: EVENT".toList = r := fun _ => rfl
  rw [e1, e2, line_seq, line_target]
  split
  · simp only [List.foldl_cons, List.foldl_nil]; exact e3 _
  · rfl

theorem restore_render (cfg : Cfg) (kf : Nat → Option Nat) (c : Names) (p : Playlist) (h : Fits c p) :
    restore cfg kf (render c p) = resume cfg p.seq kf (p.entries.map rounded) := by
  have hf : ∀ f ∈ p.entries, f.id < 2 ^ 64 ∧ f.keyId < 2 ^ 64 ∧ f.dur < 2 ^ 64 := fun f hm => ⟨(h.hFrags f hm).1, (h.hFrags f hm).2.1, (h.hFrags f hm).2.2.1⟩
  have et : render c p = unlines (headerLines c p ++ allLines c none p.entries) := by
    unfold render
    rw [unlines_append, header_eq c p h.hSeq h.hTarget, entries_eq c h.hLen p.entries none hf]
  have hok : ∀ l ∈ headerLines c p ++ allLines c none p.entries, '\n' ∉ l ∧ l.length < 4096 := by
    intro l hl
    rcases List.mem_append.1 hl with hl | hl
    · exact headerLines_ok c p h.hSeq h.hTarget l hl
    · exact allLines_ok c h.hLen h.hName h.hBase h.hKeyUrl p.entries none hf l hl
  unfold restore
  rw [outer_eq cfg _ _ _ (by omega) (by rw [et]; exact short_unlines _ (fun l hl => (hok l hl).2)), et,
    inner_unlines cfg _ _ (fun l hl => (hok l hl).1)]
  dsimp only
  rw [List.foldl_append, fold_header]
  rw [fold_entries cfg c h.hTag p.entries none _ (fun f hm => ⟨(h.hFrags f hm).1, (h.hFrags f hm).2.1, (h.hFrags f hm).2.2.2⟩) rfl (fun _ k e => by cases e) (fun _ => rfl)]
  rfl

end Verif.HlsRestore
