import Verif.Client.RequestModel
import Verif.Toolkit.UrlProps
/-! C64: the head of an HTTP request says what was asked for. -/
namespace Verif.Client.Req
open Verif

/-! ### Specification -/

/-- The value a header was last given. -/
def lastVal (ops : List (Bytes × Bytes)) (k : Bytes) : Bytes := ops.foldl (fun v p => if p.1 = k then p.2 else v) []

/-- The names, in the order in which they were first used. -/
def names (ops : List (Bytes × Bytes)) : List Bytes := ops.foldl (fun l p => if p.1 ∈ l then l else l ++ [p.1]) []

/-- The headers of a request: every name once, with the last value; no value, no header. -/
def headers (ops : List (Bytes × Bytes)) : List (Bytes × Bytes) := ((names ops).map (fun k => (k, lastVal ops k))).filter (fun p => p.2 ≠ [])

/-- A header as text. -/
def hdrLine (p : Bytes × Bytes) : Bytes := p.1 ++ [58, 32] ++ p.2 ++ [13, 10]

/-- A request head as text. -/
def text (method target version : Bytes) (hs : List (Bytes × Bytes)) : Bytes :=
  method ++ [32] ++ target ++ [32] ++ version ++ [13, 10] ++ (hs.map hdrLine).flatten ++ [13, 10]

/-- Cut at the first line end. -/
def line : Bytes → Option (Bytes × Bytes)
  | [] => none
  | [_] => none
  | a :: b :: t => if a = 13 ∧ b = 10 then some ([], t) else (line (b :: t)).map (fun r => (a :: r.1, r.2))

/-- Cut at the first byte `c`. -/
def cut (c : UInt8) : Bytes → Option (Bytes × Bytes)
  | [] => none
  | a :: t => if a = c then some ([], t) else (cut c t).map (fun r => (a :: r.1, r.2))

/-- Header lines up to the empty line. `n` bounds the number of lines. -/
def readHeaders : Nat → Bytes → Option (List (Bytes × Bytes) × Bytes)
  | 0, _ => none
  | n + 1, b => do
    let (l, rest) ← line b
    if l = [] then return ([], rest)
    let (k, v) ← cut 58 l
    let (hs, rest) ← readHeaders n rest
    return ((k, v.dropWhile (· = 32)) :: hs, rest)

/-- What a server reads: method, target, version, headers, the rest. -/
def readHead (b : Bytes) : Option ((Bytes × Bytes × Bytes × List (Bytes × Bytes)) × Bytes) := do
  let (l, rest) ← line b
  let (m, l) ← cut 32 l
  let (t, v) ← cut 32 l
  let (hs, rest) ← readHeaders (b.length + 1) rest
  return ((m, t, v, hs), rest)

/-- The target of a request: path and arguments of the URL. -/
def target (u : Url.Url) : Bytes := [47] ++ u.path.getD [] ++ match u.query with | none => [] | some (a, _) => if a = [] then [] else [63] ++ a

/-- The headers every request has unless they are set differently. -/
def standard (u : Url.Url) (agent date : Bytes) : List (Bytes × Bytes) :=
  [(str "Host", u.host), (str "User-Agent", agent), (str "Connection", []), (str "Accept", str "*/*"), (str "Date", date)]

/-- The methods by their codes in ngx_http_client.h:17-31. -/
def codes : List (Nat × String) := [(0, "GET"), (1, "HEAD"), (2, "POST"), (3, "PUT"), (4, "DELETE"), (5, "MKCOL"), (6, "COPY"), (7, "MOVE"), (8, "OPTIONS"), (9, "PROPFIND"), (10, "PROPPATCH"),
  (11, "LOCK"), (12, "UNLOCK"), (13, "PATCH"), (14, "TRACE")]

/-- Neither CR nor LF. -/
def clean (l : Bytes) : Prop := (13 : UInt8) ∉ l ∧ (10 : UInt8) ∉ l
instance : Decidable (clean l) := inferInstanceAs (Decidable (_ ∧ _))

/-- A header that can be written as a line. -/
def hdrOk (p : Bytes × Bytes) : Prop := clean p.1 ∧ (58 : UInt8) ∉ p.1 ∧ clean p.2 ∧ p.2.head? ≠ some 32
instance : Decidable (hdrOk l) := inferInstanceAs (Decidable (_ ∧ _))

/-! ### Lemmas -/

@[elab_as_elim] theorem snocInd {α : Type} {P : List α → Prop} (l : List α) (nil : P []) (append_singleton : ∀ l x, P l → P (l ++ [x])) : P l := by
  rw [← List.reverse_reverse l]
  generalize l.reverse = r
  induction r with
  | nil => exact nil
  | cons x r ih => rw [List.reverse_cons]; exact append_singleton _ _ ih

theorem names_snoc (ops : List (Bytes × Bytes)) (p : Bytes × Bytes) : names (ops ++ [p]) = if p.1 ∈ names ops then names ops else names ops ++ [p.1] := by
  unfold names; rw [List.foldl_append]; rfl

theorem lastVal_snoc (ops : List (Bytes × Bytes)) (p : Bytes × Bytes) (k : Bytes) : lastVal (ops ++ [p]) k = if p.1 = k then p.2 else lastVal ops k := by
  unfold lastVal; rw [List.foldl_append]; rfl

theorem addAll_snoc (h : Hdrs) (ops : List (Bytes × Bytes)) (p : Bytes × Bytes) : addAll h (ops ++ [p]) = addHeader (addAll h ops) p.1 p.2 := by
  simp [addAll, List.foldl_append]

theorem mem_names : ∀ (ops : List (Bytes × Bytes)) (k : Bytes), k ∈ names ops ↔ ∃ v, (k, v) ∈ ops := by
  intro ops
  induction ops using snocInd with
  | nil => intro k; simp [names]
  | append_singleton ops p ih =>
    intro k
    rw [names_snoc]
    constructor
    · intro h
      split at h
      · obtain ⟨v, hv⟩ := (ih k).1 h
        exact ⟨v, List.mem_append_left _ hv⟩
      · rcases List.mem_append.1 h with h1 | h1
        · obtain ⟨v, hv⟩ := (ih k).1 h1
          exact ⟨v, List.mem_append_left _ hv⟩
        · exact ⟨p.2, by have : k = p.1 := by simpa using h1
                         rw [this]; simp⟩
    · intro ⟨v, hv⟩
      rcases List.mem_append.1 hv with h1 | h1
      · have := (ih k).2 ⟨v, h1⟩
        split
        · exact this
        · exact List.mem_append_left _ this
      · have : (k, v) = p := by simpa using h1
        subst this
        split
        · assumption
        · simp

theorem lastVal_none {ops : List (Bytes × Bytes)} {k : Bytes} : k ∉ names ops → lastVal ops k = [] := by
  induction ops using snocInd with
  | nil => intro _; rfl
  | append_singleton ops p ih =>
    intro h
    rw [names_snoc] at h
    rw [lastVal_snoc]
    split
    · rename_i e
      subst e
      split at h
      · rename_i h1; exact absurd h1 h
      · exact absurd (List.mem_append_right _ (by simp)) h
    · refine ih (fun h1 => h ?_)
      split
      · exact h1
      · exact List.mem_append_left _ h1

/-- Without moving, the array is the list of names with their values. -/
theorem elts_spec : ∀ (ops : List (Bytes × Bytes)), (names ops).length ≤ 64 → (addAll {} ops).stale = 0 ∧ (addAll {} ops).nalloc = 64 ∧
    (addAll {} ops).elts = (names ops).map (fun k => ⟨k, lastVal ops k⟩) := by
  intro ops
  induction ops using snocInd with
  | nil => intro _; exact ⟨rfl, rfl, rfl⟩
  | append_singleton ops p ih =>
    intro hl
    have hl' : (names ops).length ≤ 64 := by
      rw [names_snoc] at hl
      split at hl
      · exact hl
      · rw [List.length_append] at hl; omega
    obtain ⟨i1, i2, i3⟩ := ih hl'
    have hk : (addAll {} ops).elts.map (·.key) = names ops := by rw [i3]; simp [Function.comp_def]
    rw [addAll_snoc]
    unfold addHeader
    rw [i1, List.take_zero, if_neg (by simp), hk]
    split
    · rename_i hm
      refine ⟨rfl, i2, ?_⟩
      dsimp only
      rw [i3, names_snoc, if_pos hm, List.map_map]
      refine List.map_congr_left (fun k _ => ?_)
      simp only [Function.comp_apply, lastVal_snoc]
      by_cases e : k = p.1
      · rw [if_pos e, if_pos e.symm]
      · rw [if_neg e, if_neg (fun h => e h.symm)]
    · rename_i hm
      rw [names_snoc, if_neg hm, List.length_append] at hl
      have hlen : (addAll {} ops).elts.length = (names ops).length := by rw [← hk]; simp
      rw [if_neg (by rw [hlen, i2]; simp at hl; omega)]
      refine ⟨rfl, i2, ?_⟩
      dsimp only
      rw [names_snoc, if_neg hm, List.map_append, i3]
      congr 1
      · refine List.map_congr_left (fun k hk2 => ?_)
        rw [lastVal_snoc, if_neg (fun h => hm (by rw [h]; exact hk2))]
      · simp [lastVal_snoc]

theorem fill_eq (cap : Nat) : ∀ (ps : List Bytes) (b : Bytes), b.length + ps.flatten.length ≤ cap → fill cap b ps = some (b ++ ps.flatten)
  | [], b, _ => by simp [fill]
  | p :: ps, b, h => by
    rw [List.flatten_cons, List.length_append] at h
    unfold fill
    rw [if_neg (by omega), fill_eq cap ps (b ++ p) (by rw [List.length_append]; omega)]
    simp

theorem version_len {v : Nat} {t : Bytes} (h : versions[v]? = some t) : t.length = 8 := by
  have hlt : v < 4 := by
    have := (List.getElem?_eq_some_iff.1 h).1
    exact this
  have : ∀ v, v < 4 → ∀ t, versions[v]? = some t → t.length = 8 := by
    intro v hv
    have hall : ∀ w, w < 4 → (versions[w]?.map List.length) = some 8 := by decide +kernel
    intro t ht
    have := hall v hv
    rw [ht] at this
    simpa using this
  exact this v hlt t h

theorem hdr_pieces (hs : List Hdr) : ((hs.map (fun h => if h.value = [] then [] else [h.key, [58, 32], h.value, [13, 10]])).flatten).flatten.length =
    (hs.map (fun h => if h.value = [] then 0 else h.key.length + 2 + h.value.length + 2)).sum := by
  induction hs with
  | nil => rfl
  | cons h hs ih =>
    rw [List.map_cons, List.flatten_cons, List.flatten_append, List.length_append, ih, List.map_cons, List.sum_cons]
    congr 1
    split
    · rfl
    · simp; omega

/-! ### Properties -/

/-- The buffer is as large as what is written into it: no write behind its end, and no byte of it is left. -/
theorem C64_buffer (r : Request) (hm : r.method < 15) (hv : r.version < 4) : ∃ m v t, methods[r.method]? = some m ∧ versions[r.version]? = some v ∧
    requestBuf r = some t ∧ t.length = reqLen r m := by
  obtain ⟨m, em⟩ : ∃ m, methods[r.method]? = some m := ⟨methods[r.method]'hm, List.getElem?_eq_getElem hm⟩
  obtain ⟨v, ev⟩ : ∃ v, versions[r.version]? = some v := ⟨versions[r.version]'hv, List.getElem?_eq_getElem hv⟩
  have hl : (pieces r m v).flatten.length = reqLen r m := by
    unfold pieces reqLen
    simp only [List.flatten_append, List.length_append, hdr_pieces]
    have := version_len ev
    split <;> split <;> simp [this] <;> omega
  refine ⟨m, v, (pieces r m v).flatten, em, ev, ?_, hl⟩
  unfold requestBuf
  rw [em, ev]
  have := fill_eq (reqLen r m) (pieces r m v) [] (by simp only [List.length_nil]; omega)
  exact this

theorem request_text {method : Nat} (hm : method < 15) {u : Url.Url} (hu : u.Valid) {hs : List (Bytes × Bytes)} {agent date : Bytes}
    (hn : (names (defaults u.view agent date ++ hs)).length ≤ 64) :
    ∃ r m, create method u.text hs agent date = some r ∧ methods[method]? = some m ∧ requestBuf r = some (text m (target u) (str "HTTP/1.1") (headers (defaults u.view agent date ++ hs))) := by
  obtain ⟨m, em⟩ : ∃ m, methods[method]? = some m := ⟨methods[method]'hm, List.getElem?_eq_getElem hm⟩
  have hall : addAll (addAll {} (defaults u.view agent date)) hs = addAll {} (defaults u.view agent date ++ hs) := by
    unfold addAll; rw [List.foldl_append]
  refine ⟨{ method := method, url := u.view, headers := addAll {} (defaults u.view agent date ++ hs) }, m, ?_, em, ?_⟩
  · unfold create
    rw [Url.C31_complete u hu]
    dsimp only
    rw [hall]
  · generalize hops : defaults u.view agent date ++ hs = ops at hn ⊢
    obtain ⟨m', v, t, e1, e2, e3, e4⟩ := C64_buffer { method := method, url := u.view, headers := addAll {} ops } hm (show 2 < 4 by decide)
    have e1' : methods[method]? = some m' := e1
    rw [em] at e1'
    cases e1'
    have ev : v = str "HTTP/1.1" := by
      have : versions[2]? = some (str "HTTP/1.1") := by decide +kernel
      have e2' : versions[2]? = some v := e2
      rw [this] at e2'
      cases e2'; rfl
    rw [e3]
    congr 1
    unfold requestBuf at e3
    rw [e1, e2] at e3
    dsimp only at e3
    rw [fill_eq _ _ _ (by
      have hl : (pieces { method := method, url := u.view, headers := addAll {} ops } m v).flatten.length = reqLen { method := method, url := u.view, headers := addAll {} ops } m := by
        unfold pieces reqLen
        simp only [List.flatten_append, List.length_append, hdr_pieces]
        have := version_len e2
        split <;> split <;> simp [this] <;> omega
      simp only [List.length_nil]; omega)] at e3
    rw [List.nil_append] at e3
    cases e3
    rw [ev]
    obtain ⟨_, _, he⟩ := elts_spec ops hn
    have hh : ((addAll {} ops).elts.map (fun h => if h.value = [] then [] else [h.key, [58, 32], h.value, [13, 10]])).flatten.flatten =
        ((headers ops).map hdrLine).flatten := by
      rw [he]
      unfold headers
      generalize names ops = l
      induction l with
      | nil => rfl
      | cons k l ih =>
        rw [List.map_cons, List.map_cons, List.flatten_cons, List.flatten_append, ih, List.map_cons]
        by_cases hz : lastVal ops k = []
        · rw [if_pos hz, List.filter_cons_of_neg (by simp [hz])]; rfl
        · rw [if_neg hz, List.filter_cons_of_pos (by simp [hz]), List.map_cons, List.flatten_cons]; simp [hdrLine]
    unfold pieces text
    simp only [List.flatten_append, hh]
    have ht : ([m, [32], [47]] : List Bytes).flatten ++ (if u.view.path ≠ [] then [u.view.path] else []).flatten ++ (if u.view.args ≠ [] then [[63], u.view.args] else []).flatten = m ++ [32] ++ target u := by
      unfold target Url.Url.view
      dsimp only
      cases u.query with
      | none => cases u.path with
        | none => simp
        | some p => by_cases hp : p = [] <;> simp [hp]
      | some q =>
        obtain ⟨a, f⟩ := q
        cases u.path with
        | none => by_cases ha : a = [] <;> simp [ha]
        | some p => by_cases hp : p = [] <;> by_cases ha : a = [] <;> simp [hp, ha]
    rw [ht]
    simp [List.append_assoc]

/-- The request for a URL: its path and arguments, and every header that was set once, with its last value. For at most 64 names (`C64_moved_violation`). -/
theorem C64_request_partial {method : Nat} {name : String} (hm : (method, name) ∈ codes) {u : Url.Url} (hu : u.Valid) {hs : List (Bytes × Bytes)} {agent date : Bytes}
    (hn : (names (standard u agent date ++ hs)).length ≤ 64) :
    ∃ r, create method u.text hs agent date = some r ∧ requestBuf r = some (text (str name) (target u) (str "HTTP/1.1") (headers (standard u agent date ++ hs))) := by
  have hlt : method < 15 := by
    have : ∀ p ∈ codes, p.1 < 15 := by decide
    exact this _ hm
  have hnm : methods[method]? = some (str name) := by
    have : ∀ p ∈ codes, methods[p.1]? = some (str p.2) := by decide +kernel
    exact this _ hm
  have hsd : standard u agent date = defaults u.view agent date := rfl
  rw [hsd] at hn ⊢
  obtain ⟨r, m, h1, h2, h3⟩ := request_text hlt hu hn
  rw [hnm] at h2
  cases h2
  exact ⟨r, h1, h3⟩

/-- Every name is there at most once, and the value is the one that was set last. -/
theorem C64_headers (ops : List (Bytes × Bytes)) : ((headers ops).map (·.1)).Nodup ∧ ∀ k v, (k, v) ∈ headers ops ↔ v ≠ [] ∧ lastVal ops k = v := by
  constructor
  · have hnd : (names ops).Nodup := by
      induction ops using snocInd with
      | nil => exact List.nodup_nil
      | append_singleton ops p ih =>
        rw [names_snoc]
        split
        · exact ih
        · rename_i h
          rw [List.nodup_append]
          exact ⟨ih, by simp, fun a ha b hb => by
            have : b = p.1 := by simpa using hb
            subst this
            exact fun e => h (e ▸ ha)⟩
    have hsub : ((headers ops).map (·.1)).Sublist (((names ops).map (fun k => (k, lastVal ops k))).map (·.1)) := List.filter_sublist.map _
    have e : ((names ops).map (fun k => (k, lastVal ops k))).map (·.1) = names ops := by simp [Function.comp_def]
    rw [e] at hsub
    exact hsub.nodup hnd
  · intro k v
    unfold headers
    rw [List.mem_filter, List.mem_map]
    constructor
    · intro ⟨⟨a, _, e⟩, h⟩
      cases e
      exact ⟨by simpa using h, rfl⟩
    · intro ⟨h1, h2⟩
      refine ⟨⟨k, ?_, by rw [h2]⟩, by simpa using h1⟩
      apply Classical.byContradiction
      intro hk
      rw [lastVal_none hk] at h2
      exact h1 h2.symm

theorem line_append : ∀ {l : Bytes} (t : Bytes), clean l → line (l ++ 13 :: 10 :: t) = some (l, t)
  | [], t, _ => by simp [line]
  | [a], t, h => by
    have h1 : a ≠ 13 := fun e => h.1 (by simp [e])
    simp [line, h1]
  | a :: b :: l, t, h => by
    have h1 : a ≠ 13 := fun e => h.1 (by simp [e])
    have ih := line_append (l := b :: l) t ⟨fun e => h.1 (List.mem_cons_of_mem _ e), fun e => h.2 (List.mem_cons_of_mem _ e)⟩
    rw [List.cons_append, List.cons_append]
    unfold line
    rw [if_neg (fun e => h1 e.1)]
    rw [List.cons_append] at ih
    rw [ih]; rfl

theorem cut_append {c : UInt8} : ∀ {l : Bytes} (t : Bytes), c ∉ l → cut c (l ++ c :: t) = some (l, t)
  | [], t, _ => by simp [cut]
  | a :: l, t, h => by
    have h1 : a ≠ c := fun e => h (by simp [e])
    rw [List.cons_append]
    unfold cut
    rw [if_neg h1, cut_append t (fun e => h (List.mem_cons_of_mem _ e))]; rfl

theorem readHeaders_text : ∀ {hs : List (Bytes × Bytes)} (n : Nat) (rest : Bytes), hs.length < n → (∀ p ∈ hs, hdrOk p) →
    readHeaders n ((hs.map hdrLine).flatten ++ [13, 10] ++ rest) = some (hs, rest)
  | [], n + 1, rest, _, _ => by simp [readHeaders, line]
  | p :: hs, n + 1, rest, hn, h => by
    obtain ⟨h1, h2, h3, h4⟩ := h p List.mem_cons_self
    have ih := readHeaders_text (hs := hs) n rest (by simp at hn; omega) (fun x hx => h x (List.mem_cons_of_mem _ hx))
    have hc : clean (p.1 ++ [58, 32] ++ p.2) := ⟨by simp [h1.1, h3.1], by simp [h1.2, h3.2]⟩
    have e : ((p :: hs).map hdrLine).flatten ++ [13, 10] ++ rest =
        (p.1 ++ [58, 32] ++ p.2) ++ 13 :: 10 :: ((hs.map hdrLine).flatten ++ [13, 10] ++ rest) := by simp [hdrLine]
    rw [e]
    unfold readHeaders
    rw [line_append _ hc]
    simp only [bind, Option.bind]
    rw [if_neg (by simp)]
    have ec : cut 58 (p.1 ++ [58, 32] ++ p.2) = some (p.1, 32 :: p.2) := by
      have := cut_append (l := p.1) (32 :: p.2) h2
      simpa using this
    rw [ec]
    dsimp only
    rw [ih]
    dsimp only
    have ed : (32 :: p.2).dropWhile (· = 32) = p.2 := by
      rw [List.dropWhile_cons_of_pos (by simp)]
      cases hp : p.2 with
      | nil => rfl
      | cons a l =>
        rw [hp] at h4
        rw [List.dropWhile_cons_of_neg (by simpa using h4)]
    rw [ed]
    rfl

/-- A server that reads the request gets these parts and nothing behind them, if no part has a line end in it, the target no space and no name a colon. -/
theorem C64_read_partial {m t v : Bytes} {hs : List (Bytes × Bytes)} (rest : Bytes) (hm : clean m ∧ (32 : UInt8) ∉ m) (ht : clean t ∧ (32 : UInt8) ∉ t) (hv : clean v) (hh : ∀ p ∈ hs, hdrOk p) :
    readHead (text m t v hs ++ rest) = some ((m, t, v, hs), rest) := by
  unfold readHead text
  have hc : clean (m ++ [32] ++ t ++ [32] ++ v) := ⟨by simp [hm.1.1, ht.1.1, hv.1], by simp [hm.1.2, ht.1.2, hv.2]⟩
  have e : m ++ [32] ++ t ++ [32] ++ v ++ [13, 10] ++ (hs.map hdrLine).flatten ++ [13, 10] ++ rest =
      (m ++ [32] ++ t ++ [32] ++ v) ++ 13 :: 10 :: ((hs.map hdrLine).flatten ++ [13, 10] ++ rest) := by simp [hdrLine]
  rw [e]
  have hlen : hs.length < ((m ++ [32] ++ t ++ [32] ++ v) ++ 13 :: 10 :: ((hs.map hdrLine).flatten ++ [13, 10] ++ rest)).length + 1 := by
    have : ∀ l : List (Bytes × Bytes), l.length ≤ (l.map hdrLine).flatten.length := fun l => by
      induction l with
      | nil => simp
      | cons p l ih => rw [List.map_cons, List.flatten_cons, List.length_append, List.length_cons, hdrLine]; simp only [List.length_append, List.length_cons]; omega
    have := this hs
    simp only [List.length_append, List.length_cons]
    omega
  generalize ((m ++ [32] ++ t ++ [32] ++ v) ++ 13 :: 10 :: ((hs.map hdrLine).flatten ++ [13, 10] ++ rest)).length + 1 = n at hlen ⊢
  rw [line_append _ hc]
  simp only [bind, Option.bind]
  have e1 : cut 32 (m ++ [32] ++ t ++ [32] ++ v) = some (m, t ++ [32] ++ v) := by
    have := cut_append (l := m) (t ++ [32] ++ v) hm.2
    simpa using this
  rw [e1]
  dsimp only
  have e2 : cut 32 (t ++ [32] ++ v) = some (t, v) := by
    have := cut_append (l := t) v ht.2
    simpa using this
  rw [e2]
  dsimp only
  rw [readHeaders_text n rest hlen hh]
  rfl

/-! ### Examples -/

def exUrl : Url.Url := ⟨str "http", none, str "h.tv", some (str "8080"), some (str "live/s"), some (str "k=1", none)⟩

theorem exUrl_valid : exUrl.Valid := by
  constructor
  case first => decide +kernel
  case user => intro x h; cases h
  case port => intro x h; cases h; decide +kernel
  case path => intro x h; cases h; decide +kernel
  case args => intro a h; cases h; decide +kernel
  case fragment => intro a f h; cases h
  all_goals decide +kernel

example : (create 0 exUrl.text [(str "Host", str "a.b"), (str "X", str "1"), (str "X", str "2"), (str "Accept", [])] (str "n") (str "d")).bind requestBuf =
    some (str "GET /live/s?k=1 HTTP/1.1\r\nHost: a.b\r\nUser-Agent: n\r\nDate: d\r\nX: 2\r\n\r\n") := by decide +kernel

example : (clean (str "GET") ∧ (32 : UInt8) ∉ str "GET") ∧ (clean (target exUrl) ∧ (32 : UInt8) ∉ target exUrl) ∧ clean (str "HTTP/1.1") ∧ ∀ p ∈ headers (standard exUrl (str "n") (str "d")), hdrOk p := by
  decide +kernel

/-! ### Where the code is wrong -/

/-- The `Host` header leaves out the port of the URL. -/
theorem C64_host_violation : (create 0 exUrl.text [] (str "n") (str "d")).bind requestBuf =
    some (str "GET /live/s?k=1 HTTP/1.1\r\nHost: h.tv\r\nUser-Agent: n\r\nAccept: */*\r\nDate: d\r\n\r\n") := by decide +kernel

/-- Names are compared with their case: a request may have the same header twice. -/
theorem C64_case_violation : (create 0 (str "http://h/") [(str "host", str "x")] (str "n") (str "d")).bind requestBuf =
    some (str "GET / HTTP/1.1\r\nHost: h\r\nUser-Agent: n\r\nAccept: */*\r\nDate: d\r\nhost: x\r\n\r\n") := by decide +kernel

/-- Line ends in a value are not refused: they add headers, or end the request. -/
theorem C64_inject_violation : ∃ r t, create 0 (str "http://h/") [(str "X", str "1\r\nY: 2")] (str "n") (str "d") = some r ∧ requestBuf r = some t ∧
    (readHead t).map (·.1.2.2.2) = some [(str "Host", str "h"), (str "User-Agent", str "n"), (str "Accept", str "*/*"), (str "Date", str "d"), (str "X", str "1"), (str "Y", str "2")] :=
  ⟨{ method := 0, url := (Url.parse {} (str "http://h/")).get (by decide +kernel), headers := addAll (addAll {} (defaults ((Url.parse {} (str "http://h/")).get (by decide +kernel)) (str "n") (str "d"))) [(str "X", str "1\r\nY: 2")] },
    str "GET / HTTP/1.1\r\nHost: h\r\nUser-Agent: n\r\nAccept: */*\r\nDate: d\r\nX: 1\r\nY: 2\r\n\r\n", by decide +kernel, by decide +kernel, by decide +kernel⟩

/-- `n` different names. -/
def many (n : Nat) : List (Bytes × Bytes) := (List.range n).map (fun i => ([65, UInt8.ofNat i], [49]))

/-- After the 65th name the headers set before cannot be changed any more: the change is made to the old copy of the array. -/
theorem C64_moved_violation : lastVal (many 65 ++ [([65, 0], [50])]) [65, 0] = [50] ∧ (addAll {} (many 65 ++ [([65, 0], [50])])).elts.head? = some ⟨[65, 0], [49]⟩ ∧
    (names (many 65 ++ [([65, 0], [50])])).length = 65 := by decide +kernel

end Verif.Client.Req
