import Verif.Rtmp.FlvModel
import Verif.Rtmp.FlvSpec
/- Buffers of the FLV parser, and its equivalence with a byte-at-a-time machine. -/
namespace Verif.Flv
open Verif

/-! ### Cutting -/

def cutAux (c : Nat) : Nat → Bytes → List Bytes
  | 0, d => [d]
  | n + 1, d => if d.length ≤ c then [d] else d.take c :: cutAux c n (d.drop c)

/-- The pieces as a function. -/
def cut (c : Nat) (d : Bytes) : List Bytes := cutAux c d.length d

theorem cutAux_fuel (c : Nat) (hc : 0 < c) : ∀ (n m : Nat) (d : Bytes), d.length ≤ n → d.length ≤ m → cutAux c n d = cutAux c m d := by
  intro n
  induction n with
  | zero =>
    intro m d h1 h2
    have : d = [] := List.length_eq_zero_iff.1 (by omega)
    subst this
    cases m <;> simp [cutAux]
  | succ n ih =>
    intro m d h1 h2
    cases m with
    | zero =>
      have : d = [] := List.length_eq_zero_iff.1 (by omega)
      subst this
      simp [cutAux]
    | succ m =>
      simp only [cutAux]
      split
      · rfl
      · rename_i h
        rw [ih m (d.drop c) (by simp; omega) (by simp; omega)]

theorem cut_short {c : Nat} {d : Bytes} (h : d.length ≤ c) : cut c d = [d] := by
  unfold cut
  cases e : d.length with
  | zero => rfl
  | succ n => simp [cutAux, h]

theorem cut_full {c : Nat} (hc : 0 < c) {b d : Bytes} (hb : b.length = c) (hd : d ≠ []) : cut c (b ++ d) = b :: cut c d := by
  have hl : 0 < d.length := List.length_pos_iff.2 hd
  unfold cut
  have e : (b ++ d).length = (c + d.length - 1) + 1 := by simp; omega
  rw [e]
  simp only [cutAux]
  rw [if_neg (by simp; omega), List.take_left' hb, List.drop_left' hb]
  rw [cutAux_fuel c hc _ d.length d (by omega) (by omega)]

/-- Full pieces followed by a last one are the cutting of their concatenation. -/
theorem cut_pieces {c : Nat} (hc : 0 < c) (full : List Bytes) (last : Bytes) (hf : ∀ b ∈ full, b.length = c) (hl : last.length ≤ c)
    (hn : last ≠ [] ∨ full = []) : cut c (full.flatten ++ last) = full ++ [last] := by
  induction full with
  | nil => simpa using cut_short hl
  | cons b full ih =>
    have hn' : last ≠ [] := by rcases hn with h | h; exact h; simp at h
    rw [List.flatten_cons, List.append_assoc,
      cut_full hc (hf b (by simp)) (by simp [hn']), ih (fun b' h => hf b' (by simp [h])) (Or.inl hn')]
    rfl

theorem cut_split (c : Nat) (hc : 0 < c) : ∀ (n : Nat) (d : Bytes), d.length ≤ n → ∃ full last, cut c d = full ++ [last] ∧ d = full.flatten ++ last ∧
    (∀ b ∈ full, b.length = c) ∧ last.length ≤ c ∧ (d ≠ [] → last ≠ []) := by
  intro n
  induction n with
  | zero =>
    intro d hd
    have : d = [] := List.length_eq_zero_iff.1 (by omega)
    subst this
    exact ⟨[], [], by simp [cut_short], by simp, by simp, by simp, by simp⟩
  | succ n ih =>
    intro d hd
    by_cases h : d.length ≤ c
    · exact ⟨[], d, by simp [cut_short h], by simp, by simp, h, id⟩
    · obtain ⟨full, last, h1, h2, h3, h4, h5⟩ := ih (d.drop c) (by simp; omega)
      have hne : d.drop c ≠ [] := by
        intro e
        have := congrArg List.length e
        simp at this
        omega
      have hl : (d.take c).length = c := by simp; omega
      refine ⟨d.take c :: full, last, ?_, ?_, ?_, h4, fun _ => h5 hne⟩
      · have := cut_full hc hl hne
        rw [List.take_append_drop] at this
        rw [this, h1]; rfl
      · rw [List.flatten_cons, List.append_assoc, ← h2, List.take_append_drop]
      · intro b hb
        rcases List.mem_cons.1 hb with rfl | hb
        · exact hl
        · exact h3 b hb

theorem cut_isPieces (c : Nat) (hc : 0 < c) (d : Bytes) : Pieces c (cut c d) d := by
  obtain ⟨full, last, h1, h2, h3, h4, h5⟩ := cut_split c hc d.length d (Nat.le_refl _)
  rw [h1]
  refine ⟨by simp [h2], by simp, by simpa using h3, ?_, ?_⟩
  · intro b hb
    simp only [List.mem_append, List.mem_singleton] at hb
    rcases hb with hb | rfl
    · exact Nat.le_of_eq (h3 b hb)
    · exact h4
  · intro hd hm
    simp only [List.mem_append, List.mem_singleton] at hm
    rcases hm with hm | hm
    · have := h3 _ hm; simp at this; omega
    · exact h5 hd hm.symm

/-! ### The copy loop -/

/-- Buffers of an unfinished payload. -/
def inpOf (c : Nat) (d : Bytes) : List Bytes := if d = [] then [] else cut c d

theorem fillLoop_spec (c : Nat) (hc : 0 < c) : ∀ (n : Nat) (done : List Bytes) (rest : List Bytes) (d : Bytes),
    (∀ b ∈ done, b.length = c) → rest.length ≤ 1 → (∀ b ∈ rest, b.length < c) → (d ≠ [] ∨ (done = [] ∧ rest = [])) → d.length + 1 ≤ n →
    fillLoop c n done rest d = some (cut c (done.flatten ++ rest.flatten ++ d)) := by
  intro n
  induction n with
  | zero => intro _ _ _ _ _ _ _ h; omega
  | succ n ih =>
    intro done rest d h1 h2 h3 h4 h5
    have hrest : ∃ b, rest.head?.elim [] id = b ∧ rest.flatten = b ∧ b.length < c ∧ rest.tail = [] := by
      match rest, h2 with
      | [], _ => exact ⟨[], rfl, rfl, hc, rfl⟩
      | [b], _ => exact ⟨b, rfl, by simp, h3 b (by simp), rfl⟩
    obtain ⟨b, e1, e2, hb, e3⟩ := hrest
    simp only [fillLoop, e1, e2, e3]
    by_cases h : c - b.length ≥ d.length
    · rw [if_pos h, List.append_nil, Option.some.injEq, List.append_assoc done.flatten]
      refine (cut_pieces hc done (b ++ d) h1 (by simp; omega) ?_).symm
      rcases h4 with h4 | h4
      · left; simp [h4]
      · right; exact h4.1
    · rw [if_neg h]
      have hd : d.drop (c - b.length) ≠ [] := by
        intro e
        have := congrArg List.length e
        simp at this
        omega
      rw [ih (done ++ [b ++ d.take (c - b.length)]) [] (d.drop (c - b.length)) ?_ (by simp) (by simp) (Or.inl hd) (by simp; omega)]
      · simp
      · intro b' hb'
        simp only [List.mem_append, List.mem_singleton] at hb'
        rcases hb' with hb' | rfl
        · exact h1 b' hb'
        · simp; omega

theorem fill_spec (c : Nat) (hc : 0 < c) (d0 d : Bytes) (h : d ≠ [] ∨ d0 = []) :
    fill c (inpOf c d0) d = some (cut c (d0 ++ d)) := by
  unfold fill inpOf
  by_cases hd0 : d0 = []
  · subst hd0
    simp only [if_pos, List.takeWhile_nil, List.dropWhile_nil]
    rw [fillLoop_spec c hc _ [] [] d (by simp) (by simp) (by simp) (by by_cases e : d = [] <;> simp [e]) (by simp)]
    simp
  · have hd : d ≠ [] := by rcases h with h | h; exact h; exact absurd h hd0
    rw [if_neg hd0]
    obtain ⟨full, last, h1, h2, h3, h4, h5⟩ := cut_split c hc d0.length d0 (Nat.le_refl _)
    rw [h1]
    have htw : ∀ l : List Bytes, (full ++ l).takeWhile (fun b => b.length == c) = full ++ l.takeWhile (fun b => b.length == c) := by
      intro l
      rw [List.takeWhile_append_of_pos]
      intro b hb; simpa using h3 b hb
    have hdw : ∀ l : List Bytes, (full ++ l).dropWhile (fun b => b.length == c) = l.dropWhile (fun b => b.length == c) := by
      intro l
      rw [List.dropWhile_append_of_pos]
      intro b hb; simpa using h3 b hb
    rw [htw, hdw]
    by_cases hl : last.length = c
    · rw [fillLoop_spec c hc]
      · simp [hl, h2]
      · intro b hb
        simp only [List.mem_append] at hb
        rcases hb with hb | hb
        · exact h3 b hb
        · simp [hl] at hb; rw [hb]; exact hl
      · simp [hl]
      · simp [hl]
      · exact Or.inl hd
      · simp <;> omega
    · rw [fillLoop_spec c hc]
      · simp [hl, h2]
      · intro b hb
        simp [hl] at hb
        exact h3 b hb
      · simp [hl]
      · intro b hb
        simp [hl] at hb
        subst hb; omega
      · exact Or.inl hd
      · simp <;> omega

/-! ### A byte at a time -/

/-- Change the payload. -/
def P.with {β γ : Type} (p : P β) (x : γ) : P γ := ⟨p.st, p.tagsize, p.first, p.type, p.mlen, p.ts, p.msid, p.len, x⟩

theorem hdrStep_with {β γ : Type} (p : P β) (x : γ) (ch : UInt8) : hdrStep (p.with x) ch = (hdrStep p ch).map fun q => q.with x := by
  obtain ⟨st, tagsize, first, type, mlen, ts, msid, len, inp⟩ := p
  cases st
  case tagsize3 =>
    simp only [hdrStep, P.with]
    show (if mlen = 0 ∧ first = false then _ else _) = Option.map _ (if mlen = 0 ∧ first = false then _ else _)
    by_cases h1 : mlen = 0 ∧ first = false
    · rw [if_pos h1, if_pos h1]; by_cases h2 : setByte tagsize 0 ch ≠ 0 <;> simp [h2]
    · rw [if_neg h1, if_neg h1]; by_cases h2 : mlen + 11 ≠ setByte tagsize 0 ch <;> simp [h2]
  all_goals
    simp only [hdrStep, P.with]
    repeat' split
    all_goals rfl

/-- The message that the parser hands over. -/
def msgOf (c : Nat) (p : P Bytes) : Msg := ⟨p.type, p.ts, p.msid, p.mlen, cut c p.inp⟩

/-- Hand over the collected message. -/
def deliver (c : Nat) (fails : List Msg → Bool) (p : P Bytes) (log : List Msg) : Res Bytes :=
  if fails (log ++ [msgOf c p]) then .failed (log ++ [msgOf c p])
  else .idle { p with st := .tagsize0, inp := [] } (log ++ [msgOf c p])

def head1 (p : P Bytes) (log : List Msg) (ch : UInt8) : Res Bytes :=
  match hdrStep p ch with
  | none => .bad log
  | some p => .idle p log

def data1 (c : Nat) (fails : List Msg → Bool) (p : P Bytes) (log : List Msg) (ch : UInt8) : Res Bytes :=
  if p.len = 0 then
    match deliver c fails p log with
    | .idle p log => head1 p log ch
    | r => r
  else if p.len = 1 then deliver c fails { p with inp := p.inp ++ [ch], len := 0 } log
  else .idle { p with inp := p.inp ++ [ch], len := p.len - 1 } log

/-- One byte. -/
def byte1 (c : Nat) (fails : List Msg → Bool) (r : Res Bytes) (ch : UInt8) : Res Bytes :=
  match r with
  | .idle p log => if p.st = .data then data1 c fails p log ch else head1 p log ch
  | r => r

def bytes (c : Nat) (fails : List Msg → Bool) (r : Res Bytes) (bs : Bytes) : Res Bytes := bs.foldl (byte1 c fails) r

theorem bytes_append (c : Nat) (fails : List Msg → Bool) (r : Res Bytes) (x y : Bytes) :
    bytes c fails r (x ++ y) = bytes c fails (bytes c fails r x) y := by simp [bytes]

theorem bytes_done (c : Nat) (fails : List Msg → Bool) (r : Res Bytes) (hr : ∀ p log, r ≠ .idle p log) (bs : Bytes) :
    bytes c fails r bs = r := by
  induction bs with
  | nil => rfl
  | cons b bs ih =>
    have : byte1 c fails r b = r := by
      cases r with
      | idle p log => exact absurd rfl (hr p log)
      | _ => rfl
    show bytes c fails (byte1 c fails r b) bs = r
    rw [this, ih]

/-- Concrete and abstract results correspond. -/
def Sim (c : Nat) : Res (List Bytes) → Res Bytes → Prop
  | .idle p log, .idle a log' => log = log' ∧ p = a.with (inpOf c a.inp)
  | .bad l, .bad l' => l = l'
  | .failed l, .failed l' => l = l'
  | _, _ => False

/-- A run of payload bytes that does not complete the message. -/
theorem bytes_data_more (c : Nat) (fails : List Msg → Bool) (a : P Bytes) (log : List Msg) (hst : a.st = .data) (d : Bytes)
    (hd : d.length < a.len) :
    bytes c fails (.idle a log) d = .idle { a with inp := a.inp ++ d, len := a.len - d.length } log := by
  induction d generalizing a with
  | nil => simp [bytes]
  | cons x d ih =>
    simp only [List.length_cons] at hd
    have : byte1 c fails (.idle a log) x = .idle { a with inp := a.inp ++ [x], len := a.len - 1 } log := by
      simp only [byte1, hst, if_pos, data1]
      rw [if_neg (by omega), if_neg (by omega)]
    show bytes c fails (byte1 c fails _ x) d = _
    rw [this]
    have := ih { a with inp := a.inp ++ [x], len := a.len - 1 } hst (by show _ < a.len - 1; omega)
    rw [this]
    simp only [List.append_assoc, List.singleton_append, List.length_cons]
    rw [show a.len - 1 - d.length = a.len - (d.length + 1) by omega]

/-- A run of payload bytes that completes the message. -/
theorem bytes_data_all (c : Nat) (fails : List Msg → Bool) (a : P Bytes) (log : List Msg) (hst : a.st = .data) (d : Bytes)
    (hd : d.length = a.len) (hne : d ≠ []) :
    bytes c fails (.idle a log) d = deliver c fails { a with inp := a.inp ++ d, len := 0 } log := by
  rcases List.eq_nil_or_concat d with rfl | ⟨e, x, rfl⟩
  · exact absurd rfl hne
  · rw [List.concat_eq_append] at hd ⊢
    simp only [List.length_append, List.length_singleton] at hd
    rw [bytes_append, bytes_data_more c fails a log hst e (by omega)]
    have hs : byte1 c fails (.idle { a with inp := a.inp ++ e, len := a.len - e.length } log) x =
        deliver c fails { a with inp := a.inp ++ e ++ [x], len := 0 } log := by
      simp only [byte1, hst, if_pos, data1]
      rw [if_neg (by omega), if_pos (by omega)]
    show bytes c fails (byte1 c fails _ x) [] = _
    rw [hs, List.append_assoc]
    rfl

/-- Reachable parser states. -/
structure Wf (a : P Bytes) : Prop where
  clean : a.st ≠ .data → a.inp = []
  fresh : a.st = .data → a.len = 0 → a.inp = []
  count : (a.st = .ts0 ∨ a.st = .ts1 ∨ a.st = .ts2 ∨ a.st = .tsExt ∨ a.st = .sid0 ∨ a.st = .sid1 ∨ a.st = .sid2 ∨ a.st = .data) →
    a.inp.length + a.len = a.mlen

theorem hdrStep_wf {a a' : P Bytes} {ch : UInt8} (hst : a.st ≠ .data) (h : Wf a) (e : hdrStep a ch = some a') : Wf a' := by
  obtain ⟨st, tagsize, first, type, mlen, ts, msid, len, inp⟩ := a
  have hi : inp = [] := h.clean hst
  subst hi
  have hc := h.count
  cases st <;> simp only [hdrStep] at e <;> (repeat' split at e) <;>
    first
    | exact absurd rfl hst
    | (cases e; done)
    | (simp only [Option.some.injEq] at e; subst e; constructor <;> simp at hc ⊢ <;> first | exact hc | skip)

theorem deliver_wf {c : Nat} {fails : List Msg → Bool} {a a' : P Bytes} {log log' : List Msg} (e : deliver c fails a log = .idle a' log') :
    Wf a' ∧ a'.st = .tagsize0 := by
  unfold deliver at e
  split at e
  · cases e
  · cases e
    exact ⟨⟨fun _ => rfl, fun h => by simp at h, fun h => by simp at h⟩, rfl⟩

/-- `parse` against the machine: what it consumed, and its result. -/
theorem parse_sim (c : Nat) (hc : 0 < c) (fails : List Msg → Bool) (log : List Msg) : ∀ (b : Bytes) (a : P Bytes), Wf a →
    ∃ q rc rest, parse c (a.with (inpOf c a.inp)) b = some (q, rc, rest) ∧
      match rc with
      | .again => ∃ a', q = a'.with (inpOf c a'.inp) ∧ Wf a' ∧ bytes c fails (.idle a log) b = .idle a' log
      | .error => bytes c fails (.idle a log) b = .bad log
      | .ok => ∃ a' : P Bytes, q = { a' with st := .tagsize0 }.with (cut c a'.inp) ∧ 
          bytes c fails (.idle a log) b = bytes c fails (deliver c fails a' log) rest ∧
          rest.length ≤ b.length ∧ (rest.length < b.length ∨ (a.st = .data ∧ a.len = 0)) := by
  intro b
  induction b with
  | nil => intro a ha; exact ⟨_, _, _, rfl, a, rfl, ha, rfl⟩
  | cons ch b ih =>
    intro a ha
    by_cases hst : a.st = .data
    · simp only [parse]
      rw [if_pos (show (a.with (inpOf c a.inp)).st = .data from hst)]
      show ∃ q rc rest, Option.map _ (fill c (inpOf c a.inp) ((ch :: b).take (min a.len (ch :: b).length))) = _ ∧ _
      by_cases hlen : a.len = 0
      · rw [fill_spec c hc a.inp _ (Or.inr (ha.fresh hst hlen))]
        refine ⟨_, .ok, ch :: b, ?_, a, rfl, ?_, Nat.le_refl _, Or.inr ⟨hst, hlen⟩⟩
        · simp [hlen, P.with]
        · show bytes c fails (byte1 c fails (.idle a log) ch) b = bytes c fails (byte1 c fails (deliver c fails a log) ch) b
          congr 1
          simp only [byte1, hst, if_pos, data1, hlen]
          by_cases hf : fails (log ++ [msgOf c a]) <;> simp [deliver, hf]
      · have hne : (ch :: b).take (min a.len (ch :: b).length) ≠ [] := by
          intro e
          have := congrArg List.length e
          simp only [List.length_take, List.length_cons, List.length_nil] at this
          omega
        rw [fill_spec c hc a.inp _ (Or.inl hne)]
        by_cases hall : a.len ≤ (ch :: b).length
        · have hmin : min a.len (ch :: b).length = a.len := Nat.min_eq_left hall
          refine ⟨_, .ok, (ch :: b).drop a.len, ?_, { a with inp := a.inp ++ (ch :: b).take a.len, len := 0 }, rfl, ?_, ?_, ?_⟩
          · simp only [Option.map_some, Option.some.injEq]
            show (if a.len - min a.len (ch :: b).length ≠ 0 then _ else _) = _
            rw [hmin, if_neg (by omega)]
            simp only [P.with]
            rw [hmin, Nat.sub_self]
          · conv => lhs; rw [← List.take_append_drop a.len (ch :: b)]
            rw [bytes_append, bytes_data_all c fails a log hst _ (by rw [List.length_take]; omega) (by rw [← hmin]; exact hne)]
          · rw [List.length_drop]; omega
          · left; rw [List.length_drop]; simp only [List.length_cons]; omega
        · have hmin : min a.len (ch :: b).length = (ch :: b).length := Nat.min_eq_right (by omega)
          have hL : a.len - (ch :: b).length ≠ 0 := by omega
          refine ⟨_, .again, [], ?_, { a with inp := a.inp ++ (ch :: b), len := a.len - (ch :: b).length }, rfl, ?_, ?_⟩
          · simp only [Option.map_some, Option.some.injEq]
            show (if a.len - min a.len (ch :: b).length ≠ 0 then _ else _) = _
            rw [hmin, if_pos hL]
            simp only [P.with, inpOf, List.take_length]
            rw [if_neg (by simp), hmin, List.drop_length]
          · refine ⟨fun h => absurd hst h, fun _ h => absurd h hL, fun _ => ?_⟩
            have := ha.count (by simp [hst])
            show (a.inp ++ (ch :: b)).length + (a.len - (ch :: b).length) = a.mlen
            rw [List.length_append]; omega
          · exact bytes_data_more c fails a log hst _ (by omega)
    · simp only [parse]
      rw [if_neg (show ¬ (a.with (inpOf c a.inp)).st = .data from hst), hdrStep_with]
      have hb : byte1 c fails (.idle a log) ch = head1 a log ch := by simp only [byte1, if_neg hst]
      cases hs : hdrStep a ch with
      | none =>
        refine ⟨_, .error, ch :: b, rfl, ?_⟩
        show bytes c fails (byte1 c fails _ ch) b = _
        rw [hb]
        simp only [head1, hs]
        exact bytes_done c fails _ (by simp) b
      | some a' =>
        have hw := hdrStep_wf hst ha hs
        have hinp : a'.inp = a.inp := by
          obtain ⟨st, tagsize, first, type, mlen, ts, msid, len, inp⟩ := a
          cases st <;> simp only [hdrStep] at hs <;> (repeat' split at hs) <;> cases hs <;> rfl
        obtain ⟨q, rc, rest, h1, h2⟩ := ih a' hw
        have hb2 : bytes c fails (.idle a log) (ch :: b) = bytes c fails (.idle a' log) b := by
          show bytes c fails (byte1 c fails _ ch) b = _
          rw [hb]
          simp only [head1, hs]
        refine ⟨q, rc, rest, ?_, ?_⟩
        · simp only [Option.map_some]
          rw [← hinp]; exact h1
        · cases rc with
          | again => obtain ⟨x, h3, h4, h5⟩ := h2; exact ⟨x, h3, h4, by rw [hb2, h5]⟩
          | error => show bytes c fails (.idle a log) (ch :: b) = _; rw [hb2]; exact h2
          | ok =>
            obtain ⟨x, h3, h4, h5, h6⟩ := h2
            refine ⟨x, h3, by rw [hb2, h4], ?_, ?_⟩
            · simp only [List.length_cons]; omega
            · left; simp only [List.length_cons]; omega

theorem recvBuf_sim (c : Nat) (hc : 0 < c) (fails : List Msg → Bool) : ∀ (n : Nat) (b : Bytes) (a : P Bytes) (log : List Msg), Wf a →
    b.length + (if a.st = .data ∧ a.len = 0 then 1 else 0) + 1 ≤ n →
    Sim c (recvBuf c fails n (a.with (inpOf c a.inp)) log b) (bytes c fails (.idle a log) b) ∧
      ∀ a' log', bytes c fails (.idle a log) b = .idle a' log' → Wf a' := by
  intro n
  induction n with
  | zero => intro _ _ _ _ h; omega
  | succ n ih =>
    intro b a log ha hn
    obtain ⟨q, rc, rest, h1, h2⟩ := parse_sim c hc fails log b a ha
    simp only [recvBuf, h1]
    cases rc with
    | again =>
      obtain ⟨a', rfl, h4, h5⟩ := h2
      rw [h5]
      refine ⟨⟨rfl, rfl⟩, ?_⟩
      intro a'' log' e; cases e; exact h4
    | error =>
      have h2 : bytes c fails (.idle a log) b = .bad log := h2
      rw [h2]
      exact ⟨rfl, fun _ _ e => by cases e⟩
    | ok =>
      obtain ⟨a', rfl, h4, h5, h6⟩ := h2
      rw [h4]
      have hm : (⟨a'.type, a'.ts, a'.msid, a'.mlen, cut c a'.inp⟩ : Msg) = msgOf c a' := rfl
      show Sim c (if fails (log ++ [msgOf c a']) = true then .failed (log ++ [msgOf c a']) else
        if rest = [] then .idle ({ a' with st := .tagsize0 }.with []) (log ++ [msgOf c a'])
        else recvBuf c fails n ({ a' with st := .tagsize0 }.with []) (log ++ [msgOf c a']) rest) _ ∧ _
      by_cases hf : fails (log ++ [msgOf c a']) = true
      · have hd : deliver c fails a' log = .failed (log ++ [msgOf c a']) := by simp [deliver, hf]
        rw [hd, bytes_done c fails _ (by simp) rest, if_pos hf]
        exact ⟨rfl, fun _ _ e => by cases e⟩
      · have hd : deliver c fails a' log = .idle { a' with st := .tagsize0, inp := [] } (log ++ [msgOf c a']) := by simp [deliver, hf]
        rw [hd, if_neg hf]
        have hw : Wf { a' with st := .tagsize0, inp := [] } := ⟨fun _ => rfl, fun h => by simp at h, fun h => by simp at h⟩
        by_cases hr : rest = []
        · rw [if_pos hr, hr]
          refine ⟨⟨rfl, by simp [P.with, inpOf]⟩, ?_⟩
          intro a'' log' e; cases e; exact hw
        · rw [if_neg hr]
          have := ih rest { a' with st := .tagsize0, inp := [] } (log ++ [msgOf c a']) hw (by
            rw [if_neg (by simp)]
            rcases h6 with h6 | h6
            · omega
            · rw [if_pos h6] at hn; omega)
          simpa [P.with, inpOf] using this

/-- The receiver over any chain of buffers is the byte-at-a-time machine on their concatenation. -/
theorem recvBufs_sim (c : Nat) (hc : 0 < c) (fails : List Msg → Bool) (bs : List Bytes) (a : P Bytes) (log : List Msg) (ha : Wf a) :
    Sim c (recvBufs c fails (a.with (inpOf c a.inp)) log bs) (bytes c fails (.idle a log) bs.flatten) := by
  induction bs generalizing a log with
  | nil => exact ⟨rfl, rfl⟩
  | cons b bs ih =>
    obtain ⟨h1, h2⟩ := recvBuf_sim c hc fails (b.length + 2) b a log ha (by split <;> omega)
    rw [List.flatten_cons, bytes_append]
    simp only [recvBufs]
    cases e1 : recvBuf c fails (b.length + 2) (a.with (inpOf c a.inp)) log b with
    | idle p l =>
      cases e2 : bytes c fails (.idle a log) b with
      | idle a' l' =>
        rw [e1, e2] at h1
        obtain ⟨rfl, rfl⟩ := h1
        exact ih a' l (h2 _ _ e2)
      | _ => rw [e1, e2] at h1; exact h1.elim
    | bad l =>
      cases e2 : bytes c fails (.idle a log) b with
      | bad l' => rw [e1, e2] at h1; rw [bytes_done c fails _ (by simp)]; exact h1
      | _ => rw [e1, e2] at h1; exact h1.elim
    | failed l =>
      cases e2 : bytes c fails (.idle a log) b with
      | failed l' => rw [e1, e2] at h1; rw [bytes_done c fails _ (by simp)]; exact h1
      | _ => rw [e1, e2] at h1; exact h1.elim
    | stuck => cases e2 : bytes c fails (.idle a log) b <;> rw [e1, e2] at h1 <;> exact h1.elim

end Verif.Flv
