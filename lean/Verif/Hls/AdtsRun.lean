import Verif.Hls.AdtsLemmas
namespace Verif.Adts
open Verif Annex

/-- The frames of `g` wait in the buffer. -/
structure Held (a : Asc) (sync : Nat) (st : St) (g : List Msg) : Prop where
  hBuf : st.buf = g.flatMap fun m => enc a m.bytes
  hTime : ∀ m, g.head? = some m → ∃ d : Int, -90 * (sync : Int) ≤ d ∧ d ≤ 90 * (sync : Int) ∧ ((st.pts : Int) - (90 * m.ts + d)) % 2 ^ 64 = 0

def Good (m : Msg) : Prop := 2 ≤ m.bytes.length ∧ m.bytes.length + 5 < 8192

/-- The messages `ms` are written or wait. -/
def Inv (a : Asc) (sync : Nat) (st : St) (ms : List Msg) : Prop :=
  ∃ (gs : List ((Nat × Bytes) × List Msg)) (g : List Msg), st.out = gs.map Prod.fst ∧ (∀ x ∈ gs, Pes a sync x.1 x.2) ∧ Held a sync st g ∧
    (gs.map Prod.snd).flatten ++ g = ms

theorem held_nil {a : Asc} {g : List Msg} (h : (g.flatMap fun m => enc a m.bytes) = []) : g = [] := by
  cases g with
  | nil => rfl
  | cons m g =>
    have := congrArg List.length h
    rw [List.flatMap_cons, List.length_append, enc_length] at this
    simp at this

section
variable {a : Asc} (ha : a.Ok) {sync : Nat}
include ha

theorem flush_inv {st : St} {ms : List Msg} (hms : ∀ m ∈ ms, Good m) (h : Inv a sync st ms) : Inv a sync (flush st) ms := by
  rw [flush]
  by_cases hc : st.opened = false ∨ st.buf = []
  · rw [if_pos hc]; exact h
  · rw [if_neg hc]
    obtain ⟨gs, g, h1, h2, h3, h4⟩ := h
    refine ⟨gs ++ [((st.pts, st.buf), g)], [], ?_, ?_, ⟨rfl, fun m h => by cases h⟩, ?_⟩
    · dsimp only; rw [h1, List.map_append]; rfl
    · intro x hx
      rcases List.mem_append.1 hx with hx | hx
      · exact h2 x hx
      · have := List.mem_singleton.1 hx
        subst this
        refine ⟨?_, ?_, h3.hTime⟩
        · intro e; subst e; exact hc (.inr h3.hBuf)
        · dsimp only
          have := decoded_all ha (g.map Msg.bytes) (by
            intro b hb
            obtain ⟨m, hm, rfl⟩ := List.mem_map.1 hb
            exact hms m (by rw [← h4]; simp [hm]))
          rw [h3.hBuf, ← List.flatMap_map Msg.bytes (enc a), this, List.map_map]
          rfl
    · rw [← h4]; simp

theorem due_inv {cfg : Cfg} {rate now : Nat} {st : St} {ms : List Msg} (hms : ∀ m ∈ ms, Good m) (h : Inv a sync st ms) : Inv a sync (due cfg rate now st) ms := by
  rw [due]; split
  · exact flush_inv ha hms h
  · exact h

omit ha in
theorem align_buf (cfg : Cfg) (now : Nat) (f : Bool) (st : St) : (align cfg now f st).buf = st.buf ∧ (align cfg now f st).out = st.out ∧
    (f = false → (align cfg now f st).pts = st.pts) := by
  rw [align]
  split
  · exact ⟨rfl, rfl, fun _ => rfl⟩
  · rename_i hf
    split
    · exact ⟨rfl, rfl, fun h => absurd h hf⟩
    · dsimp only
      split
      · exact ⟨rfl, rfl, fun h => absurd h hf⟩
      · exact ⟨rfl, rfl, fun h => absurd h hf⟩

omit ha in
theorem align_time (cfg : Cfg) (ts : Nat) (st : St) : ∃ d : Int, -90 * (cfg.sync : Int) ≤ d ∧ d ≤ 90 * (cfg.sync : Int) ∧
    (((align cfg (ts * 90) true st).pts : Int) - (90 * ts + d)) % 2 ^ 64 = 0 := by
  have zero : ∀ p : Nat, p = ts * 90 → ∃ d : Int, -90 * (cfg.sync : Int) ≤ d ∧ d ≤ 90 * (cfg.sync : Int) ∧ ((p : Int) - (90 * ts + d)) % 2 ^ 64 = 0 := by
    intro p hp
    exact ⟨0, by omega, by omega, by omega⟩
  rw [align, if_neg (by simp)]
  split
  · exact zero _ rfl
  · dsimp only
    split
    · rename_i h
      dsimp only
      generalize he : (st.base + st.num * 90000 * 1024 % 2 ^ 64 / cfg.rate) % 2 ^ 64 = est at h ⊢
      have hs := signed_mod (est + (2 ^ 64 - ts * 90 % 2 ^ 64))
      generalize signed (est + (2 ^ 64 - ts * 90 % 2 ^ 64)) = d at h hs
      refine ⟨d, by omega, by omega, ?_⟩
      have hlt : ts * 90 % 2 ^ 64 < 2 ^ 64 := Nat.mod_lt _ (by decide)
      omega
    · exact zero _ rfl

theorem append_inv {cfg : Cfg} {x y : UInt8} {ext : Bytes} (hh : cfg.hdr.flatten = x :: y :: (a.bytes ++ ext)) {ts : Nat} {msg : Cur} {junk : Bytes} {st : St} {ms : List Msg}
    (hms : ∀ m ∈ ms, Good m) (hlen : 2 ≤ msg.flatten.length) (hroom : st.buf.length + msg.flatten.length + 5 ≤ cfg.cap) (h : Inv a cfg.sync st ms) :
    Inv a cfg.sync (append cfg (ts * 90) msg junk st) (ms ++ [⟨ts, msg.flatten⟩]) := by
  rw [append, if_neg (by omega), aacHeader_ok ha hh]
  dsimp only
  rw [fill_all _ _ (by omega)]
  obtain ⟨gs, g, h1, h2, h3, h4⟩ := h
  obtain ⟨st1, hst1⟩ : ∃ st1 : St, st1 = { st with buf := st.buf ++ (adts (if a.obj > 4 then 2 else a.obj) a.sr a.ch (msg.flatten.length - 2 + 7) ++ msg.flatten.drop 2) } := ⟨_, rfl⟩
  rw [← hst1]
  have hb1 : st1.buf = st.buf ++ enc a msg.flatten := by rw [hst1]; rfl
  obtain ⟨a1, a2, a3⟩ := align_buf cfg (ts * 90) st.buf.isEmpty st1
  refine ⟨gs, g ++ [⟨ts, msg.flatten⟩], ?_, h2, ⟨?_, ?_⟩, ?_⟩
  · rw [a2, hst1]; exact h1
  · rw [a1, hb1, h3.hBuf, List.flatMap_append]; simp
  · intro m hm
    cases g with
    | nil =>
      have : st.buf.isEmpty = true := by rw [h3.hBuf]; rfl
      rw [this]
      have : m = ⟨ts, msg.flatten⟩ := by simpa using hm.symm
      subst this
      exact align_time cfg ts st1
    | cons m' g =>
      have hne : st.buf.isEmpty = false := by
        cases hb : st.buf.isEmpty with
        | false => rfl
        | true =>
          have := held_nil (a := a) (g := m' :: g) (by rw [← h3.hBuf]; exact List.isEmpty_iff.1 hb)
          cases this
      rw [a3 hne, hst1]
      have : m' = m := by simpa using hm
      subst this
      exact h3.hTime _ rfl
  · rw [← h4, List.append_assoc]

omit ha in
theorem flush_room {st : St} (h : st.opened = true) : (flush st).buf = [] := by
  rw [flush, h]
  split
  · rename_i h; simpa using h
  · rfl

omit ha in
theorem flush_opened (st : St) : (flush st).opened = st.opened := by rw [flush]; split <;> rfl

omit ha in
theorem due_opened (cfg : Cfg) (r n : Nat) (st : St) : (due cfg r n st).opened = st.opened := by
  rw [due]; split
  · exact flush_opened st
  · rfl

omit ha in
theorem due_closed {cfg : Cfg} {r n : Nat} {st : St} (h : st.opened = false) : due cfg r n st = st := by
  rw [due, h, if_neg (by simp)]

theorem audio_inv {cfg : Cfg} {x y : UInt8} {ext : Bytes} (hh : cfg.hdr.flatten = x :: y :: (a.bytes ++ ext)) {ts : Nat} {msg : Cur} {junk : Bytes} {st : St} {ms : List Msg}
    (hms : ∀ m ∈ ms, Good m) (hroom : st.opened = false → st.buf.length + msg.flatten.length + 5 ≤ cfg.cap)
    (hfirst : isHeader msg = (msg.flatten[1]? == some 0)) (h : Inv a cfg.sync st ms) :
    Inv a cfg.sync (audio cfg ts msg junk st) (ms ++ [(⟨ts, msg.flatten⟩ : Msg)].filter (Msg.sound cfg.cap)) := by
  rw [audio]
  by_cases h1 : msg.flatten.length < 2 ∨ isHeader msg = true
  · rw [if_pos h1, List.filter_cons_of_neg]
    · simpa using h
    · rw [hfirst] at h1
      simp only [Msg.sound, bne_iff_ne, Bool.and_eq_true, decide_eq_true_eq, beq_iff_eq] at h1 ⊢
      intro hc
      rcases h1 with h1 | h1
      · omega
      · exact hc.1.2 h1
  · rw [if_neg h1]
    dsimp only
    by_cases h2 : cfg.cap < msg.flatten.length - 2 + 7
    · rw [if_pos h2, List.filter_cons_of_neg]
      · simpa using h
      · simp only [Msg.sound, bne_iff_ne, Bool.and_eq_true, decide_eq_true_eq]
        omega
    · rw [if_neg h2, List.filter_cons_of_pos]
      · refine append_inv ha hh hms (by omega) ?_ ?_
        · split
          · rename_i h3
            cases ho : st.opened with
            | true => rw [flush_room (by rw [due_opened, ho]), List.length_nil]; omega
            | false =>
              have := hroom ho
              rw [due_closed ho] at h3
              omega
          · omega
        · split
          · exact flush_inv ha hms (due_inv ha hms h)
          · exact due_inv ha hms h
      · rw [hfirst] at h1
        simp only [Msg.sound, bne_iff_ne, Bool.and_eq_true, decide_eq_true_eq, beq_iff_eq] at h1 ⊢
        exact ⟨⟨by omega, fun e => h1 (.inr e)⟩, by omega⟩

end

/-- The messages among the events. -/
def msgs : List Ev → List Msg := List.flatMap fun e =>
  match e with
  | .audio ts msg _ => [⟨ts, msg.flatten⟩]
  | _ => []

theorem run_inv {a : Asc} (ha : a.Ok) {cfg : Cfg} {x y : UInt8} {ext : Bytes} (hh : cfg.hdr.flatten = x :: y :: (a.bytes ++ ext)) (st0 : St) (evs : List Ev) (ms0 : List Msg)
    (hms0 : ∀ m ∈ ms0, Good m)
    (hev : ∀ ts msg junk, Ev.audio ts msg junk ∈ evs → msg.flatten.length + 5 < 8192 ∧ isHeader msg = (msg.flatten[1]? == some 0))
    (hroom : ∀ pre ts msg junk post, evs = pre ++ Ev.audio ts msg junk :: post → (run cfg st0 pre).opened = false →
      (run cfg st0 pre).buf.length + msg.flatten.length + 5 ≤ cfg.cap) (h : Inv a cfg.sync st0 ms0) :
    Inv a cfg.sync (run cfg st0 evs) (ms0 ++ (msgs evs).filter (Msg.sound cfg.cap)) := by
  induction evs generalizing st0 ms0 with
  | nil => simpa [run, msgs] using h
  | cons e evs ih =>
    have hev' : ∀ ts msg junk, Ev.audio ts msg junk ∈ evs → _ := fun ts msg junk hm => hev ts msg junk (by simp [hm])
    have hroom' : ∀ pre ts msg junk post, evs = pre ++ Ev.audio ts msg junk :: post → (run cfg (step cfg st0 e) pre).opened = false →
        (run cfg (step cfg st0 e) pre).buf.length + msg.flatten.length + 5 ≤ cfg.cap :=
      fun pre ts msg junk post he => hroom (e :: pre) ts msg junk post (by rw [he]; rfl)
    have hrun : run cfg st0 (e :: evs) = run cfg (step cfg st0 e) evs := rfl
    rw [hrun]
    have plain : Inv a cfg.sync (step cfg st0 e) ms0 → msgs (e :: evs) = msgs evs → Inv a cfg.sync (run cfg (step cfg st0 e) evs) (ms0 ++ (msgs (e :: evs)).filter (Msg.sound cfg.cap)) := by
      intro h1 h2; rw [h2]; exact ih _ _ hms0 hev' hroom' h1
    cases e with
    | opens =>
      refine plain ?_ rfl
      rw [step]; split
      · exact h
      · exact flush_inv ha hms0 (by
          obtain ⟨gs, g, p1, p2, p3, p4⟩ := h
          exact ⟨gs, g, p1, p2, ⟨p3.hBuf, p3.hTime⟩, p4⟩)
    | closes =>
      refine plain ?_ rfl
      obtain ⟨gs, g, p1, p2, p3, p4⟩ := h
      exact ⟨gs, g, p1, p2, ⟨p3.hBuf, p3.hTime⟩, p4⟩
    | eof => exact plain (flush_inv ha hms0 h) rfl
    | video ts => exact plain (due_inv ha hms0 h) rfl
    | audio ts msg junk =>
      obtain ⟨g1, g2⟩ := hev ts msg junk (by simp)
      have hm : msgs (Ev.audio ts msg junk :: evs) = [⟨ts, msg.flatten⟩] ++ msgs evs := rfl
      rw [hm, List.filter_append, ← List.append_assoc]
      refine ih _ _ ?_ hev' hroom' (audio_inv ha hh hms0 (hroom [] ts msg junk evs rfl) g2 h)
      intro m hm'
      rcases List.mem_append.1 hm' with hm' | hm'
      · exact hms0 m hm'
      · rw [List.mem_filter] at hm'
        obtain ⟨q1, q2⟩ := hm'
        have := List.mem_singleton.1 q1
        subst this
        simp only [Msg.sound, Bool.and_eq_true, decide_eq_true_eq] at q2
        exact ⟨q2.1.1, g1⟩

end Verif.Adts
