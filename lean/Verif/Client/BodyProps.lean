import Verif.Client.BodyWire
/-! C63: the reader of an HTTP response gets its body. -/
namespace Verif.Client

/-- A response being read. -/
def fresh (chunked : Bool) (length : Option Nat) : World := { x := { chunked := chunked, length := length } }

/-- Calls that meet at least one byte each and whose reader reads everything. -/
def Fed (cs : List Call) : Prop := ∀ c ∈ cs, c.Plain ∧ (∀ b ∈ c.reads, b ≠ []) ∧ c.bytes ≠ []
instance : Decidable (Fed cs) := by unfold Fed; infer_instance

/-! ### Chunked responses -/

/-- However a chunked response is cut into reads and calls, the reader has the data of the part that has come, and is told that the body is complete with its last byte. What
follows the body is not given to it. Not for calls without a byte (`C63_crash_violation`), the end of the connection in the same call (`C63_close_violation`) and
a reader that leaves something (`C63_unread_violation`). -/
theorem C63_chunked_partial {cap : Nat} (hcap : 0 < cap) {b : Body} (hb : b.Ok) {cs : List Call} (hc : Fed cs) :
    (∀ p, p <+: b.wire → p ≠ b.wire → input cs = bytesOf p → (run cap (fresh true none) cs).rc = .again ∧ (run cap (fresh true none) cs).got = dataOf p) ∧
    (∀ extra, input cs = bytesOf b.wire ++ extra → (run cap (fresh true none) cs).rc = .done ∧ (run cap (fresh true none) cs).got = dataOf b.wire) := by
  have h := (CW.run hcap cs CW.init hc).hfeed
  rw [List.nil_append] at h
  refine ⟨fun p hp hne e => ?_, fun extra e => ?_⟩
  · obtain ⟨k, hk⟩ := body_prefix hb hp hne
    rw [e, hk] at h
    exact ⟨h.1, h.2.2.2⟩
  · have : feed {} (bytesOf b.wire ++ extra) = (dataOf b.wire, .done) := by
      rw [feed_append, body_done hb]; rfl
    rw [e, this] at h
    exact h

/-- The data of a body is that of its chunks. -/
theorem C63_data (b : Body) : dataOf b.wire = (b.chunks.map Chunk.data).flatten := by
  have hf : ∀ l, dataOf (frm l) = [] := fun l => by
    induction l with
    | nil => rfl
    | cons ch t ih => exact ih
  have ht : ∀ ts : List Bytes, dataOf (ts.map (fun t => frm t ++ frm [13, 10])).flatten = [] := fun ts => by
    induction ts with
    | nil => rfl
    | cons t ts ih => rw [List.map_cons, List.flatten_cons, dataOf_append, dataOf_append, hf, hf, ih]; rfl
  have hc : ∀ cs : List Chunk, dataOf (cs.map Chunk.wire).flatten = (cs.map Chunk.data).flatten := fun cs => by
    induction cs with
    | nil => rfl
    | cons c cs ih =>
      rw [List.map_cons, List.flatten_cons, dataOf_append, ih, List.map_cons, List.flatten_cons]
      congr 1
      unfold Chunk.wire
      simp only [dataOf_append, hf, dataOf_dat, List.append_nil, List.nil_append]
  unfold Body.wire
  simp only [dataOf_append, hf, ht, hc, List.append_nil]

/-- "5;x" + "hello", "0C" + 12 bytes, "00" with a trailer line. -/
def exBody : Body := { chunks := [{ hex := [53], ext := [59, 120], data := [104, 101, 108, 108, 111] }, { hex := [48, 67], data := [1, 2, 3, 4, 5, 6, 7, 8, 9, 10, 11, 12] }], lastHex := [48, 48], trailers := [[97, 58, 98]] }

example : exBody.Ok := by decide +kernel
example : (bytesOf exBody.wire).length = 41 ∧ dataOf exBody.wire = [104, 101, 108, 108, 111, 1, 2, 3, 4, 5, 6, 7, 8, 9, 10, 11, 12] := by decide +kernel
example : Fed [{ head := (bytesOf exBody.wire).take 1, reads := [((bytesOf exBody.wire).drop 1).take 3] }, { reads := [(bytesOf exBody.wire).drop 4] }] := by decide +kernel

/-- Whatever the bytes are, how they are cut does not matter: two ways of getting the same bytes give the same result, and the same data unless it is an error. -/
theorem C63_segments_partial {cap cap' : Nat} (hcap : 0 < cap) (hcap' : 0 < cap') {cs cs' : List Call} (hc : Fed cs) (hc' : Fed cs') (h : input cs = input cs') :
    (run cap (fresh true none) cs).rc = (run cap' (fresh true none) cs').rc ∧
    ((run cap (fresh true none) cs).rc ≠ .error → (run cap (fresh true none) cs).got = (run cap' (fresh true none) cs').got) := by
  have h1 := (CW.run hcap cs CW.init hc).hfeed
  have h2 := (CW.run hcap' cs' CW.init hc').hfeed
  have e1 : fresh true none = { x := { chunked := true } } := rfl
  rw [List.nil_append] at h1 h2
  rw [h] at h1
  rw [e1]
  cases e : (feed {} (input cs')).2 with
  | run c =>
    rw [e] at h1 h2
    exact ⟨by rw [h1.1, h2.1], fun _ => by rw [h1.2.2.2, h2.2.2.2]⟩
  | done =>
    rw [e] at h1 h2
    exact ⟨by rw [h1.1, h2.1], fun _ => by rw [h1.2, h2.2]⟩
  | err =>
    rw [e] at h1 h2
    exact ⟨by rw [h1.1, h2.1], fun hn => absurd h1.1 hn⟩

example : Fed [{ reads := [[53, 13], [10, 1]] }] ∧ Fed [{ reads := [[53]] }, { reads := [[13, 10, 1]] }] := by decide

/-! ### Safety -/

theorem length_rc : ∀ (cl : List Bytes) (x : Ctx), ((bodyLength x cl).1 = .again ∨ (bodyLength x cl).1 = .done) ∧ (bodyLength x cl).2.chunked = x.chunked ∧ (bodyLength x cl).2.ck = x.ck
  | [], x => ⟨.inl rfl, rfl, rfl⟩
  | b :: cl, x => by
    unfold bodyLength
    dsimp only
    split
    · exact length_rc cl _
    · split
      · exact ⟨.inr rfl, rfl, rfl⟩
      · exact length_rc cl _

/-- Whatever comes and however the reader reads: no NULL pointer is used and no loop goes on for ever, as long as every call on a chunked response that ends by blocking met a byte. -/
theorem C63_safe_partial {cap : Nat} (hcap : 0 < cap) {chunked : Bool} {length : Option Nat} {cs : List Call}
    (hc : ∀ c ∈ cs, (∀ b ∈ c.reads, b ≠ []) ∧ (chunked = true → c.fin = .block → c.bytes ≠ [])) :
    (run cap (fresh chunked length) cs).rc ≠ .crash ∧ (run cap (fresh chunked length) cs).rc ≠ .stuck := by
  have key : ∀ (cs : List Call) (w : World), (∀ c ∈ cs, (∀ b ∈ c.reads, b ≠ []) ∧ (w.x.chunked = true → c.fin = .block → c.bytes ≠ [])) → w.rc ≠ .crash → w.rc ≠ .stuck → (w.rc = .again → CInv w.x.ck) →
      (run cap w cs).rc ≠ .crash ∧ (run cap w cs).rc ≠ .stuck := by
    intro cs
    induction cs with
    | nil => intro w _ h1 h2 _; exact ⟨h1, h2⟩
    | cons c cs ih =>
      intro w hc h1 h2 h3
      show (run cap (step cap w c) cs).rc ≠ .crash ∧ (run cap (step cap w c) cs).rc ≠ .stuck
      have hc' := fun (x : Call) hx => hc x (List.mem_cons_of_mem _ hx)
      obtain ⟨g1, g2⟩ := hc c List.mem_cons_self
      by_cases hrc : w.rc ≠ .again
      · have : step cap w c = w := by unfold step; rw [if_pos hrc]
        rw [this]; exact ih w hc' h1 h2 h3
      · have hrc : w.rc = .again := Classical.byContradiction hrc
        have hk := h3 hrc
        have hr : ∀ r, readBody cap w.x c.head c.reads c.fin = r → r.2.chunked = w.x.chunked ∧ r.1 ≠ .crash ∧ r.1 ≠ .stuck ∧ (r.1 = .again → CInv r.2.ck) := by
          intro r e
          subst e
          unfold readBody
          dsimp only
          split
          · exact ⟨rfl, (fun h => by cases h), (fun h => by cases h), fun h => by cases h⟩
          · exact ⟨rfl, (fun h => by cases h), (fun h => by cases h), fun h => by cases h⟩
          · rename_i hf
            split
            · rename_i hck
              have hfl := bufs_flat c
              have hbn := bufs_ne g1
              show _ ∧ _
              change (bodyChunked cap { w.x with inn := recycle w.x.inn } c.bufs).2.chunked = _ ∧ (bodyChunked cap { w.x with inn := recycle w.x.inn } c.bufs).1 ≠ _ ∧
                (bodyChunked cap { w.x with inn := recycle w.x.inn } c.bufs).1 ≠ _ ∧ ((bodyChunked cap { w.x with inn := recycle w.x.inn } c.bufs).1 = _ → CInv (bodyChunked cap { w.x with inn := recycle w.x.inn } c.bufs).2.ck)
              cases hbs : c.bufs with
              | nil => rw [hbs] at hfl; exact absurd hfl.symm (g2 hck hf)
              | cons b cl =>
                rw [hbs] at hbn
                have sp := chunk_spec hcap (work b cl + 1) { w.x with inn := recycle w.x.inn } b cl (recycle w.x.inn) none (by omega) hk (hbn b List.mem_cons_self) (fun y hy => hbn y (List.mem_cons_of_mem _ hy)) hcap
                have hs : bodyChunked cap { w.x with inn := recycle w.x.inn } (b :: cl) = chunkLoop cap (work b cl + 1) { w.x with inn := recycle w.x.inn } b cl (recycle w.x.inn) none := rfl
                rw [hs]
                generalize chunkLoop cap (work b cl + 1) { w.x with inn := recycle w.x.inn } b cl (recycle w.x.inn) none = r at sp ⊢
                obtain ⟨⟨s1, _⟩, s2⟩ := sp
                split at s2
                · exact ⟨s1, by rw [s2.1]; decide, by rw [s2.1]; decide, fun _ => by rw [s2.2.1]; exact s2.2.2.1⟩
                · exact ⟨s1, by rw [s2.1]; decide, by rw [s2.1]; decide, fun h => by rw [s2.1] at h; cases h⟩
                · exact ⟨s1, by rw [s2]; decide, by rw [s2]; decide, fun h => by rw [s2] at h; cases h⟩
            · obtain ⟨l1, l2, l3⟩ := length_rc ((if c.head ≠ [] then [c.head] else []) ++ c.reads) { w.x with inn := recycle w.x.inn }
              refine ⟨l2, ?_, ?_, fun _ => by rw [l3]; exact hk⟩
              · rcases l1 with e | e <;> (rw [e]; decide)
              · rcases l1 with e | e <;> (rw [e]; decide)
        obtain ⟨r1, r2, r3, r4⟩ := hr _ rfl
        have hst : (step cap w c).x.chunked = w.x.chunked ∧ (step cap w c).rc ≠ .crash ∧ (step cap w c).rc ≠ .stuck ∧ ((step cap w c).rc = .again → CInv (step cap w c).x.ck) := by
          unfold step
          rw [if_neg (fun h => h hrc)]
          generalize readBody cap w.x c.head c.reads c.fin = r at r1 r2 r3 r4
          dsimp only
          split
          · exact ⟨r1, r2, r3, r4⟩
          · exact ⟨r1, r2, r3, r4⟩
        refine ih _ (fun x hx => ?_) hst.2.1 hst.2.2.1 hst.2.2.2
        rw [hst.1]; exact hc' x hx
  exact key cs (fresh chunked length) hc (fun h => by cases h) (fun h => by cases h) (fun _ => ⟨Nat.zero_le _, fun h => by simp [fresh] at h, fun h => absurd rfl h⟩)

/-- If the bytes of the body are not there when the header has been read, the worker uses a NULL pointer. -/
theorem C63_crash_violation : ∃ cs : List Call, (∀ c ∈ cs, c.Plain ∧ ∀ b ∈ c.reads, b ≠ []) ∧ input cs = [] ∧ (run 4096 (fresh true none) cs).rc = .crash :=
  ⟨[{ reads := [] }], by decide, rfl, by decide⟩

/-! ### Responses with a length -/

theorem length_spec : ∀ (cl : List Bytes) (x : Ctx) {n : Nat}, x.length = some n → 0 < n → (cl.flatten).length ≤ n →
    (bodyLength x cl).2.inn.flatten = x.inn.flatten ++ cl.flatten ∧ (bodyLength x cl).2.length = some (n - cl.flatten.length) ∧
      (bodyLength x cl).1 = (if cl.flatten.length = n then .done else .again) ∧ (bodyLength x cl).2.chunked = x.chunked
  | [], x, n, hx, hn, _ => ⟨by simp [bodyLength], by simp [bodyLength, hx], by
      unfold bodyLength
      rw [if_neg (by simp; omega)], rfl⟩
  | b :: cl, x, n, hx, hn, hl => by
    rw [List.flatten_cons, List.length_append] at hl
    unfold bodyLength
    rw [hx]
    dsimp only
    have hm : min b.length n = b.length := by omega
    rw [hm]
    split
    · rename_i h0
      have he : cl.flatten = [] := List.length_eq_zero_iff.1 (by omega)
      refine ⟨by simp [he], by simp [he], ?_, rfl⟩
      rw [if_pos (by rw [List.flatten_cons, List.length_append, he]; simp only [List.length_nil]; omega)]
    · rename_i h0
      obtain ⟨i1, i2, i3, i4⟩ := length_spec cl { x with inn := x.inn ++ [b], length := some (n - b.length) } (n := n - b.length) rfl (by omega) (by omega)
      refine ⟨by rw [i1]; simp, ?_, ?_, i4⟩
      · rw [i2, List.flatten_cons, List.length_append]; congr 1; omega
      · rw [i3, List.flatten_cons, List.length_append]
        congr 1
        apply propext
        constructor <;> (intro h; omega)

theorem none_spec : ∀ (cl : List Bytes) (x : Ctx), x.length = none →
    (bodyLength x cl).2.inn.flatten = x.inn.flatten ++ cl.flatten ∧ (bodyLength x cl).2.length = none ∧ (bodyLength x cl).1 = .again ∧ (bodyLength x cl).2.chunked = x.chunked
  | [], x, h => ⟨by simp [bodyLength], h, rfl, rfl⟩
  | b :: cl, x, h => by
    obtain ⟨chunked, length, ck, inn⟩ := x
    dsimp only at h
    subst h
    unfold bodyLength
    dsimp only
    obtain ⟨i1, i2, i3, i4⟩ := none_spec cl ⟨chunked, none, ck, inn ++ [b]⟩ rfl
    exact ⟨by rw [i1]; simp, i2, i3, i4⟩

theorem step_stop {cap : Nat} {w : World} (c : Call) (h : w.rc ≠ .again) : step cap w c = w := by
  unfold step
  rw [if_pos h]

/-- A call on a response that is not chunked. -/
theorem plain_step {cap : Nat} {w : World} {c : Call} (hc : c.Plain) (hrc : w.rc = .again) (hck : w.x.chunked = false) (hi : ∀ b ∈ w.x.inn, b = []) {o : Bytes} {l : Option Nat} {rc : Rc}
    (h : ∀ x : Ctx, x.length = w.x.length → (bodyLength x c.bufs).2.inn.flatten = x.inn.flatten ++ o ∧ (bodyLength x c.bufs).2.length = l ∧ (bodyLength x c.bufs).1 = rc ∧ (bodyLength x c.bufs).2.chunked = x.chunked)
    (ho : rc = .again ∨ rc = .done) :
    (step cap w c).got = w.got ++ o ∧ (step cap w c).x.length = l ∧ (step cap w c).rc = rc ∧ (step cap w c).x.chunked = false ∧ ∀ b ∈ (step cap w c).x.inn, b = [] := by
  have hrb : readBody cap w.x c.head c.reads c.fin = bodyLength { w.x with inn := [] } c.bufs := by
    unfold readBody
    rw [hc.1, recycle_nil hi]
    dsimp only
    rw [if_neg (by rw [hck]; decide)]; rfl
  obtain ⟨h1, h2, h3, h4⟩ := h { w.x with inn := [] } rfl
  unfold step
  rw [if_neg (fun h => h hrc), hrb]
  generalize bodyLength { w.x with inn := [] } c.bufs = r at h1 h2 h3 h4 ⊢
  dsimp only
  rw [if_pos (by rw [h3]; exact ho), hc.2]
  exact ⟨by dsimp only; rw [h1]; rfl, h2, h3, h4.trans hck, mem_map_nil _⟩

/-- A response with a `Content-Length` that is not 0 and a server that sends no more than that: the reader gets what has come, and is told that the body is complete with its last
byte. Not for `Content-Length: 0` (`C63_empty_violation`) and servers that send more (`C63_excess_violation`). -/
theorem C63_length_partial {cap n : Nat} (hn : 0 < n) {cs : List Call} (hc : ∀ c ∈ cs, c.Plain) (hl : (input cs).length ≤ n) :
    (run cap (fresh false (some n)) cs).got = input cs ∧ (run cap (fresh false (some n)) cs).rc = (if (input cs).length = n then .done else .again) := by
  have key : ∀ (cs : List Call) (w : World) (m : Nat), (∀ c ∈ cs, c.Plain) → 0 < m → (input cs).length ≤ m → w.rc = .again → w.x.chunked = false → w.x.length = some m → (∀ b ∈ w.x.inn, b = []) →
      (run cap w cs).got = w.got ++ input cs ∧ (run cap w cs).rc = (if (input cs).length = m then .done else .again) := by
    intro cs
    induction cs with
    | nil => intro w m _ hm _ hr _ _ _; exact ⟨by simp [run, input], by rw [if_neg (by simp [input]; omega)]; exact hr⟩
    | cons c cs ih =>
      intro w m hc hm hl hr hck hlen hi
      have hin : input (c :: cs) = c.bytes ++ input cs := rfl
      rw [hin, List.length_append] at hl
      have hs := plain_step (cap := cap) (hc c List.mem_cons_self) hr hck hi (o := c.bytes) (l := some (m - c.bytes.length)) (rc := if c.bytes.length = m then .done else .again)
        (fun x hx => by
          have := length_spec c.bufs x (n := m) (by rw [hx]; exact hlen) hm (by rw [bufs_flat]; omega)
          rwa [bufs_flat] at this) (by split <;> simp)
      obtain ⟨s1, s2, s3, s4, s5⟩ := hs
      show (run cap (step cap w c) cs).got = _ ∧ (run cap (step cap w c) cs).rc = _
      by_cases he : c.bytes.length = m
      · rw [if_pos he] at s3
        have hz : input cs = [] := List.length_eq_zero_iff.1 (by omega)
        have hstop : ∀ l : List Call, run cap (step cap w c) l = step cap w c := fun l => by
          induction l with
          | nil => rfl
          | cons d l ih2 =>
            show run cap (step cap (step cap w c) d) l = _
            rw [step_stop d (by rw [s3]; decide)]; exact ih2
        rw [hstop, hin, hz, List.append_nil]
        exact ⟨s1, by rw [if_pos he]; exact s3⟩
      · rw [if_neg he] at s3
        obtain ⟨i1, i2⟩ := ih (step cap w c) (m - c.bytes.length) (fun x hx => hc x (List.mem_cons_of_mem _ hx)) (by omega) (by omega) s3 s4 s2 s5
        refine ⟨by rw [i1, s1, hin, List.append_assoc], ?_⟩
        rw [i2, hin, List.length_append]
        congr 1
        apply propext
        constructor <;> (intro h; omega)
  have := key cs (fresh false (some n)) n hc hn hl rfl rfl rfl (fun b hb => by cases hb)
  exact this

example : (∀ c ∈ [({ head := [1, 2], reads := [[3], [4, 5]] } : Call), { reads := [] }, { reads := [[6]] }], c.Plain) ∧
    (run 16 (fresh false (some 6)) [{ head := [1, 2], reads := [[3], [4, 5]] }, { reads := [] }, { reads := [[6]] }]).got = [1, 2, 3, 4, 5, 6] := by decide

/-- A response without a length: the reader gets all that comes before the connection ends. -/
theorem C63_open_partial {cap : Nat} {cs : List Call} (hc : ∀ c ∈ cs, c.Plain) : (run cap (fresh false none) cs).got = input cs ∧ (run cap (fresh false none) cs).rc = .again := by
  have key : ∀ (cs : List Call) (w : World), (∀ c ∈ cs, c.Plain) → w.rc = .again → w.x.chunked = false → w.x.length = none → (∀ b ∈ w.x.inn, b = []) →
      (run cap w cs).got = w.got ++ input cs ∧ (run cap w cs).rc = .again := by
    intro cs
    induction cs with
    | nil => intro w _ hr _ _ _; exact ⟨by simp [run, input], hr⟩
    | cons c cs ih =>
      intro w hc hr hck hlen hi
      obtain ⟨s1, s2, s3, s4, s5⟩ := plain_step (cap := cap) (hc c List.mem_cons_self) hr hck hi (o := c.bytes) (l := none) (rc := .again)
        (fun x hx => by
          have := none_spec c.bufs x (by rw [hx]; exact hlen)
          rwa [bufs_flat] at this) (.inl rfl)
      obtain ⟨i1, i2⟩ := ih (step cap w c) (fun x hx => hc x (List.mem_cons_of_mem _ hx)) s3 s4 s2 s5
      exact ⟨by show (run cap (step cap w c) cs).got = _; rw [i1, s1]; simp [input], i2⟩
  exact key cs (fresh false none) hc rfl rfl rfl (fun b hb => by cases hb)

/-! ### Where the code is wrong -/

/-- Bytes that are read in the same call as the end of the connection are thrown away: a complete body, of any framing, is lost. -/
theorem C63_close_violation (chunked : Bool) (length : Option Nat) (body : Bytes) : (run 4096 (fresh chunked length) [{ reads := [body], fin := .close }]).rc = .closed ∧
    (run 4096 (fresh chunked length) [{ reads := [body], fin := .close }]).got = [] := ⟨rfl, rfl⟩

/-- If a reader leaves bytes in a buffer, the next call throws that buffer away. -/
theorem C63_unread_violation : ∃ cs : List Call, input cs = [1, 2, 3, 4] ∧ (run 4096 (fresh false none) cs).got = [1, 4] ∧ ∀ c ∈ cs, c.fin = .block :=
  ⟨[{ reads := [[1, 2, 3]], eats := some 1 }, { reads := [[4]] }], rfl, by decide, by decide⟩

/-- The end of an empty body (`Content-Length: 0`) is never noticed. -/
theorem C63_empty_violation (cap n : Nat) : (run cap (fresh false (some 0)) (List.replicate n { reads := [] })).rc = .again := by
  have : ∀ n (w : World), w.x.chunked = false → w.rc = .again → (run cap w (List.replicate n { reads := [] })).rc = .again := by
    intro n
    induction n with
    | zero => intro w _ h; exact h
    | succ n ih =>
      intro w hc h
      show (run cap (step cap w { reads := [] }) (List.replicate n { reads := [] })).rc = .again
      have e : readBody cap w.x [] [] .block = (.again, { w.x with inn := recycle w.x.inn }) := by
        unfold readBody
        dsimp only
        rw [if_neg (by rw [hc]; decide)]
        rfl
      refine ih _ ?_ ?_
      · unfold step
        rw [if_neg (fun hn => hn h), e]
        exact hc
      · unfold step
        rw [if_neg (fun hn => hn h), e]
        rfl
  exact this n _ rfl rfl

/-- Bytes beyond the length that come in the same buffer are given to the reader as part of the body. -/
theorem C63_excess_violation : (run 4096 (fresh false (some 2)) [{ reads := [[1, 2, 3, 4]] }]).got = [1, 2, 3, 4] ∧ (run 4096 (fresh false (some 2)) [{ reads := [[1, 2, 3, 4]] }]).rc = .done := by decide

end Verif.Client
