import Verif.Client.BodyLemmas
/-! Copying chunks, whole calls, runs. -/
namespace Verif.Client

theorem feed_data : ∀ (d : Bytes) {n : Nat}, d.length ≤ n → feed ⟨.data, n⟩ d = (d, .run ⟨.data, n - d.length⟩)
  | [], n, _ => by simp [feed]
  | ch :: t, n, h => by
    have h' : t.length + 1 ≤ n := h
    unfold feed
    rw [if_pos ⟨rfl, by dsimp only; omega⟩]
    dsimp only
    rw [feed_data t (by omega)]
    dsimp only
    rw [List.length_cons, show n - 1 - t.length = n - (t.length + 1) by omega]

/-- Bytes put out so far. -/
def outB (full : List Bytes) (cur : Option Bytes) : Bytes := full.flatten ++ cur.getD []

theorem outB_flat (full : List Bytes) (cur : Option Bytes) : (full ++ cur.toList).flatten = outB full cur := by
  cases cur <;> simp [outB]

/-- The room in the current buffer. -/
def CurOk (cap : Nat) (cur : Option Bytes) : Prop := (cur.getD []).length < cap

theorem work_cons (b x : Bytes) (cl : List Bytes) : work b (x :: cl) = b.length + 1 + work x cl := by
  simp only [work, List.map_cons, List.sum_cons]; omega

/-- What the inner loop does. -/
def CopyOk (cap : Nat) (b : Bytes) (cl : List Bytes) (size : Nat) (full : List Bytes) (cur : Option Bytes) : Copied → Prop
  | .stuck => False
  | .again size' full' cur' => size' + (b ++ cl.flatten).length = size ∧ outB full' cur' = outB full cur ++ (b ++ cl.flatten)
  | .cont b' cl' full' cur' => b' ≠ [] ∧ (∀ x ∈ cl', x ≠ []) ∧ CurOk cap cur' ∧ work b' cl' < work b cl ∧
      ∃ d, b ++ cl.flatten = d ++ (b' ++ cl'.flatten) ∧ d.length = size ∧ outB full' cur' = outB full cur ++ d

theorem copy_spec {cap : Nat} (hcap : 0 < cap) : ∀ (n : Nat) (b : Bytes) (cl : List Bytes) (size : Nat) (full : List Bytes) (cur : Option Bytes), work b cl < n → 0 < size → b ≠ [] →
    (∀ x ∈ cl, x ≠ []) → CurOk cap cur →
    CopyOk cap b cl size full cur (copyLoop cap n b cl size full cur)
  | 0, _, _, _, _, _, h, _, _, _, _ => by omega
  | n + 1, b, cl, size, full, cur, hw, hs, hb, hcl, hcur => by
    unfold copyLoop
    dsimp only
    generalize hbuf : cur.getD [] = buf
    have hroom : buf.length < cap := by rw [← hbuf]; exact hcur
    have hbl : 0 < b.length := List.length_pos_iff.2 hb
    generalize hlen : (if b.length ≥ size then min (cap - buf.length) size else min (cap - buf.length) b.length) = len
    have hl : 0 < len ∧ len ≤ b.length ∧ len ≤ size ∧ len ≤ cap - buf.length := by
      rw [← hlen]; split <;> (refine ⟨?_, ?_, ?_, ?_⟩ <;> omega)
    have htl : (b.take len).length = len := by rw [List.length_take]; omega
    generalize hfull' : (if (buf ++ b.take len).length = cap then full ++ [buf ++ b.take len] else full) = full'
    generalize hcur' : (if (buf ++ b.take len).length = cap then none else some (buf ++ b.take len)) = cur'
    have hco : CurOk cap cur' := by
      rw [← hcur']
      unfold CurOk
      split
      · exact hcap
      · rename_i h
        have : (buf ++ b.take len).length ≤ cap := by rw [List.length_append, htl]; omega
        exact Nat.lt_of_le_of_ne this h
    have hout : outB full' cur' = outB full cur ++ b.take len := by
      rw [← hfull', ← hcur']
      unfold outB
      rw [hbuf]
      split <;> simp
    have hd : b = b.take len ++ b.drop len := (List.take_append_drop len b).symm
    have hdl : (b.drop len).length = b.length - len := List.length_drop
    split
    · rename_i he
      have he' : b.take len = b := by
        have h := hd
        rw [he, List.append_nil] at h
        exact h.symm
      have hlb : len = b.length := by rw [he', ] at htl; exact htl.symm
      split
      · unfold CopyOk
        simp only [List.flatten_nil, List.append_nil]
        refine ⟨by omega, by rw [hout, he']⟩
      · rename_i b2 cl2
        have hb2 : b2 ≠ [] := hcl b2 List.mem_cons_self
        have hcl2 : ∀ x ∈ cl2, x ≠ [] := fun x hx => hcl x (List.mem_cons_of_mem _ hx)
        have hw2 := work_cons b b2 cl2
        split
        · rename_i hz
          exact ⟨hb2, hcl2, hco, by omega, b, by simp, by omega, by rw [hout, he']⟩
        · have ih := copy_spec hcap n b2 cl2 (size - len) full' cur' (by omega) (by omega) hb2 hcl2 hco
          generalize copyLoop cap n b2 cl2 (size - len) full' cur' = r at ih ⊢
          cases r with
          | stuck => exact ih
          | again =>
            refine ⟨?_, ?_⟩
            · have := ih.1
              simp only [List.flatten_cons, List.length_append] at this ⊢
              omega
            · rw [ih.2, hout, he']; simp
          | cont =>
            obtain ⟨i1, i2, i3, i4, d, i5, i6, i7⟩ := ih
            refine ⟨i1, i2, i3, by omega, b ++ d, ?_, by rw [List.length_append]; omega, by rw [i7, hout, he']; simp⟩
            rw [List.flatten_cons, i5]; simp
    · rename_i he
      split
      · rename_i hz
        refine ⟨he, hcl, hco, ?_, b.take len, ?_, by omega, hout⟩
        · simp only [work]; omega
        · rw [← List.append_assoc, List.take_append_drop]
      · have hw' : work (b.drop len) cl < work b cl := by simp only [work]; omega
        have ih := copy_spec hcap n (b.drop len) cl (size - len) full' cur' (by omega) (by omega) he hcl hco
        generalize copyLoop cap n (b.drop len) cl (size - len) full' cur' = r at ih ⊢
        cases r with
        | stuck => exact ih
        | again =>
          refine ⟨?_, ?_⟩
          · have := ih.1
            simp only [List.length_append] at this ⊢
            omega
          · rw [ih.2, hout, List.append_assoc, ← List.append_assoc (b.take len), List.take_append_drop]
        | cont =>
          obtain ⟨i1, i2, i3, i4, d, i5, i6, i7⟩ := ih
          refine ⟨i1, i2, i3, by omega, b.take len ++ d, ?_, by rw [List.length_append]; omega, by rw [i7, hout]; simp⟩
          rw [List.append_assoc, ← i5, ← List.append_assoc, List.take_append_drop]

theorem andThen_nil {c c' : Ck} {pre rest : Bytes} (h : feed c pre = ([], .run c')) : feed c (pre ++ rest) = feed c' rest := by
  rw [feed_append, h]; simp [Fin.andThen]

theorem andThen_data {c c' : Ck} {pre d rest : Bytes} (h : feed c pre = (d, .run c')) : feed c (pre ++ rest) = (d ++ (feed c' rest).1, (feed c' rest).2) := by
  rw [feed_append, h]; simp [Fin.andThen]

/-- The outcome of a call as the one-byte machine sees it. -/
def Agrees (o : Bytes) (r : Rc × Ctx) (F : Bytes × Fin) (x : Ctx) : Prop :=
  (r.2.chunked = x.chunked ∧ r.2.length = x.length) ∧
  match F.2 with
  | .run c => r.1 = .again ∧ r.2.ck = c ∧ CInv c ∧ r.2.inn.flatten = o ++ F.1
  | .done => r.1 = .done ∧ r.2.inn.flatten = o ++ F.1
  | .err => r.1 = .error

theorem chunk_spec {cap : Nat} (hcap : 0 < cap) : ∀ (n : Nat) (x : Ctx) (b : Bytes) (cl : List Bytes) (full : List Bytes) (cur : Option Bytes), work b cl < n → CInv x.ck → b ≠ [] →
    (∀ y ∈ cl, y ≠ []) → CurOk cap cur → Agrees (outB full cur) (chunkLoop cap n x b cl full cur) (feed x.ck (b ++ cl.flatten)) x
  | 0, _, _, _, _, _, h, _, _, _, _ => by omega
  | n + 1, x, b, cl, full, cur, hw, hi, hb, hcl, hcur => by
    have hp := parse_spec b hi
    unfold chunkLoop
    cases e : ckParse x.ck b with
    | ok rest c =>
      rw [e] at hp
      obtain ⟨i1, i2, i3, i4, pre, i5, i6⟩ := hp
      obtain ⟨st, size⟩ := c
      dsimp only at i1 i2
      subst i1
      have hwr : work rest cl ≤ work b cl := by rw [i5]; simp only [work, List.length_append]; omega
      have hc := copy_spec hcap (work rest cl + 1) rest cl size full cur (by omega) (by omega) i4 hcl hcur
      have hF : feed x.ck (b ++ cl.flatten) = feed ⟨.data, size⟩ (rest ++ cl.flatten) := by
        rw [i5, List.append_assoc]; exact andThen_nil i6
      rw [hF]
      dsimp only
      split
      · rename_i size' full' cur' e1
        rw [e1] at hc
        obtain ⟨h1, h2⟩ := hc
        rw [feed_data _ (by omega)]
        refine ⟨⟨rfl, rfl⟩, rfl, ?_, ?_, ?_⟩
        · show Ck.mk _ _ = Ck.mk _ _
          congr 1; omega
        · have := i3.hmax
          exact ⟨by dsimp only at this ⊢; omega, fun h => by simp at h, fun _ => .inr (.inr (.inr rfl))⟩
        · dsimp only
          rw [outB_flat, h2]
      · rename_i b' cl' full' cur' e1
        rw [e1] at hc
        obtain ⟨h1, h2, h3, h4, d, h5, h6, h7⟩ := hc
        rw [h5]
        have ih := chunk_spec hcap n { x with ck := ⟨.data, 0⟩ } b' cl' full' cur' (by omega) ⟨Nat.zero_le _, fun h => by simp at h, fun h => absurd rfl h⟩ h1 h2 h3
        rw [andThen_data (c' := ⟨.data, 0⟩) (d := d) (by rw [feed_data d (by omega)]; congr 3; omega)]
        refine ⟨ih.1, ?_⟩
        have ih2 := ih.2
        dsimp only at ih2 ⊢
        split
        · rename_i e2
          rw [e2] at ih2
          exact ⟨ih2.1, ih2.2.1, ih2.2.2.1, by rw [ih2.2.2.2, h7]; simp⟩
        · rename_i e2
          rw [e2] at ih2
          exact ⟨ih2.1, by rw [ih2.2, h7]; simp⟩
        · rename_i e2
          rw [e2] at ih2
          exact ih2
      · rename_i e1
        rw [e1] at hc
        exact hc.elim
    | again c =>
      rw [e] at hp
      obtain ⟨c'', i1, i2, i3⟩ := hp
      have hcc : c = c'' := i2.resolve_right (fun h => hb h.1)
      subst hcc
      rw [andThen_nil i1]
      dsimp only
      cases cl with
      | nil =>
        refine ⟨⟨rfl, rfl⟩, ?_⟩
        simp only [List.flatten_nil, feed]
        exact ⟨trivial, trivial, i3, by rw [outB_flat]; simp⟩
      | cons b2 cl2 =>
        have := work_cons b b2 cl2
        have ih := chunk_spec hcap n { x with ck := c } b2 cl2 full cur (by omega) i3 (hcl b2 List.mem_cons_self) (fun y hy => hcl y (List.mem_cons_of_mem _ hy)) hcur
        exact ih
    | done rest =>
      rw [e] at hp
      obtain ⟨pre, i5, i6, i7⟩ := hp
      have : feed x.ck (b ++ cl.flatten) = ([], .done) := by
        rw [i5, List.append_assoc, feed_append, i7]; rfl
      rw [this]
      exact ⟨⟨rfl, rfl⟩, rfl, by dsimp only; rw [outB_flat]; simp⟩
    | err =>
      rw [e] at hp
      have : feed x.ck (b ++ cl.flatten) = ([], .err) := by
        rw [feed_append, hp]; rfl
      rw [this]
      exact ⟨⟨rfl, rfl⟩, rfl⟩

theorem recycle_nil : ∀ {l : List Bytes}, (∀ b ∈ l, b = []) → recycle l = []
  | [], _ => rfl
  | b :: bs, h => by
    unfold recycle
    rw [if_neg (fun e => e (h b List.mem_cons_self))]
    exact recycle_nil (fun x hx => h x (List.mem_cons_of_mem _ hx))

/-- Buffers of a call. -/
def Call.bufs (c : Call) : List Bytes := (if c.head ≠ [] then [c.head] else []) ++ c.reads

theorem bufs_flat (c : Call) : c.bufs.flatten = c.bytes := by
  unfold Call.bufs Call.bytes
  split
  · simp
  · rename_i h
    have : c.head = [] := Classical.byContradiction h
    simp [this]

theorem bufs_ne {c : Call} (h : ∀ b ∈ c.reads, b ≠ []) : ∀ b ∈ c.bufs, b ≠ [] := by
  intro b hb
  unfold Call.bufs at hb
  rcases List.mem_append.1 hb with e | e
  · split at e
    · rename_i h0
      have : b = c.head := by simpa using e
      rw [this]; exact h0
    · cases e
  · exact h b e

/-- A chunked response being read by a reader that reads everything. -/
structure CW (w : World) (seen : Bytes) : Prop where
  hck : w.x.chunked = true
  hinn : w.rc = .again → ∀ b ∈ w.x.inn, b = []
  hfeed : match (feed {} seen).2 with
    | .run c => w.rc = .again ∧ w.x.ck = c ∧ CInv c ∧ w.got = (feed {} seen).1
    | .done => w.rc = .done ∧ w.got = (feed {} seen).1
    | .err => w.rc = .error ∧ ∃ r, (feed {} seen).1 = w.got ++ r

theorem mem_map_nil (l : List Bytes) : ∀ b ∈ l.map (fun _ => ([] : Bytes)), b = [] := by
  intro b hb
  obtain ⟨_, _, e⟩ := List.mem_map.1 hb
  exact e.symm

theorem CW.step {cap : Nat} (hcap : 0 < cap) {w : World} {seen : Bytes} (h : CW w seen) {c : Call} (hc : c.Plain) (hne : ∀ b ∈ c.reads, b ≠ []) (hb : c.bytes ≠ []) :
    CW (Client.step cap w c) (seen ++ c.bytes) := by
  unfold Client.step
  by_cases hrc : w.rc ≠ .again
  · rw [if_pos hrc]
    refine ⟨h.hck, h.hinn, ?_⟩
    have hf := h.hfeed
    rw [feed_append]
    cases e : (feed {} seen).2 with
    | run c => rw [e] at hf; exact absurd hf.1 hrc
    | done =>
      rw [e] at hf
      have : Fin.andThen (feed {} seen) c.bytes = feed {} seen := by unfold Fin.andThen; rw [e]
      rw [this, e]; exact hf
    | err =>
      rw [e] at hf
      have : Fin.andThen (feed {} seen) c.bytes = feed {} seen := by unfold Fin.andThen; rw [e]
      rw [this, e]; exact hf
  · rw [if_neg hrc]
    have hrc : w.rc = .again := Classical.byContradiction hrc
    have hf := h.hfeed
    obtain ⟨k, hk⟩ : ∃ k, (feed {} seen).2 = .run k := by
      cases e : (feed {} seen).2 with
      | run c => exact ⟨c, rfl⟩
      | done => rw [e] at hf; rw [hrc] at hf; exact absurd hf.1 (by decide)
      | err => rw [e] at hf; rw [hrc] at hf; exact absurd hf.1 (by decide)
    rw [hk] at hf
    obtain ⟨_, hk2, hk3, hgot⟩ := hf
    have hF : feed {} (seen ++ c.bytes) = (w.got ++ (feed k c.bytes).1, (feed k c.bytes).2) := by
      rw [feed_append]; unfold Fin.andThen; rw [hk, hgot]
    have hrb : readBody cap w.x c.head c.reads c.fin = bodyChunked cap { w.x with inn := [] } c.bufs := by
      unfold readBody
      rw [hc.1, recycle_nil (h.hinn hrc)]
      dsimp only
      rw [if_pos h.hck]; rfl
    have hfl := bufs_flat c
    have hbn := bufs_ne hne
    cases hbs : c.bufs with
    | nil => rw [hbs] at hfl; exact absurd hfl.symm hb
    | cons b cl =>
      rw [hbs] at hfl hbn
      have sp := chunk_spec hcap (work b cl + 1) { w.x with inn := [] } b cl [] none (by omega) (by dsimp only; rw [hk2]; exact hk3) (hbn b List.mem_cons_self) (fun y hy => hbn y (List.mem_cons_of_mem _ hy)) hcap
      rw [hrb, hbs]
      have hsame : bodyChunked cap { w.x with inn := [] } (b :: cl) = chunkLoop cap (work b cl + 1) { w.x with inn := [] } b cl [] none := rfl
      rw [hsame]
      have hfl' : b ++ cl.flatten = c.bytes := by rw [← hfl]; rfl
      rw [hfl'] at sp
      generalize chunkLoop cap (work b cl + 1) { w.x with inn := [] } b cl [] none = r at sp ⊢
      dsimp only at sp
      rw [hk2] at sp
      obtain ⟨⟨s1, _⟩, s2⟩ := sp
      have hs1 : r.2.chunked = true := by rw [s1]; exact h.hck
      rw [hc.2]
      cases e : (feed k c.bytes).2 with
      | run k' =>
        rw [e] at s2
        obtain ⟨t1, t2, t3, t4⟩ := s2
        rw [if_pos (.inl t1)]
        refine ⟨hs1, fun _ => mem_map_nil _, ?_⟩
        rw [hF]
        dsimp only
        rw [e]
        refine ⟨t1, t2, t3, ?_⟩
        rw [t4]; rfl
      | done =>
        rw [e] at s2
        obtain ⟨t1, t4⟩ := s2
        rw [if_pos (.inr t1)]
        refine ⟨hs1, fun _ => mem_map_nil _, ?_⟩
        rw [hF]
        dsimp only
        rw [e]
        refine ⟨t1, ?_⟩
        rw [t4]; rfl
      | err =>
        rw [e] at s2
        have s2 : r.1 = .error := s2
        rw [if_neg (by rw [s2]; decide)]
        refine ⟨hs1, fun h => (by rw [s2] at h; cases h), ?_⟩
        rw [hF]
        dsimp only
        rw [e]
        exact ⟨s2, _, rfl⟩

theorem CW.run {cap : Nat} (hcap : 0 < cap) : ∀ (cs : List Call) {w : World} {seen : Bytes}, CW w seen → (∀ c ∈ cs, c.Plain ∧ (∀ b ∈ c.reads, b ≠ []) ∧ c.bytes ≠ []) →
    CW (Client.run cap w cs) (seen ++ input cs)
  | [], w, seen, h, _ => by
    show CW w (seen ++ [])
    rw [List.append_nil]; exact h
  | c :: cs, w, seen, h, hc => by
    obtain ⟨h1, h2, h3⟩ := hc c List.mem_cons_self
    have := CW.run hcap cs (h.step hcap h1 h2 h3) (fun x hx => hc x (List.mem_cons_of_mem _ hx))
    rw [List.append_assoc] at this
    exact this

theorem CW.init : CW { x := { chunked := true } } [] :=
  ⟨rfl, fun _ b hb => (by cases hb), rfl, rfl, ⟨by decide, fun h => by simp at h, fun h => absurd rfl h⟩, rfl⟩

end Verif.Client
