import Verif.Client.BodySpec
/-! C63: what chunks are copied into has room for them. -/
namespace Verif.Client

def Roomy (cap : Nat) (full : List Bytes) (cur : Option Bytes) : Prop := (∀ b ∈ full, b.length ≤ cap) ∧ ∀ b, cur = some b → b.length ≤ cap

def CopyRoom (cap : Nat) : Copied → Prop
  | .stuck => True
  | .again _ full cur => Roomy cap full cur
  | .cont _ _ full cur => Roomy cap full cur

theorem Roomy.chain {cap : Nat} {full : List Bytes} {cur : Option Bytes} (h : Roomy cap full cur) : ∀ b ∈ full ++ cur.toList, b.length ≤ cap := by
  intro b hb
  rcases List.mem_append.1 hb with e | e
  · exact h.1 b e
  · exact h.2 b (by cases cur with
      | none => cases e
      | some x => have : b = x := by simpa using e
                  rw [this])

theorem copy_room {cap : Nat} : ∀ (n : Nat) (b : Bytes) (cl : List Bytes) (size : Nat) (full : List Bytes) (cur : Option Bytes), Roomy cap full cur → CopyRoom cap (copyLoop cap n b cl size full cur)
  | 0, _, _, _, _, _, _ => trivial
  | n + 1, b, cl, size, full, cur, h => by
    unfold copyLoop
    dsimp only
    have hbuf : (cur.getD []).length ≤ cap := by
      cases cur with
      | none => exact Nat.zero_le _
      | some x => exact h.2 x rfl
    generalize cur.getD [] = buf at hbuf ⊢
    generalize hlen : (if b.length ≥ size then min (cap - buf.length) size else min (cap - buf.length) b.length) = len
    have hl : len ≤ cap - buf.length := by rw [← hlen]; split <;> omega
    have hnew : (buf ++ b.take len).length ≤ cap := by
      rw [List.length_append, List.length_take]; omega
    generalize buf ++ b.take len = buf' at hnew ⊢
    have hR : Roomy cap (if buf'.length = cap then full ++ [buf'] else full) (if buf'.length = cap then none else some buf') := by
      by_cases e : buf'.length = cap
      · rw [if_pos e, if_pos e]
        refine ⟨fun x hx => ?_, fun x hx => by cases hx⟩
        rcases List.mem_append.1 hx with h1 | h1
        · exact h.1 x h1
        · have : x = buf' := by simpa using h1
          rw [this]; exact hnew
      · rw [if_neg e, if_neg e]
        exact ⟨h.1, fun x hx => by cases hx; exact hnew⟩
    generalize (if buf'.length = cap then full ++ [buf'] else full) = full' at hR ⊢
    generalize (if buf'.length = cap then none else some buf') = cur' at hR ⊢
    split
    · cases cl with
      | nil => exact hR
      | cons b2 cl2 =>
        dsimp only
        split
        · exact hR
        · exact copy_room n _ _ _ _ _ hR
    · split
      · exact hR
      · exact copy_room n _ _ _ _ _ hR

theorem chunk_room {cap : Nat} : ∀ (n : Nat) (x : Ctx) (b : Bytes) (cl : List Bytes) (full : List Bytes) (cur : Option Bytes), Roomy cap full cur → (∀ b ∈ x.inn, b.length ≤ cap) →
    ∀ b' ∈ (chunkLoop cap n x b cl full cur).2.inn, b'.length ≤ cap
  | 0, _, _, _, _, _, _, hx => hx
  | n + 1, x, b, cl, full, cur, h, hx => by
    unfold chunkLoop
    cases ckParse x.ck b with
    | ok rest c =>
      dsimp only
      have hc := copy_room (cap := cap) (work rest cl + 1) rest cl c.size full cur h
      generalize copyLoop cap (work rest cl + 1) rest cl c.size full cur = r at hc ⊢
      cases r with
      | stuck => exact hx
      | again => exact Roomy.chain hc
      | cont => exact chunk_room n _ _ _ _ _ hc hx
    | again c =>
      dsimp only
      cases cl with
      | nil => exact h.chain
      | cons b2 cl2 => exact chunk_room n _ _ _ _ _ h hx
    | done rest => exact h.chain
    | err => exact hx

theorem recycle_sub : ∀ (l : List Bytes), ∀ b ∈ recycle l, b ∈ l
  | [], _, h => h
  | a :: l, b, h => by
    unfold recycle at h
    split at h
    · exact List.mem_cons_of_mem _ h
    · exact List.mem_cons_of_mem _ (recycle_sub l b h)

theorem eat_room {cap : Nat} : ∀ (l : List Bytes) (n : Nat), (∀ b ∈ l, b.length ≤ cap) → ∀ b ∈ (eat n l).2, b.length ≤ cap
  | [], _, _ => fun _ h => by cases h
  | a :: l, n, h => by
    intro b hb
    unfold eat at hb
    rcases List.mem_cons.1 hb with e | e
    · rw [e, List.length_drop]
      have := h a List.mem_cons_self
      omega
    · exact eat_room l _ (fun x hx => h x (List.mem_cons_of_mem _ hx)) b e

/-- No chunk data is written behind the end of a buffer (`body_buffer_size` bytes), for all bytes received, all reads and readers. -/
theorem C63_room (cap : Nat) (cs : List Call) : ∀ b ∈ (run cap { x := { chunked := true } } cs).x.inn, b.length ≤ cap := by
  have key : ∀ (cs : List Call) (w : World), w.x.chunked = true → (∀ b ∈ w.x.inn, b.length ≤ cap) → ∀ b ∈ (run cap w cs).x.inn, b.length ≤ cap := by
    intro cs
    induction cs with
    | nil => intro w _ h; exact h
    | cons c cs ih =>
      intro w hck h
      have hr : ∀ b ∈ recycle w.x.inn, b.length ≤ cap := fun b hb => h b (recycle_sub _ b hb)
      have hb : (∀ b ∈ (readBody cap w.x c.head c.reads c.fin).2.inn, b.length ≤ cap) ∧ (readBody cap w.x c.head c.reads c.fin).2.chunked = true := by
        unfold readBody
        dsimp only
        cases c.fin with
        | close => exact ⟨hr, hck⟩
        | fail => exact ⟨hr, hck⟩
        | block =>
          dsimp only
          rw [if_pos hck]
          cases (if c.head ≠ [] then [c.head] else []) ++ c.reads with
          | nil => exact ⟨hr, hck⟩
          | cons b cl =>
            refine ⟨chunk_room _ _ _ _ _ _ ⟨hr, fun _ e => by cases e⟩ hr, ?_⟩
            have hk : ∀ (n : Nat) (x : Ctx) (b : Bytes) (cl full : List Bytes) (cur : Option Bytes), (chunkLoop cap n x b cl full cur).2.chunked = x.chunked := by
              intro n
              induction n with
              | zero => intros; rfl
              | succ n ih =>
                intro x b cl full cur
                unfold chunkLoop
                cases ckParse x.ck b with
                | ok rest c =>
                  dsimp only
                  cases copyLoop cap (work rest cl + 1) rest cl c.size full cur with
                  | stuck => rfl
                  | again => rfl
                  | cont => exact ih _ _ _ _ _
                | again c =>
                  cases cl with
                  | nil => rfl
                  | cons b2 cl2 => exact ih _ _ _ _ _
                | done rest => rfl
                | err => rfl
            exact (hk _ _ _ _ _ _).trans hck
      refine ih (step cap w c) ?_ ?_
      · unfold step
        split
        · exact hck
        · dsimp only
          split
          · exact hb.2
          · exact hb.2
      · unfold step
        split
        · exact h
        · dsimp only
          split
          · cases c.eats with
            | none =>
              intro b hb'
              obtain ⟨_, _, e⟩ := List.mem_map.1 hb'
              rw [← e]; exact Nat.zero_le _
            | some n => exact eat_room _ _ hb.1
          · exact hb.1
  exact key cs _ rfl (fun _ h => by cases h)

example : (run 4 { x := { chunked := true } } [{ reads := [[54, 13, 10, 1, 2, 3, 4, 5]], eats := some 0 }]).x.inn = [[1, 2, 3, 4], [5]] := by decide

end Verif.Client
