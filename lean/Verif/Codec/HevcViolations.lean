import Verif.Codec.HevcProps
/-
C73: what goes wrong with headers of HEVC.
-/
namespace Verif.Codec
open Verif Verif.BitOp

/-- Reading, at the start of a byte with these bytes left, accesses memory that it must not. -/
def FailsB {α : Type} (p : Rd α) (b : Bytes) : Prop := ∀ s, s.br.err = false → s.br.offs = 0 → s.br.data = b → p s = none

theorem FailsB.bind {α β : Type} {p : Rd α} {f : α → Rd β} {b c : Bytes} {a : α} (h1 : GetsB p b c a) (h2 : FailsB (f a) c) : FailsB (p >>= f) (b ++ c) := by
  intro s e1 e2 e3
  obtain ⟨s1, a1, a2, a3, a4⟩ := h1 s e1 e2 e3
  show StateT.bind p f s = none
  unfold StateT.bind
  rw [a1]
  exact h2 s1 a4 a3 a2

theorem FailsB.first {α β : Type} {p : Rd α} {f : α → Rd β} {b : Bytes} (h : FailsB p b) : FailsB (p >>= f) b := by
  intro s e1 e2 e3
  show StateT.bind p f s = none
  unfold StateT.bind
  rw [h s e1 e2 e3]
  rfl

theorem failsB_get {β : Type} {f : St → Rd β} {b : Bytes} (h : ∀ s, s.br.data = b → FailsB (f s) b) : FailsB (get >>= f) b := fun s e1 e2 e3 => h s e3 s e1 e2 e3

theorem failsB_lift {α : Type} (o : Option α) (b : Bytes) (h : o = none) : FailsB (lift o) b := by
  intro s _ _ _
  unfold lift
  rw [h]
  rfl

/-- Taking what was escaped accesses memory that it must not if less than two bytes are behind, or the buffer is too small. -/
theorem rbspLoop_fails : ∀ (rbsp : Bytes) (z : Nat) (tail out : Bytes), z ≤ 2 → rbsp.getLast? ≠ some 0 → (rbsp = [] → z = 0) → (tail.length < 2 ∨ 4096 < out.length + rbsp.length) →
    out.length ≤ 4096 → rbspLoop ((Spec.escape z rbsp).length + 2) (Spec.escape z rbsp ++ tail) z out = none := by
  intro rbsp
  induction rbsp with
  | nil =>
    intro z tail out _ _ hz hl ho
    rw [hz rfl]
    simp only [List.length_nil] at hl
    show rbspLoop 2 tail 0 out = none
    match tail, hl with
    | [], _ => rfl
    | [t], _ =>
      rw [rbspLoop.eq_def]
      dsimp only
      rw [if_neg (by omega), if_neg (by omega)]
      split <;> rfl
    | _ :: _ :: _, h => exact absurd h (by simp only [List.length_cons]; omega)
  | cons b bs ih =>
    intro z tail out hz2 hlast _ hl ho
    have hlast' : bs.getLast? ≠ some 0 := by
      cases bs with
      | nil => simp
      | cons c cs => simpa using hlast
    have hb0 : bs = [] → b ≠ 0 := by
      intro h h0
      rw [h, h0] at hlast
      exact hlast rfl
    simp only [List.length_cons] at hl
    have put : ∀ z' n rest, ¬ (z' = 2 ∧ b.toNat ≤ 3) → (out.length < 4096 → rbspLoop n rest (if b = 0 then z' + 1 else 0) (out ++ [b]) = none) → rbspLoop (n + 1) (b :: rest) z' out = none := by
      intro z' n rest h1 h2
      by_cases h : out.length < 4096
      · rw [rbspLoop_put _ _ _ _ _ h1 h]
        exact h2 h
      · rw [rbspLoop.eq_def]
        dsimp only
        rw [if_neg (by omega), if_neg (by omega), if_pos (by omega)]
    by_cases he : 2 ≤ z ∧ b.toNat ≤ 3
    · have hz : z = 2 := by omega
      have heq : Spec.escape z (b :: bs) = 3 :: b :: Spec.escape (if b = 0 then 1 else 0) bs := by rw [Spec.escape, if_pos he]
      rw [heq]
      simp only [List.length_cons, List.cons_append]
      rw [show (Spec.escape (if b = 0 then 1 else 0) bs).length + 1 + 1 + 2 = ((Spec.escape (if b = 0 then 1 else 0) bs).length + 2 + 1) + 1 by omega, hz, rbspLoop_three _ _ _ _ he.2]
      refine put 0 _ _ (by omega) fun ho' => ?_
      rw [Nat.zero_add]
      exact ih _ tail (out ++ [b]) (by split <;> omega) hlast' (fun h => if_neg (hb0 h)) (by simp only [List.length_append, List.length_cons, List.length_nil]; omega) (by simp only [List.length_append, List.length_cons, List.length_nil]; omega)
    · have heq : Spec.escape z (b :: bs) = b :: Spec.escape (if b = 0 then z + 1 else 0) bs := by rw [Spec.escape, if_neg he]
      rw [heq]
      simp only [List.length_cons, List.cons_append]
      rw [show (Spec.escape (if b = 0 then z + 1 else 0) bs).length + 1 + 2 = ((Spec.escape (if b = 0 then z + 1 else 0) bs).length + 2) + 1 by omega]
      have hz' : (if b = 0 then z + 1 else 0) ≤ 2 := by
        split
        · rename_i h0
          have : ¬ 2 ≤ z := fun h => he ⟨h, by rw [h0]; decide⟩
          omega
        · omega
      refine put z _ _ (by omega) fun ho' => ?_
      exact ih _ tail (out ++ [b]) hz' hlast' (fun h => if_neg (hb0 h)) (by simp only [List.length_append, List.length_cons, List.length_nil]; omega) (by simp only [List.length_append, List.length_cons, List.length_nil]; omega)

theorem hevcNal_fails (h0 h1 : UInt8) (rbsp tail : Bytes) (hh : h0.toNat / 2 % 64 = 33) (hlast : rbsp.getLast? ≠ some 0) (h : tail.length < 2 ∨ 4096 < rbsp.length) (c : Ctx) :
    hevcNal ((h0 :: h1 :: Spec.escape 0 rbsp) ++ tail) (h0 :: h1 :: Spec.escape 0 rbsp).length c = none := by
  unfold hevcNal
  have hr : toRbsp ((h0 :: h1 :: Spec.escape 0 rbsp) ++ tail) (h0 :: h1 :: Spec.escape 0 rbsp).length = none := by
    show toRbsp (h0 :: h1 :: (Spec.escape 0 rbsp ++ tail)) ((Spec.escape 0 rbsp).length + 2) = _
    unfold toRbsp
    dsimp only
    have hf := nalType_fin ⟨h0.toNat, h0.toNat_lt⟩
    dsimp only at hf
    rw [if_neg (by rw [hf]; omega), rbspLoop_fails rbsp 0 tail [] (by omega) hlast (fun _ => rfl) (by simp only [List.length_nil]; omega) (by simp)]
  rw [hr]
  rfl

/-- Units that are read, and one that is not -/
theorem failsB_nals : ∀ (nals : List Bytes) (n : Bytes) (k : Nat) (l : Bytes) (c : Ctx), Holds nals → n.length < 65536 → (∀ c, hevcNal (n ++ l) n.length c = none) →
    FailsB (hevcNals 33 (nals.length + (k + 1)) c) (Spec.nalsBytes nals ++ (Spec.be16 n.length ++ (n ++ l))) := by
  intro nals
  induction nals with
  | nil =>
    intro n k l c _ hn h
    rw [List.length_nil, Nat.zero_add]
    show FailsB (hevcNals 33 (k + 1) c) (Spec.be16 n.length ++ (n ++ l))
    unfold hevcNals
    refine FailsB.bind (getsB_u16 n.length hn _) (failsB_get fun s e3 => FailsB.first (failsB_lift _ _ ?_))
    rw [if_pos rfl, e3, h c]
  | cons m nals ih =>
    intro n k l c hh hn h
    obtain ⟨h1, s, hs, hi⟩ := hh m (by simp)
    rw [Spec.nalsBytes, List.flatMap_cons, List.append_assoc, List.append_assoc, List.length_cons, show nals.length + 1 + (k + 1) = (nals.length + (k + 1)) + 1 by omega]
    unfold hevcNals
    refine FailsB.bind (getsB_u16 m.length (by omega) _) ?_
    have g := ih n k l { c with width := (hevcSize s).1, height := (hevcSize s).2 } (fun x hx => hh x (by simp [hx])) hn h
    have g2 := FailsB.bind (f := fun _ => hevcNals 33 (nals.length + (k + 1)) { c with width := (hevcSize s).1, height := (hevcSize s).2 }) (getsB_u (m.length * 8) m _ (by omega)) g
    refine failsB_get fun st e3 => FailsB.bind (b := []) (getsB_lift _ { c with width := (hevcSize s).1, height := (hevcSize s).2 } _ ?_) g2
    rw [if_pos rfl, e3, hevcNal_sps s hs m _ hi h1 (by simp [Spec.be16]; omega) c]

/-- Arrays that are read, and one that is not -/
theorem failsB_arrays : ∀ (arrays : List Spec.NalArray) (k : Nat) (rest : Bytes) (c : Ctx), (∀ a ∈ arrays, a.Ok) → Holds (spsNals arrays) → 2 ≤ rest.length → (∀ c, FailsB (hevcArrays (k + 1) c) rest) →
    FailsB (hevcArrays (arrays.length + (k + 1)) c) (arrays.flatMap Spec.NalArray.bytes ++ rest) := by
  intro arrays k rest c h1 h2 h3 h4
  induction arrays generalizing c with
  | nil => simpa using h4 c
  | cons a arrays ih =>
    have ha := h1 a (by simp)
    obtain ⟨t1, t2⟩ := array_type a ha
    have e : (a :: arrays).flatMap Spec.NalArray.bytes ++ rest = [UInt8.ofNat (a.flags * 64 + a.type)] ++ (Spec.be16 a.nals.length ++ (Spec.nalsBytes a.nals ++ (arrays.flatMap Spec.NalArray.bytes ++ rest))) := by
      simp [Spec.NalArray.bytes]
    rw [e, List.length_cons, show arrays.length + 1 + (k + 1) = (arrays.length + (k + 1)) + 1 by omega]
    unfold hevcArrays
    refine FailsB.bind (getsB_u8 _ t2 _) (FailsB.bind (getsB_u16 _ ha.2.2.1 _) ?_)
    rw [t1]
    by_cases ht : a.type = 33
    · have hsp : spsNals (a :: arrays) = a.nals ++ spsNals arrays := by
        unfold spsNals
        rw [List.filter_cons_of_pos (by simpa using ht), List.flatMap_cons]
      rw [hsp] at h2
      obtain ⟨c1, g1, _⟩ := getsB_nals_sps a.nals (arrays.flatMap Spec.NalArray.bytes ++ rest) c (fun n hn => h2 n (by simp [hn])) (by rw [List.length_append]; omega)
      rw [ht]
      exact FailsB.bind g1 (ih c1 (fun b hb => h1 b (by simp [hb])) (fun n hn => h2 n (by simp [hn])))
    · have hsp : spsNals (a :: arrays) = spsNals arrays := by
        unfold spsNals
        rw [List.filter_cons_of_neg (by simpa using ht)]
      rw [hsp] at h2
      exact FailsB.bind (getsB_nals_other a.type ht a.nals _ c ha.2.2.2) (ih c (fun b hb => h1 b (by simp [hb])) h2)

/-- C73 violation: of a record in which a set is the last unit of the message (or one byte is behind it), two bytes behind the message are used. And a unit that is longer than the buffer of 4096 bytes
without emulation prevention, wherever it is, is written behind the buffer on the stack. Both for all such records that are otherwise right. -/
theorem C73_memory_violation (c : Option Ctx) (ft : Nat) (hft : ft = 1 ∨ ft = 2) (t1 t2 t3 : UInt8) (general : Bytes) (hg : general.length = 20) (rates ls : Nat) (hr : rates < 64) (hls : 1 ≤ ls ∧ ls ≤ 4)
    (arrays after : List Spec.NalArray) (a : Spec.NalArray) (hn : (arrays ++ a :: after).length < 256) (hok : ∀ a ∈ arrays, a.Ok) (ha : a.Ok) (hat : a.type = 33)
    (hsets : ∀ a ∈ arrays, a.type = 33 → ∀ n ∈ a.nals, n.length ≤ 4096 ∧ ∃ s : Spec.HevcSps, s.Ok ∧ Spec.IsSpsNal s n)
    (ns ms : List Bytes) (n rbsp : Bytes) (h0 h1 : UInt8) (han : a.nals = ns ++ n :: ms) (hns : ∀ n ∈ ns, n.length ≤ 4096 ∧ ∃ s : Spec.HevcSps, s.Ok ∧ Spec.IsSpsNal s n)
    (hh : h0.toNat / 2 % 64 = 33) (hnal : n = h0 :: h1 :: Spec.escape 0 rbsp) (hlast : rbsp.getLast? ≠ some 0) (hbad : (ms = [] ∧ after = []) ∨ 4096 < rbsp.length) :
    av 12 hevcHeader 9 [[UInt8.ofNat (16 * ft + 12), 0, t1, t2, t3] ++ Spec.hevcRecord general rates ls (arrays ++ a :: after)] c = none := by
  have hb : ∀ c, FailsB (hevcArrays (after.length + 1) c) (a.bytes ++ after.flatMap Spec.NalArray.bytes) := by
    intro c
    obtain ⟨u1, u2⟩ := array_type a ha
    have e : a.bytes ++ after.flatMap Spec.NalArray.bytes = [UInt8.ofNat (a.flags * 64 + a.type)] ++ (Spec.be16 a.nals.length ++ (Spec.nalsBytes ns ++ (Spec.be16 n.length ++ (n ++ (Spec.nalsBytes ms ++ after.flatMap Spec.NalArray.bytes))))) := by
      simp [Spec.NalArray.bytes, han, Spec.nalsBytes]
    rw [e]
    unfold hevcArrays
    refine FailsB.bind (getsB_u8 _ u2 _) (FailsB.bind (getsB_u16 _ ha.2.2.1 _) (FailsB.first ?_))
    rw [u1, hat, han, List.length_append, List.length_cons]
    refine failsB_nals ns n ms.length _ c hns (ha.2.2.2 n (by simp [han])) ?_
    intro c
    rw [hnal]
    refine hevcNal_fails h0 h1 rbsp _ hh hlast ?_ c
    rcases hbad with ⟨e1, e2⟩ | hl
    · left; rw [e1, e2]; simp [Spec.nalsBytes]
    · exact Or.inr hl
  have hA := fun c => failsB_arrays arrays after.length (a.bytes ++ after.flatMap Spec.NalArray.bytes) c hok (by
    intro n hn
    obtain ⟨a, ha, hna⟩ := List.mem_flatMap.1 hn
    obtain ⟨ha1, ha2⟩ := List.mem_filter.1 ha
    exact hsets a ha1 (by simpa using ha2) n hna) (by simp [Spec.NalArray.bytes, Spec.be16]) hb
  have hm : [UInt8.ofNat (16 * ft + 12), 0, t1, t2, t3] ++ Spec.hevcRecord general rates ls (arrays ++ a :: after) = UInt8.ofNat (16 * ft + 12) :: 0 :: ([t1, t2, t3] ++ Spec.hevcRecord general rates ls (arrays ++ a :: after)) := rfl
  rw [hm, av_hevc c ft hft _ (by simp), ← hm]
  have hF : FailsB (hevcRead { (c.getD {}) with videoCodec := 12 }) ([UInt8.ofNat (16 * ft + 12), 0, t1, t2, t3, 1] ++ (general ++ ([UInt8.ofNat (rates * 4 + (ls - 1))] ++ ([UInt8.ofNat (arrays ++ a :: after).length] ++
      (arrays.flatMap Spec.NalArray.bytes ++ (a.bytes ++ after.flatMap Spec.NalArray.bytes)))))) := by
    unfold hevcRead
    refine FailsB.bind (getsB_u 48 _ _ rfl) (FailsB.bind (getsB_u 160 _ _ (by rw [hg])) (FailsB.bind (getsB_u8 _ (by omega) _) (FailsB.bind (getsB_u8 _ hn _) ?_)))
    rw [List.length_append, List.length_cons]
    exact hA _
  unfold hevcHeader parse
  rw [hF _ rfl rfl (by simp [init, Spec.hevcRecord])]
  rfl

/-- A header whose last unit is the set, and one with a unit of 5000 bytes, are such. -/
example : (∃ rbsp : Bytes, hevcHdNal = 66 :: 1 :: Spec.escape 0 rbsp ∧ rbsp.getLast? ≠ some 0) ∧
    ((66 : UInt8).toNat / 2 % 64 = 33 ∧ (List.replicate 5000 (1 : UInt8)).getLast? ≠ some 0 ∧ 4096 < (List.replicate 5000 (1 : UInt8)).length) := by
  refine ⟨⟨[1, 1, 96, 0, 0, 0, 144, 0, 0, 0, 0, 0, 93, 160, 3, 192, 128, 16, 229], by decide, by decide⟩, by decide, ?_, by rw [List.length_replicate]; decide⟩
  rw [List.getLast?_replicate]
  decide

/-- The message: what is before the record, the record with arrays and what is behind -/
def hevcMsg (n : UInt8) (arrays : Bytes) : Bytes := [0x1c, 0, 0, 0, 0, 1] ++ List.replicate 20 0 ++ [3, n] ++ arrays

def hevcSizeOf (r : Option (Option Ctx)) : Option (Nat × Nat) := r.bind fun c => c.map fun c => (c.width, c.height)

/-- C73 violation: a picture of 1920 by 1080 (1088 lines, of which 8 are cut off) is taken for one of 1919 by 1079. -/
theorem C73_window_violation : hevcWin.size = (1920, 1080) ∧ Spec.IsSpsNal hevcWin hevcWinNal ∧
    hevcSizeOf (av 12 hevcHeader 9 [hevcMsg 2 ((⟨2, 33, [hevcWinNal]⟩ : Spec.NalArray).bytes ++ (⟨2, 34, [[68, 1]]⟩ : Spec.NalArray).bytes)] none) = some (1919, 1079) :=
  ⟨by decide, hevcWin_nal, by decide +kernel⟩

/-- C73 violation: the length of a unit is believed, even if the message has not that many bytes. -/
theorem C73_length_violation : av 12 hevcHeader 9 [hevcMsg 1 [0xa1, 0, 1, 0xff, 0xff, 66, 1, 1]] none = none := by
  have : (av 12 hevcHeader 9 [hevcMsg 1 [0xa1, 0, 1, 0xff, 0xff, 66, 1, 1]] none).isNone = true := by decide +kernel
  simpa using this

/-- A unit with 64 zeros after profile and level -/
def zerosNal : Bytes := [66, 1, 1] ++ List.replicate 12 1 ++ [0, 0, 3, 0, 0, 3, 0, 0, 3, 0, 0, 3, 1]

/-- C73 violation: 64 zeros where a code number is expected shift by 64: the bytes of the unit are had, and reading them is undefined. -/
theorem C73_shift_violation : (∃ d, toRbsp (zerosNal ++ [0xa2, 0]) zerosNal.length = some (some d) ∧ parse hevcSps d = none) ∧
    av 12 hevcHeader 9 [hevcMsg 2 ((⟨2, 33, [zerosNal]⟩ : Spec.NalArray).bytes ++ (⟨2, 34, [[68, 1]]⟩ : Spec.NalArray).bytes)] none = none := by
  refine ⟨⟨[1] ++ List.replicate 12 1 ++ [0, 0, 0, 0, 0, 0, 0, 0, 1, 0xa2, 0], by decide +kernel, ?_⟩, ?_⟩
  · have : (parse hevcSps ([1] ++ List.replicate 12 1 ++ [0, 0, 0, 0, 0, 0, 0, 0, 1, 0xa2, 0])).isNone = true := by decide +kernel
    simpa using this
  · have : (av 12 hevcHeader 9 [hevcMsg 2 ((⟨2, 33, [zerosNal]⟩ : Spec.NalArray).bytes ++ (⟨2, 34, [[68, 1]]⟩ : Spec.NalArray).bytes)] none).isNone = true := by decide +kernel
    simpa using this

/-- The unit of a set without its last two bytes, which hold part of the height and the window -/
def cutNal : Bytes := hevcWinNal.take 23

/-- C73 violation: a set that ends within its numbers is taken; the rest is taken from the bytes of what follows. -/
theorem C73_cut_violation : hevcSizeOf (av 12 hevcHeader 9 [hevcMsg 2 ((⟨2, 33, [cutNal]⟩ : Spec.NalArray).bytes ++ (⟨2, 34, [[68, 1]]⟩ : Spec.NalArray).bytes)] none) = some (897, 1126) := by
  decide +kernel

/-! ### Rounds -/

theorem Rd.bind_eq {α β : Type} {p : Rd α} {f : α → Rd β} {s s1 : St} {a : α} (h : p s = some (a, s1)) : (p >>= f) s = f a s1 := by
  show StateT.bind p f s = _
  unfold StateT.bind
  rw [h]
  rfl

theorem u_eq (n : Nat) (b l : Bytes) (e : Bool) (k : Nat) (h : n = 8 * b.length) :
    u n { br := { data := b ++ l, offs := 0, err := e }, calls := k } = some (be64 0 b, { br := { data := l, offs := 0, err := e }, calls := k + 1 }) := by
  subst h
  unfold u BitOp.read
  dsimp only
  rw [readLoop_bytes]

/-- When nothing is left each unit costs two reads (and a line in the log if a set is expected). -/
theorem rounds_nals : ∀ (n k : Nat) (e : Bool) (c : Ctx), ∃ e', hevcNals 33 n c { br := { data := [], offs := 0, err := e }, calls := k } = some (c, { br := { data := [], offs := 0, err := e' }, calls := k + 2 * n }) := by
  intro n
  induction n with
  | zero => intro k e c; exact ⟨e, rfl⟩
  | succ n ih =>
    intro k e c
    have h16 : u 16 { br := { data := [], offs := 0, err := e }, calls := k } = some (0, { br := { data := [], offs := 0, err := true }, calls := k + 1 }) := by
      unfold u BitOp.read readLoop
      rfl
    have h0 : u (0 * 8) { br := { data := [], offs := 0, err := true }, calls := k + 1 } = some (0, { br := { data := [], offs := 0, err := true }, calls := k + 1 + 1 }) := by
      unfold u BitOp.read readLoop
      rfl
    have hl : lift (if 33 = 33 then hevcNal [] 0 c else some c) { br := { data := [], offs := 0, err := true }, calls := k + 1 } = some (c, { br := { data := [], offs := 0, err := true }, calls := k + 1 }) := rfl
    obtain ⟨e', hi⟩ := ih (k + 1 + 1) true c
    unfold hevcNals
    refine ⟨e', (Rd.bind_eq h16).trans ((Rd.bind_eq (p := get) rfl).trans ((Rd.bind_eq hl).trans ((Rd.bind_eq h0).trans (hi.trans ?_))))⟩
    rw [show k + 1 + 1 + 2 * n = k + 2 * (n + 1) by omega]

/-- C73 violation: the number of units is believed as well. A message of 31 bytes that tells of `n` sets and has none costs `2 n + 6` reads, and each of the `n` rounds writes a line to the log; `n` can be 65535. -/
theorem C73_rounds_violation (n : Nat) (hn : n < 65536) (c : Ctx) : (hevcMsg 1 (0xa1 :: Spec.be16 n)).length = 31 ∧
    ∃ c' st, parse (hevcRead c) (hevcMsg 1 (0xa1 :: Spec.be16 n)) = some (c', st) ∧ st.calls = 2 * n + 6 := by
  refine ⟨rfl, ?_⟩
  obtain ⟨e', h⟩ := rounds_nals n 6 false { c with nalBytes := 4 }
  refine ⟨{ c with nalBytes := 4 }, { br := { data := [], offs := 0, err := e' }, calls := 6 + 2 * n }, ?_, by show 6 + 2 * n = _; omega⟩
  unfold parse hevcRead
  refine (Rd.bind_eq (u_eq 48 [0x1c, 0, 0, 0, 0, 1] (List.replicate 20 0 ++ ([3] ++ ([1] ++ ([0xa1] ++ (Spec.be16 n ++ []))))) false 0 rfl)).trans ?_
  refine (Rd.bind_eq (u_eq 160 (List.replicate 20 0) _ false 1 rfl)).trans ?_
  refine (Rd.bind_eq (u_eq 8 [3] _ false 2 rfl)).trans ?_
  refine (Rd.bind_eq (u_eq 8 [1] _ false 3 rfl)).trans ?_
  have h1 : be64 0 [1] = 1 := by decide
  have h3 : be64 0 [3] % 4 + 1 = 4 := by decide
  rw [h1, h3]
  unfold hevcArrays
  refine (Rd.bind_eq (u_eq 8 [0xa1] _ false 4 rfl)).trans ?_
  refine (Rd.bind_eq (u_eq 16 (Spec.be16 n) _ false 5 rfl)).trans ?_
  rw [be64_two n hn, show be64 0 [0xa1] % 64 = 33 by decide]
  exact (Rd.bind_eq h).trans rfl

example : (65535 : Nat) < 65536 ∧ 2 * 65535 + 6 = 131076 := by decide

end Verif.Codec
