import Verif.Codec.HevcLemmas
/-
C73: the record that the HEVC header is, read byte by byte.
-/
namespace Verif.Codec
open Verif Verif.BitOp

/-- The reader, at the start of a byte, takes just these bytes, with `l` behind them. -/
def GetsB {α : Type} (p : Rd α) (b l : Bytes) (a : α) : Prop :=
  ∀ s, s.br.err = false → s.br.offs = 0 → s.br.data = b ++ l → ∃ s', p s = some (a, s') ∧ s'.br.data = l ∧ s'.br.offs = 0 ∧ s'.br.err = false

theorem GetsB.pure {α : Type} (a : α) (l : Bytes) : GetsB (Pure.pure a : Rd α) [] l a := fun s h1 h2 h3 => ⟨s, rfl, by simpa using h3, h2, h1⟩

theorem GetsB.bind {α β : Type} {p : Rd α} {f : α → Rd β} {b c l : Bytes} {a : α} {r : β} (h1 : GetsB p b (c ++ l) a) (h2 : GetsB (f a) c l r) : GetsB (p >>= f) (b ++ c) l r := by
  intro s e1 e2 e3
  rw [List.append_assoc] at e3
  obtain ⟨s1, a1, a2, a3, a4⟩ := h1 s e1 e2 e3
  obtain ⟨s2, b1, b2, b3, b4⟩ := h2 s1 a4 a3 a2
  refine ⟨s2, ?_, b2, b3, b4⟩
  show StateT.bind p f s = _
  unfold StateT.bind
  rw [a1]
  exact b1

theorem GetsB.bind' {α β : Type} {p : Rd α} {f : α → Rd β} {b c d l : Bytes} {a : α} {r : β} (h1 : GetsB p b (c ++ l) a) (h2 : GetsB (f a) c l r) (h : d = b ++ c) : GetsB (p >>= f) d l r :=
  h ▸ h1.bind h2

theorem byte_and : ∀ b : UInt8, b.toNat >>> 0 &&& (0xff >>> 0) = b.toNat := by
  intro b
  have : ∀ x : Fin 256, x.val >>> 0 &&& (0xff >>> 0) = x.val := by decide +kernel
  exact this ⟨b.toNat, b.toNat_lt⟩

theorem readLoop_byte (b : UInt8) (rest : Bytes) (e : Bool) (v n : Nat) :
    readLoop { data := b :: rest, offs := 0, err := e } v (8 * (n + 1)) = readLoop { data := rest, offs := 0, err := e } ((v * 256 + b.toNat) % 2 ^ 64) (8 * n) := by
  conv => lhs; unfold readLoop
  rw [dif_neg (by omega)]
  dsimp only
  have hd : (if (0 : Fin 8).val + 8 * (n + 1) > 8 then 8 - (0 : Fin 8).val else 8 * (n + 1)) = 8 := by
    show (if 0 + 8 * (n + 1) > 8 then 8 - 0 else 8 * (n + 1)) = 8
    split <;> omega
  rw [hd, if_pos (show (0 : Fin 8).val + 8 = 8 from rfl), show 8 * (n + 1) - 8 = 8 * n by omega]
  congr 1
  show (v <<< 8 + (b.toNat >>> 0 &&& (0xff >>> 0))) % 2 ^ 64 = _
  rw [byte_and, Nat.shiftLeft_eq]

/-- The number that bytes are, modulo 2^64, after `v` -/
def be64 : Nat → Bytes → Nat
  | v, [] => v
  | v, b :: bs => be64 ((v * 256 + b.toNat) % 2 ^ 64) bs

theorem readLoop_bytes : ∀ (b l : Bytes) (e : Bool) (v : Nat), readLoop { data := b ++ l, offs := 0, err := e } v (8 * b.length) = (be64 v b, { data := l, offs := 0, err := e }) := by
  intro b
  induction b with
  | nil => intro l e v; unfold readLoop; rfl
  | cons x b ih =>
    intro l e v
    rw [List.length_cons, List.cons_append, readLoop_byte, ih]
    rfl

theorem getsB_u (n : Nat) (b l : Bytes) (h : n = 8 * b.length) : GetsB (u n) b l (be64 0 b) := by
  intro s h1 h2 h3
  obtain ⟨⟨d, o, e⟩, k⟩ := s
  dsimp only at h1 h2 h3
  subst h1 h2 h3 h
  refine ⟨{ br := { data := l, offs := 0, err := false }, calls := k + 1 }, ?_, rfl, rfl, rfl⟩
  unfold u BitOp.read
  dsimp only
  rw [readLoop_bytes]

theorem be64_one (n : Nat) (h : n < 256) : be64 0 [UInt8.ofNat n] = n := by
  simp only [be64, UInt8.toNat_ofNat']
  omega

theorem be64_two (n : Nat) (h : n < 65536) : be64 0 (Spec.be16 n) = n := by
  simp only [be64, Spec.be16, UInt8.toNat_ofNat']
  omega

theorem getsB_u8 (n : Nat) (h : n < 256) (l : Bytes) : GetsB (u 8) [UInt8.ofNat n] l n := by
  have := getsB_u 8 [UInt8.ofNat n] l rfl
  rwa [be64_one n h] at this

theorem getsB_u16 (n : Nat) (h : n < 65536) (l : Bytes) : GetsB (u 16) (Spec.be16 n) l n := by
  have := getsB_u 16 (Spec.be16 n) l rfl
  rwa [be64_two n h] at this

/-! ### NAL units -/

theorem escape_length : ∀ (b : Bytes) (z : Nat), b.length ≤ (Spec.escape z b).length := by
  intro b
  induction b with
  | nil => intro z; simp [Spec.escape]
  | cons x b ih =>
    intro z
    rw [Spec.escape]
    split
    · have := ih (if x = 0 then 1 else 0)
      simp only [List.length_cons]; omega
    · have := ih (if x = 0 then z + 1 else 0)
      simp only [List.length_cons]; omega

theorem nalType_fin : ∀ x : Fin 256, x.val >>> 1 &&& 0x3f = x.val / 2 % 64 := by decide +kernel

/-- A unit with a set is read if there are two more bytes behind it. -/
theorem hevcNal_sps (s : Spec.HevcSps) (hok : s.Ok) (nal tail : Bytes) (h : Spec.IsSpsNal s nal) (hl : nal.length ≤ 4096) (ht : 2 ≤ tail.length) (c : Ctx) :
    hevcNal (nal ++ tail) nal.length c = some { c with width := (hevcSize s).1, height := (hevcSize s).2 } := by
  obtain ⟨h0, h1, rbsp, e1, e2, ⟨l, e3⟩, e4⟩ := h
  obtain ⟨t1, t2, tl, rfl⟩ : ∃ t1 t2 tl, tail = t1 :: t2 :: tl := by
    match tail, ht with
    | t1 :: t2 :: tl, _ => exact ⟨t1, t2, tl, rfl⟩
  subst e2
  have hlen := escape_length rbsp 0
  simp only [List.length_cons] at hl
  have hr : toRbsp ((h0 :: h1 :: Spec.escape 0 rbsp) ++ t1 :: t2 :: tl) (h0 :: h1 :: Spec.escape 0 rbsp).length = some (some (rbsp ++ [t1, t2])) := by
    show toRbsp (h0 :: h1 :: (Spec.escape 0 rbsp ++ t1 :: t2 :: tl)) ((Spec.escape 0 rbsp).length + 2) = _
    unfold toRbsp
    dsimp only
    have hf := nalType_fin ⟨h0.toNat, h0.toNat_lt⟩
    dsimp only at hf
    rw [if_neg (by rw [hf]; omega), rbspLoop_escape rbsp 0 t1 t2 tl [] (by omega) e4 (fun _ => rfl) (by simp only [List.length_nil]; omega), List.nil_append]
  unfold hevcNal
  rw [hr, Option.bind_some]
  dsimp only
  obtain ⟨st, hst⟩ := (gets_hevcSps s hok).parse (rbsp ++ [t1, t2]) (l ++ bitsOf [t1, t2]) (by rw [bitsOf_append, ← e3, List.append_assoc])
  rw [hst]
  rfl

/-- The sets in the units are all right, and can be held by the buffer. -/
def Holds (nals : List Bytes) : Prop := ∀ n ∈ nals, n.length ≤ 4096 ∧ ∃ s : Spec.HevcSps, s.Ok ∧ Spec.IsSpsNal s n

/-- What is known of the size after the sets of these units, in this order, are read -/
def Known (nals : List Bytes) (c c' : Ctx) : Prop :=
  ∃ w h, c' = { c with width := w, height := h } ∧ (nals = [] → w = c.width ∧ h = c.height) ∧ ∀ n, nals.getLast? = some n → ∀ s : Spec.HevcSps, s.Ok → Spec.IsSpsNal s n → hevcSize s = (w, h)

theorem Known.refl (c : Ctx) : Known [] c c := ⟨c.width, c.height, rfl, fun _ => ⟨rfl, rfl⟩, by simp⟩

theorem Known.trans {a b : List Bytes} {c d e : Ctx} (h1 : Known a c d) (h2 : Known b d e) : Known (a ++ b) c e := by
  obtain ⟨w1, x1, rfl, p1, q1⟩ := h1
  obtain ⟨w2, x2, rfl, p2, q2⟩ := h2
  refine ⟨w2, x2, rfl, ?_, ?_⟩
  · intro h
    obtain ⟨ha, hb⟩ := List.append_eq_nil_iff.1 h
    have := p2 hb; have := p1 ha
    simp_all
  · intro n hn s hs hi
    cases b with
    | nil =>
      have := p2 rfl
      simp only [List.append_nil] at hn
      rw [q1 n hn s hs hi, this.1, this.2]
    | cons y b =>
      rw [List.getLast?_append] at hn
      cases hg : (y :: b).getLast? with
      | none => simp at hg
      | some m =>
        rw [hg] at hn
        exact q2 n (by simpa [hg] using hn) s hs hi

theorem known_one (n : Bytes) (s : Spec.HevcSps) (hs : s.Ok) (hi : Spec.IsSpsNal s n) (hl : n.length ≤ 4096) (c : Ctx) : Known [n] c { c with width := (hevcSize s).1, height := (hevcSize s).2 } := by
  refine ⟨_, _, rfl, by simp, ?_⟩
  intro m hm s' hs' hi'
  have hm : n = m := by simpa using hm
  subst hm
  have a := hevcNal_sps s hs n [0, 0] hi hl (by simp) c
  have b := hevcNal_sps s' hs' n [0, 0] hi' hl (by simp) c
  rw [a] at b
  injection b with b
  injection b with b1 b2
  rw [b1, b2]

theorem getsB_get {β : Type} {f : St → Rd β} {b l : Bytes} {r : β} (h : ∀ s, s.br.data = b ++ l → GetsB (f s) b l r) : GetsB (get >>= f) b l r := by
  intro s h1 h2 h3
  exact h s h3 s h1 h2 h3

theorem getsB_lift {α : Type} (o : Option α) (a : α) (l : Bytes) (h : o = some a) : GetsB (lift o) [] l a := by
  intro s h1 h2 h3
  refine ⟨s, ?_, by simpa using h3, h2, h1⟩
  unfold lift
  rw [h]
  rfl

theorem getsB_nals_other (type : Nat) (ht : type ≠ 33) : ∀ (nals : List Bytes) (l : Bytes) (c : Ctx), (∀ n ∈ nals, n.length < 65536) → GetsB (hevcNals type nals.length c) (Spec.nalsBytes nals) l c := by
  intro nals
  induction nals with
  | nil => intro l c _; exact GetsB.pure c l
  | cons n nals ih =>
    intro l c h
    rw [Spec.nalsBytes, List.flatMap_cons, List.append_assoc]
    show GetsB (hevcNals type (nals.length + 1) c) _ l c
    unfold hevcNals
    refine (getsB_u16 n.length (h n (by simp)) _).bind (getsB_get fun s hs => ?_)
    refine GetsB.bind' (b := []) (getsB_lift _ c _ (if_neg ht)) ?_ rfl
    exact (getsB_u (n.length * 8) n _ (by omega)).bind (ih l c fun m hm => h m (by simp [hm]))

theorem getsB_nals_sps : ∀ (nals : List Bytes) (l : Bytes) (c : Ctx), Holds nals → 2 ≤ l.length → ∃ c', GetsB (hevcNals 33 nals.length c) (Spec.nalsBytes nals) l c' ∧ Known nals c c' := by
  intro nals
  induction nals with
  | nil => intro l c _ _; exact ⟨c, GetsB.pure c l, Known.refl c⟩
  | cons n nals ih =>
    intro l c h hl
    obtain ⟨h1, s, hs, hi⟩ := h n (by simp)
    obtain ⟨c', g, k⟩ := ih l { c with width := (hevcSize s).1, height := (hevcSize s).2 } (fun m hm => h m (by simp [hm])) hl
    refine ⟨c', ?_, (known_one n s hs hi h1 c).trans k⟩
    rw [Spec.nalsBytes, List.flatMap_cons, List.append_assoc]
    show GetsB (hevcNals 33 (nals.length + 1) c) _ l c'
    unfold hevcNals
    refine (getsB_u16 n.length (by omega) _).bind (getsB_get fun st hst => ?_)
    refine GetsB.bind' (b := []) (getsB_lift _ { c with width := (hevcSize s).1, height := (hevcSize s).2 } _ ?_) ?_ rfl
    · rw [if_pos rfl, hst, List.append_assoc]
      exact hevcNal_sps s hs n _ hi h1 (by rw [List.length_append]; omega) c
    · exact (getsB_u (n.length * 8) n _ (by omega)).bind g

/-! ### Arrays -/

/-- Units with sets -/
def spsNals (arrays : List Spec.NalArray) : List Bytes := (arrays.filter fun a => a.type == 33).flatMap (·.nals)

theorem array_type (a : Spec.NalArray) (h : a.Ok) : (a.flags * 64 + a.type) % 64 = a.type ∧ a.flags * 64 + a.type < 256 := by
  obtain ⟨h1, h2, _⟩ := h
  omega

theorem getsB_array (a : Spec.NalArray) (hok : a.Ok) (l : Bytes) (c c' : Ctx) (n : Nat) (rest : Bytes) (r : Ctx)
    (h1 : GetsB (hevcNals a.type a.nals.length c) (Spec.nalsBytes a.nals) (rest ++ l) c') (h2 : GetsB (hevcArrays n c') rest l r) : GetsB (hevcArrays (n + 1) c) (a.bytes ++ rest) l r := by
  obtain ⟨t1, t2⟩ := array_type a hok
  unfold hevcArrays
  have e : a.bytes ++ rest = [UInt8.ofNat (a.flags * 64 + a.type)] ++ (Spec.be16 a.nals.length ++ (Spec.nalsBytes a.nals ++ rest)) := by
    simp [Spec.NalArray.bytes]
  rw [e]
  refine (getsB_u8 _ t2 _).bind ((getsB_u16 _ hok.2.2.1 _).bind ?_)
  rw [t1]
  exact h1.bind h2

theorem getsB_arrays_other : ∀ (arrays : List Spec.NalArray) (l : Bytes) (c : Ctx), (∀ a ∈ arrays, a.Ok ∧ a.type ≠ 33) → GetsB (hevcArrays arrays.length c) (arrays.flatMap Spec.NalArray.bytes) l c := by
  intro arrays
  induction arrays with
  | nil => intro l c _; exact GetsB.pure c l
  | cons a arrays ih =>
    intro l c h
    obtain ⟨h1, h2⟩ := h a (by simp)
    rw [List.flatMap_cons]
    exact getsB_array a h1 l c c _ _ c (getsB_nals_other a.type h2 a.nals _ c h1.2.2.2) (ih l c fun b hb => h b (by simp [hb]))

theorem getsB_arrays : ∀ (arrays after : List Spec.NalArray) (l : Bytes) (c : Ctx), (∀ a ∈ arrays, a.Ok) → (∀ a ∈ after, a.Ok ∧ a.type ≠ 33) → 2 ≤ (after.flatMap Spec.NalArray.bytes ++ l).length →
    Holds (spsNals arrays) → ∃ c', GetsB (hevcArrays (arrays ++ after).length c) ((arrays ++ after).flatMap Spec.NalArray.bytes) l c' ∧ Known (spsNals arrays) c c' := by
  intro arrays
  induction arrays with
  | nil => intro after l c _ h _ _; exact ⟨c, getsB_arrays_other after l c h, Known.refl c⟩
  | cons a arrays ih =>
    intro after l c h h2 hl hh
    have ha := h a (by simp)
    rw [List.cons_append, List.flatMap_cons, List.length_cons]
    by_cases ht : a.type = 33
    · have hsp : spsNals (a :: arrays) = a.nals ++ spsNals arrays := by
        unfold spsNals
        rw [List.filter_cons_of_pos (by simpa using ht), List.flatMap_cons]
      rw [hsp] at hh ⊢
      obtain ⟨c1, g1, k1⟩ := getsB_nals_sps a.nals ((arrays ++ after).flatMap Spec.NalArray.bytes ++ l) c (fun n hn => hh n (by simp [hn]))
        (by rw [List.flatMap_append, List.append_assoc, List.length_append]; omega)
      obtain ⟨c2, g2, k2⟩ := ih after l c1 (fun b hb => h b (by simp [hb])) h2 hl (fun n hn => hh n (by simp [hn]))
      exact ⟨c2, getsB_array a ha l c c1 _ _ c2 (by rw [ht]; exact g1) g2, k1.trans k2⟩
    · have hsp : spsNals (a :: arrays) = spsNals arrays := by
        unfold spsNals
        rw [List.filter_cons_of_neg (by simpa using ht)]
      rw [hsp] at hh ⊢
      obtain ⟨c2, g2, k2⟩ := ih after l c (fun b hb => h b (by simp [hb])) h2 hl hh
      exact ⟨c2, getsB_array a ha l c c _ _ c2 (getsB_nals_other a.type ht a.nals _ c ha.2.2.2) g2, k2⟩

/-- The record behind 5 bytes -/
theorem hevcHeader_record (c : Ctx) (five general : Bytes) (rates ls : Nat) (arrays after : List Spec.NalArray) (l : Bytes) (h5 : five.length = 5) (hg : general.length = 20) (hr : rates < 64)
    (hls : 1 ≤ ls ∧ ls ≤ 4) (hn : (arrays ++ after).length < 256) (h1 : ∀ a ∈ arrays, a.Ok) (h2 : ∀ a ∈ after, a.Ok ∧ a.type ≠ 33) (h3 : 2 ≤ (after.flatMap Spec.NalArray.bytes ++ l).length) (hh : Holds (spsNals arrays)) :
    ∃ c', hevcHeader c (five ++ Spec.hevcRecord general rates ls (arrays ++ after) ++ l) = some c' ∧ Known (spsNals arrays) { c with nalBytes := ls } c' := by
  obtain ⟨c', g, k⟩ := getsB_arrays arrays after l { c with nalBytes := ls } h1 h2 h3 hh
  refine ⟨c', ?_, k⟩
  have g' : GetsB (hevcRead c) ((five ++ [1]) ++ (general ++ ([UInt8.ofNat (rates * 4 + (ls - 1))] ++ ([UInt8.ofNat (arrays ++ after).length] ++ (arrays ++ after).flatMap Spec.NalArray.bytes)))) l c' := by
    unfold hevcRead
    refine (getsB_u 48 _ _ (by simp [h5])).bind ((getsB_u 160 _ _ (by rw [hg])).bind ((getsB_u8 _ (by omega) _).bind ((getsB_u8 _ hn _).bind ?_)))
    rw [show (rates * 4 + (ls - 1)) % 4 + 1 = ls by omega]
    exact g
  obtain ⟨s', e, _⟩ := g' { br := init (five ++ Spec.hevcRecord general rates ls (arrays ++ after) ++ l) } rfl rfl (by simp [init, Spec.hevcRecord])
  unfold hevcHeader parse
  rw [e]
  rfl

end Verif.Codec
