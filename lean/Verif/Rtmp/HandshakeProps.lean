import Verif.Rtmp.HandshakeModel
/- C35 (digest agreement) and C46 (what goes over the wire) of the RTMP handshake. -/
namespace Verif.Handshake
open Verif

/-! ### Specification: packets of 1536 bytes -/

/-- Where the digest of a packet is: the four bytes at `base` decide. -/
def digPos (p : Bytes) (base : Nat) : Nat := base + 4 + (((p.drop base).take 4).map UInt8.toNat).sum % 728
/-- The packet without its digest -/
def body (p : Bytes) (o : Nat) : Bytes := p.take o ++ p.drop (o + 32)
def digestAt (p : Bytes) (o : Nat) : Bytes := (p.drop o).take 32
/-- The packet carries the right digest in this place. -/
def Signed (mac : Mac) (key p : Bytes) (base : Nat) : Prop := mac key (body p (digPos p base)) = digestAt p (digPos p base)

instance (mac : Mac) (key p : Bytes) (base : Nat) : Decidable (Signed mac key p base) := by unfold Signed; infer_instance

/-- The digest the receiver goes by: the second place first. -/
def found (mac : Mac) (key p : Bytes) : Option Nat :=
  if Signed mac key p 772 then some (digPos p 772) else if Signed mac key p 8 then some (digPos p 8) else none

/-- The key of the response to the packet `p`; `none`: old style. -/
def respKey (mac : Mac) (peerKey ownKey p : Bytes) : Option Bytes :=
  if (p.drop 4).take 4 = [0, 0, 0, 0] then none else (found mac peerKey p).map fun o => mac ownKey (digestAt p o)

/-- A packet with the digest put in. -/
def sign (mac : Mac) (key p : Bytes) : Bytes := p.take (digPos p 8) ++ mac key (body p (digPos p 8)) ++ p.drop (digPos p 8 + 32)

/-- Epoch, version, random bytes -/
def plain (epoch : Nat) (version : Bytes) (rnd : Nat → UInt8) : Bytes := beEnc 4 epoch ++ version ++ (List.range 1528).map fun i => rnd (9 + i)

/-- A response: 1504 bytes and their digest. -/
def respond (mac : Mac) (key r : Bytes) : Bytes := r.take 1504 ++ mac key (r.take 1504)

def clientHello (e : Env) : Bytes := sign e.mac clientPartial (plain e.epoch clientVersion e.rnd1)
def serverHello (e : Env) : Bytes := sign e.mac serverPartial (plain e.epoch serverVersion e.rnd1)

/-- The server's second packet: a random packet with the digest, old style the client's packet. -/
def serverAnswer (e : Env) (c1 : Bytes) : Bytes :=
  match respKey e.mac clientPartial serverKey c1 with
  | none => c1
  | some k => respond e.mac k ((List.range 1536).map fun i => e.rnd2 (1537 + i))

/-- The client's second packet: the server's second one, with the digest. -/
def clientAnswer (e : Env) (s1 s2 : Bytes) : Bytes :=
  match respKey e.mac serverPartial clientKey s1 with
  | none => s2
  | some k => respond e.mac k s2

/-- A MAC of 32 bytes, as HMAC-SHA256. -/
def Mac32 (mac : Mac) : Prop := ∀ k m, (mac k m).length = 32

/-! ### Memory -/

theorem rd_mid (A P R : Bytes) {i n : Nat} (h : i + n ≤ P.length) : rd (A ++ P ++ R) (A.length + i) n = some ((P.drop i).take n) := by
  unfold rd
  rw [if_pos (by simp only [List.length_append]; omega)]
  congr 1
  rw [List.append_assoc, List.drop_append, List.drop_of_length_le (by omega), List.nil_append, Nat.add_sub_cancel_left,
    List.drop_append_of_le_length (by omega), List.take_append_of_le_length (by simp only [List.length_drop]; omega)]

theorem wr_mid (A P R d : Bytes) {i : Nat} (h : i + d.length ≤ P.length) :
    wr (A ++ P ++ R) (A.length + i) d = some (A ++ (P.take i ++ d ++ P.drop (i + d.length)) ++ R) := by
  unfold wr
  rw [if_pos (by simp only [List.length_append]; omega)]
  congr 1
  have e1 : (A ++ P ++ R).take (A.length + i) = A ++ P.take i := by
    rw [List.append_assoc, List.take_append, List.take_of_length_le (by omega), Nat.add_sub_cancel_left, List.take_append_of_le_length (by omega)]
  have e2 : (A ++ P ++ R).drop (A.length + i + d.length) = P.drop (i + d.length) ++ R := by
    rw [List.append_assoc, List.drop_append, List.drop_of_length_le (by omega), List.nil_append,
      show A.length + i + d.length - A.length = i + d.length by omega, List.drop_append_of_le_length (by omega)]
  rw [e1, e2]
  simp only [List.append_assoc]

theorem sum4_eq (d : Bytes) : sum4 d = (d.map UInt8.toNat).sum := by
  unfold sum4
  have : ∀ (d : Bytes) (a : Nat), d.foldl (fun a x => a + x.toNat) a = a + (d.map UInt8.toNat).sum := by
    intro d
    induction d with
    | nil => intro a; simp
    | cons x d ih => intro a; rw [List.foldl_cons, ih]; simp; omega
  rw [this]; omega

/-- **C35** (inside the packet). For every packet the place of the digest, in either scheme, lies behind the four bytes that decide on it and inside
the 1536 bytes. -/
theorem C35_inside (p : Bytes) (base : Nat) (h : base = 8 ∨ base = 772) : base + 4 ≤ digPos p base ∧ digPos p base + 32 ≤ 1536 := by
  unfold digPos
  have := Nat.mod_lt (((p.drop base).take 4).map UInt8.toNat).sum (show 0 < 728 by decide)
  rcases h with h | h <;> subst h <;> omega

theorem digestInput_mid (A P R : Bytes) {o : Nat} (h : o + 32 ≤ P.length) :
    digestInput ⟨A ++ P ++ R, A.length, A.length + P.length⟩ (some (A.length + o)) = some (body P o) := by
  unfold digestInput
  dsimp only
  rw [if_pos (by omega), show A.length + o - A.length = o by omega]
  have e : rd (A ++ P ++ R) A.length o = some (P.take o) := by
    have := rd_mid A P R (i := 0) (n := o) (by omega)
    simpa using this
  rw [e]
  dsimp only
  unfold body
  by_cases c : A.length + P.length ≠ A.length + o + 32
  · rw [if_pos c, if_neg (by omega), show A.length + o + 32 = A.length + (o + 32) by omega, rd_mid A P R (by omega)]
    simp only [Option.map_some]
    rw [List.take_of_length_le (l := P.drop (o + 32)) (by rw [List.length_drop]; omega)]
  · rw [if_neg c, List.drop_of_length_le (by omega), List.append_nil]

theorem digestInput_all (A P R : Bytes) : digestInput ⟨A ++ P ++ R, A.length, A.length + P.length⟩ none = some P := by
  unfold digestInput
  dsimp only
  rw [show A.length + P.length - A.length = P.length by omega]
  have := rd_mid A P R (i := 0) (n := P.length) (by omega)
  simpa using this

theorem findDigest_spec (mac : Mac) (A P key : Bytes) (base : Nat) (hb : base = 8 ∨ base = 772) (hp : P.length = 1536) :
    findDigest mac ⟨A ++ P, A.length, A.length + P.length⟩ key base = some (if Signed mac key P base then some (digPos P base) else none) := by
  obtain ⟨i1, i2⟩ := C35_inside P base hb
  unfold findDigest
  have e1 : rd (A ++ P) (A.length + base) 4 = some ((P.drop base).take 4) := by
    have := rd_mid A P [] (i := base) (n := 4) (by omega)
    simpa using this
  dsimp only
  rw [e1]
  dsimp only
  have eo : sum4 ((P.drop base).take 4) % 728 + base + 4 = digPos P base := by rw [sum4_eq]; unfold digPos; omega
  rw [eo]
  have e2 := digestInput_mid A P [] (o := digPos P base) (by omega)
  rw [List.append_nil] at e2
  have e3 : rd (A ++ P) (A.length + digPos P base) 32 = some (digestAt P (digPos P base)) := by
    have := rd_mid A P [] (i := digPos P base) (n := 32) (by omega)
    simpa [digestAt] using this
  unfold makeDigest
  rw [e2, e3]
  rfl

theorem writeDigest_spec (mac : Mac) (hm : Mac32 mac) (A P R key : Bytes) (hp : P.length = 1536) :
    writeDigest mac ⟨A ++ P ++ R, A.length, A.length + P.length⟩ key 0 = some ⟨A ++ sign mac key P ++ R, A.length, A.length + P.length⟩ := by
  obtain ⟨i1, i2⟩ := C35_inside P 8 (.inl rfl)
  unfold writeDigest
  dsimp only
  rw [show A.length + 0 + 8 = A.length + 8 by omega, rd_mid A P R (by omega)]
  dsimp only
  have eo : sum4 ((P.drop 8).take 4) % 728 + 0 + 12 = digPos P 8 := by rw [sum4_eq]; unfold digPos; omega
  rw [eo]
  unfold makeDigest
  rw [digestInput_mid A P R (by omega)]
  simp only [Option.map_some]
  rw [wr_mid A P R _ (by rw [hm]; omega), hm]
  rfl

theorem put_app (A R d : Bytes) (p : Nat) (h : d.length ≤ R.length) :
    put ⟨A ++ R, p, A.length⟩ d = some ⟨(A ++ d) ++ R.drop d.length, p, (A ++ d).length⟩ := by
  unfold put
  dsimp only
  have := wr_mid A R [] d (i := 0) (by omega)
  simp only [List.append_nil, Nat.add_zero, List.take_zero, List.nil_append, Nat.zero_add] at this
  rw [this]
  simp only [Option.map_some, List.append_assoc, List.length_append]

theorem fill_app (rnd : Nat → UInt8) (A R : Bytes) (p e : Nat) (h : A.length ≤ e) (h2 : e ≤ A.length + R.length) :
    fillRandom rnd ⟨A ++ R, p, A.length⟩ e =
      some ⟨(A ++ (List.range (e - A.length)).map fun i => rnd (A.length + i)) ++ R.drop (e - A.length), p, e⟩ := by
  unfold fillRandom
  dsimp only
  rw [if_pos h]
  have := wr_mid A R [] ((List.range (e - A.length)).map fun i => rnd (A.length + i)) (i := 0) (by simp; omega)
  simp only [List.append_nil, Nat.add_zero, List.take_zero, List.nil_append, Nat.zero_add, List.length_map, List.length_range] at this
  rw [this]
  simp only [Option.map_some, List.append_assoc]

theorem plain_length (n : Nat) (v : Bytes) (rnd : Nat → UInt8) (h : v.length = 4) : (plain n v rnd).length = 1536 := by
  unfold plain
  simp only [List.length_append, beEnc_length, h, List.length_map, List.length_range]

theorem createChallenge_spec (mac : Mac) (hm : Mac32 mac) (epoch : Nat) (rnd : Nat → UInt8) (v key : Bytes) (hv : v.length = 4) (b : Buf)
    (hb : b.mem.length = bufSize) :
    createChallenge mac epoch rnd v key b = some ⟨(3 :: sign mac key (plain epoch v rnd)) ++ b.mem.drop chalSize, 0, chalSize⟩ := by
  obtain ⟨m, p0, l0⟩ := b
  have hb : m.length = 3073 := hb
  unfold createChallenge
  dsimp only
  have e1 := put_app [] m [3] 0 (by simp; omega)
  simp only [List.nil_append, List.length_nil, List.length_cons] at e1
  rw [e1]
  simp only [Option.bind_eq_bind, Option.bind_some]
  rw [show (0 + 1 : Nat) = ([3] : Bytes).length from rfl]
  have e2 := put_app [3] (m.drop 1) (beEnc 4 epoch) 0 (by rw [beEnc_length]; simp; omega)
  rw [show ([3] : Bytes).length = 1 from rfl] at e2 ⊢
  rw [e2]
  simp only [Option.bind_some]
  rw [put_app ([3] ++ beEnc 4 epoch) _ v 0 (by rw [hv, beEnc_length]; simp; omega)]
  simp only [Option.bind_some]
  have hl : ([3] ++ beEnc 4 epoch ++ v).length = 9 := by simp only [List.length_append, beEnc_length, hv, List.length_cons, List.length_nil]
  rw [fill_app rnd ([3] ++ beEnc 4 epoch ++ v) _ 0 chalSize (by rw [hl]; decide)
    (by rw [hl, beEnc_length, hv]; simp only [List.length_drop, hb]; decide)]
  simp only [Option.bind_some]
  rw [hl]
  have em : ([3] ++ beEnc 4 epoch ++ v ++ (List.range (chalSize - 9)).map fun i => rnd (9 + i)) = [3] ++ plain epoch v rnd := by
    unfold plain; simp only [List.append_assoc]; rfl
  rw [em]
  have ed : ((((m.drop 1).drop (beEnc 4 epoch).length).drop v.length).drop (chalSize - 9)) = m.drop chalSize := by
    simp only [List.drop_drop, beEnc_length, hv]; rfl
  rw [ed]
  have ew := writeDigest_spec mac hm [3] (plain epoch v rnd) (m.drop chalSize) key (plain_length _ _ _ hv)
  rw [plain_length _ _ _ hv] at ew
  have ew : writeDigest mac ⟨[3] ++ plain epoch v rnd ++ m.drop chalSize, 0 + 1, chalSize⟩ key 0 =
      some ⟨[3] ++ sign mac key (plain epoch v rnd) ++ m.drop chalSize, 1, chalSize⟩ := ew
  rw [ew]
  rfl

theorem sign_length (mac : Mac) (hm : Mac32 mac) (key p : Bytes) (hp : p.length = 1536) : (sign mac key p).length = 1536 := by
  obtain ⟨i1, i2⟩ := C35_inside p 8 (.inl rfl)
  unfold sign
  have := hm key (body p (digPos p 8))
  simp only [List.length_append, List.length_take, List.length_drop]
  omega

theorem sign_take (mac : Mac) (key p : Bytes) (hp : p.length = 1536) {n : Nat} (hn : n ≤ 12) : (sign mac key p).take n = p.take n := by
  obtain ⟨i1, i2⟩ := C35_inside p 8 (.inl rfl)
  unfold sign
  rw [List.append_assoc, List.take_append_of_le_length (by simp only [List.length_take]; omega), List.take_take]
  congr 1
  omega

theorem digPos_sign (mac : Mac) (key p : Bytes) (hp : p.length = 1536) : digPos (sign mac key p) 8 = digPos p 8 := by
  have h := sign_take mac key p hp (n := 12) (Nat.le_refl _)
  have e : ∀ q : Bytes, (q.drop 8).take 4 = (q.take 12).drop 8 := fun q => by rw [List.drop_take]
  unfold digPos
  rw [e, e, h]

theorem sign_signed (mac : Mac) (hm : Mac32 mac) (key p : Bytes) (hp : p.length = 1536) : Signed mac key (sign mac key p) 8 ∧
    digestAt (sign mac key p) (digPos p 8) = mac key (body p (digPos p 8)) := by
  obtain ⟨i1, i2⟩ := C35_inside p 8 (.inl rfl)
  have hl : (p.take (digPos p 8)).length = digPos p 8 := by simp only [List.length_take]; omega
  have hd : digestAt (sign mac key p) (digPos p 8) = mac key (body p (digPos p 8)) := by
    unfold digestAt sign
    rw [List.append_assoc, List.drop_append, List.drop_of_length_le (by omega), List.nil_append, hl, Nat.sub_self, List.drop_zero,
      List.take_append_of_le_length (by rw [hm]; omega), List.take_of_length_le (by rw [hm]; omega)]
  have hb : body (sign mac key p) (digPos p 8) = body p (digPos p 8) := by
    unfold body
    have t1 : (sign mac key p).take (digPos p 8) = p.take (digPos p 8) := by
      unfold sign
      rw [List.append_assoc, List.take_append_of_le_length (by omega), List.take_of_length_le (by omega)]
    have t2 : (sign mac key p).drop (digPos p 8 + 32) = p.drop (digPos p 8 + 32) := by
      have h1 : (p.take (digPos p 8) ++ mac key (body p (digPos p 8))).length = digPos p 8 + 32 := by
        rw [List.length_append, hl, hm]
      unfold sign
      rw [List.drop_append, List.drop_of_length_le (by omega), List.nil_append, h1, Nat.sub_self, List.drop_zero]
    rw [t1, t2]
  refine ⟨?_, hd⟩
  unfold Signed
  rw [digPos_sign mac key p hp, hb, hd]

/-! ### Parsing and answering -/

theorem parseChallenge_spec (mac : Mac) (pk k A P : Bytes) (v : UInt8) (h : Hs) (hb : h.b = ⟨A ++ v :: P, A.length, A.length + 1 + P.length⟩)
    (hp : P.length = 1536) (ho : h.old = false) (hd : h.digest = none) :
    (v ≠ 3 → parseChallenge mac pk k h = some none) ∧
    (v = 3 → ∃ b', b'.mem = A ++ v :: P ∧
      parseChallenge mac pk k h = some (some ⟨b', (respKey mac pk k P).isNone, respKey mac pk k P, beDec (P.take 4)⟩)) := by
  have e9 : rd h.b.mem h.b.pos 9 = some (v :: P.take 8) := by
    rw [hb]
    have := rd_mid A (v :: P) [] (i := 0) (n := 9) (by simp; omega)
    simpa using this
  unfold parseChallenge
  rw [e9]
  dsimp only
  constructor
  · intro hv
    rw [if_pos (by simpa using hv)]
  · intro hv
    subst hv
    have e5 : ((3 :: P.take 8).drop 5).take 4 = (P.drop 4).take 4 := by
      show ((P.take 8).drop 4).take 4 = _
      rw [List.drop_take, List.take_take]
      rfl
    have e4 : ((3 :: P.take 8).drop 1).take 4 = P.take 4 := by
      show (P.take 8).take 4 = _
      rw [List.take_take]; rfl
    rw [if_neg (by simp), e5, e4]
    obtain ⟨hbuf, hold, hdig, hpe⟩ := h
    dsimp only at hb ho hd e9 ⊢
    subst hb ho hd
    unfold respKey
    by_cases hz : (P.drop 4).take 4 = [0, 0, 0, 0]
    · rw [if_pos hz, if_pos hz]
      exact ⟨_, rfl, rfl⟩
    · rw [if_neg hz, if_neg hz]
      dsimp only
      have er : (⟨A ++ 3 :: P, A.length + 1, A.length + 1 + P.length⟩ : Buf) = ⟨(A ++ [3]) ++ P, (A ++ [3]).length, (A ++ [3]).length + P.length⟩ := by
        simp
      rw [er, findDigest_spec mac (A ++ [3]) P pk 772 (.inr rfl) hp, findDigest_spec mac (A ++ [3]) P pk 8 (.inl rfl) hp]
      dsimp only
      have key : ∀ o, o + 32 ≤ 1536 → digestInput ⟨A ++ [3] ++ P, (A ++ [3]).length + o, (A ++ [3]).length + o + 32⟩ none = some (digestAt P o) := by
        intro o ho
        have hlo : (A ++ [3] ++ P.take o).length = (A ++ [3]).length + o := by
          rw [List.length_append (as := A ++ [3]), List.length_take]; omega
        have hld : (digestAt P o).length = 32 := by unfold digestAt; rw [List.length_take, List.length_drop]; omega
        have := digestInput_all (A ++ [3] ++ P.take o) (digestAt P o) (P.drop (o + 32))
        rw [hld, hlo] at this
        rw [← this]
        congr 2
        unfold digestAt
        simp only [List.append_assoc]
        rw [← List.drop_drop, List.take_append_drop, List.take_append_drop]
      have key : ∀ o, o + 32 ≤ 1536 → digestInput ⟨A ++ 3 :: P, A.length + 1 + o, A.length + 1 + o + 32⟩ none = some (digestAt P o) := by
        intro o ho
        have := key o ho
        simpa using this
      unfold found
      by_cases c1 : Signed mac pk P 772
      · have i := C35_inside P 772 (.inr rfl)
        rw [if_pos c1, if_pos c1]
        dsimp only
        unfold makeDigest
        rw [key _ i.2]
        exact ⟨_, by simp, rfl⟩
      · rw [if_neg c1, if_neg c1]
        dsimp only
        by_cases c2 : Signed mac pk P 8
        · have i := C35_inside P 8 (.inl rfl)
          rw [if_pos c2]
          dsimp only
          unfold makeDigest
          rw [key _ i.2]
          exact ⟨_, by simp, rfl⟩
        · rw [if_neg c2]
          exact ⟨_, by simp, rfl⟩

theorem respDigest (mac : Mac) (hm : Mac32 mac) (key A Q : Bytes) (ha : A.length = 1537) (hq : Q.length = 1536) :
    makeDigest mac key ⟨A ++ Q, chalSize, bufSize⟩ (some (bufSize - 32)) = some (mac key (Q.take 1504)) ∧
    wr (A ++ Q) (bufSize - 32) (mac key (Q.take 1504)) = some (A ++ respond mac key Q) := by
  have e := digestInput_mid A Q [] (o := 1504) (by omega)
  rw [List.append_nil, ha, hq] at e
  have hb : body Q 1504 = Q.take 1504 := by
    unfold body; rw [List.drop_of_length_le (by omega), List.append_nil]
  rw [hb] at e
  constructor
  · unfold makeDigest
    have e : digestInput ⟨A ++ Q, chalSize, bufSize⟩ (some (bufSize - 32)) = some (Q.take 1504) := e
    rw [e]; rfl
  · have := wr_mid A Q [] (mac key (Q.take 1504)) (i := 1504) (by rw [hm]; omega)
    rw [List.append_nil, ha, hm, List.drop_of_length_le (l := Q) (by omega), List.append_nil, List.append_nil] at this
    exact this

theorem createResponse_server (mac : Mac) (hm : Mac32 mac) (rnd : Nat → UInt8) (A R key : Bytes) (old : Bool) (pe : Nat) (ha : A.length = 1537)
    (hr : R.length = 1536) :
    createResponse mac rnd ⟨⟨A ++ R, 0, chalSize⟩, old, some key, pe⟩ =
      some ⟨⟨A ++ respond mac key ((List.range 1536).map fun i => rnd (1537 + i)), 0, bufSize⟩, old, some key, pe⟩ := by
  unfold createResponse
  dsimp only
  have e := fill_app rnd A R chalSize bufSize (by rw [ha]; decide) (by rw [ha, hr]; decide)
  rw [ha] at e
  have e : fillRandom rnd ⟨A ++ R, chalSize, chalSize⟩ bufSize =
    some ⟨(A ++ (List.range 1536).map fun i => rnd (1537 + i)) ++ R.drop 1536, chalSize, bufSize⟩ := e
  rw [List.drop_of_length_le (by omega), List.append_nil] at e
  rw [e]
  simp only [Option.bind_eq_bind, Option.bind_some]
  obtain ⟨h1, h2⟩ := respDigest mac hm key A ((List.range 1536).map fun i => rnd (1537 + i)) ha (by simp)
  rw [if_neg (by decide), h1]
  simp only [Option.bind_some]
  rw [h2]
  rfl

theorem createResponse_client (mac : Mac) (hm : Mac32 mac) (rnd : Nat → UInt8) (A Q : Bytes) (old : Bool) (d : Option Bytes) (pe : Nat)
    (ha : A.length = 1537) (hq : Q.length = 1536) :
    createResponse mac rnd ⟨⟨A ++ Q, chalSize, bufSize⟩, old, d, pe⟩ =
      some ⟨⟨A ++ d.elim Q (fun k => respond mac k Q), chalSize, bufSize⟩, old, d, pe⟩ := by
  have e := fill_app rnd (A ++ Q) [] chalSize bufSize (by rw [List.length_append, ha, hq]; decide) (by rw [List.length_append, ha, hq]; decide)
  rw [List.length_append, ha, hq] at e
  have e : fillRandom rnd ⟨A ++ Q ++ [], chalSize, bufSize⟩ bufSize = some ⟨A ++ Q ++ [] ++ [], chalSize, bufSize⟩ := e
  simp only [List.append_nil] at e
  unfold createResponse
  dsimp only
  rw [e]
  simp only [Option.bind_eq_bind, Option.bind_some]
  cases d with
  | none => rfl
  | some k =>
    dsimp only
    obtain ⟨h1, h2⟩ := respDigest mac hm k A Q ha hq
    rw [if_neg (by decide), h1]
    simp only [Option.bind_some]
    rw [h2]
    rfl

/-! ### C35 -/

theorem version_ne (e : Nat) (v : Bytes) (rnd : Nat → UInt8) (mac : Mac) (key : Bytes) (hv : v.length = 4) (hz : v ≠ [0, 0, 0, 0]) :
    ((sign mac key (plain e v rnd)).drop 4).take 4 ≠ [0, 0, 0, 0] := by
  have h := sign_take mac key (plain e v rnd) (plain_length _ _ _ hv) (n := 8) (by omega)
  have : ((sign mac key (plain e v rnd)).drop 4).take 4 = ((sign mac key (plain e v rnd)).take 8).drop 4 := by rw [List.drop_take]
  rw [this, h]
  have : ((plain e v rnd).take 8).drop 4 = v := by
    unfold plain
    rw [List.take_append_of_le_length (by simp only [List.length_append, beEnc_length, hv]; omega), List.take_of_length_le (by simp only [List.length_append, beEnc_length, hv]; omega),
      List.drop_append, List.drop_of_length_le (by rw [beEnc_length]; omega), beEnc_length, List.nil_append, Nat.sub_self, List.drop_zero]
  rw [this]
  exact hz

theorem found_sign (mac : Mac) (hm : Mac32 mac) (key p : Bytes) (hp : p.length = 1536) :
    found mac key (sign mac key p) = some (if Signed mac key (sign mac key p) 772 then digPos (sign mac key p) 772 else digPos p 8) := by
  unfold found
  split
  · rfl
  · rw [if_pos (sign_signed mac hm key p hp).1, digPos_sign mac key p hp]

/-- **C35** (recognised). For every random fill, every epoch and every hash function of 32 bytes: the first packet this implementation makes as a
client is taken by it, as a server, for one with a digest, and the other way round. The digest it goes by is the one written, unless the second
place happens to hold a right digest too. -/
theorem C35_recognised (e : Env) (hm : Mac32 e.mac) :
    (∃ o, respKey e.mac clientPartial serverKey (clientHello e) = some (e.mac serverKey (digestAt (clientHello e) o)) ∧
      (¬ Signed e.mac clientPartial (clientHello e) 772 → o = digPos (clientHello e) 8)) ∧
    (∃ o, respKey e.mac serverPartial clientKey (serverHello e) = some (e.mac clientKey (digestAt (serverHello e) o)) ∧
      (¬ Signed e.mac serverPartial (serverHello e) 772 → o = digPos (serverHello e) 8)) := by
  constructor
  · have h1 := found_sign e.mac hm clientPartial (plain e.epoch clientVersion e.rnd1) (plain_length _ _ _ rfl)
    have h2 := version_ne e.epoch clientVersion e.rnd1 e.mac clientPartial rfl (by decide)
    have h3 := digPos_sign e.mac clientPartial (plain e.epoch clientVersion e.rnd1) (plain_length _ _ _ rfl)
    unfold respKey clientHello
    rw [if_neg h2, h1]
    refine ⟨_, rfl, fun h => ?_⟩
    rw [if_neg h, h3]
  · have h1 := found_sign e.mac hm serverPartial (plain e.epoch serverVersion e.rnd1) (plain_length _ _ _ rfl)
    have h2 := version_ne e.epoch serverVersion e.rnd1 e.mac serverPartial rfl (by decide)
    have h3 := digPos_sign e.mac serverPartial (plain e.epoch serverVersion e.rnd1) (plain_length _ _ _ rfl)
    unfold respKey serverHello
    rw [if_neg h2, h1]
    refine ⟨_, rfl, fun h => ?_⟩
    rw [if_neg h, h3]

/-- **C35** (keys). The keys are the published ones: the short keys are the two texts, the long ones add the same 32 bytes. -/
theorem C35_keys : clientPartial = "Genuine Adobe Flash Player 001".toList.map (fun c => UInt8.ofNat c.toNat) ∧
    serverPartial = "Genuine Adobe Flash Media Server 001".toList.map (fun c => UInt8.ofNat c.toNat) ∧
    clientKey.length = 62 ∧ serverKey.length = 68 ∧ clientKey.drop 30 = serverKey.drop 36 := by decide +kernel

/-- The check a peer makes on a second packet: its last 32 bytes are the digest of the rest under the key. -/
def Verifies (mac : Mac) (key p : Bytes) : Prop := p.drop 1504 = mac key (p.take 1504)

theorem respond_verifies (mac : Mac) (key r : Bytes) (hr : r.length = 1536) : Verifies mac key (respond mac key r) := by
  have hl : (r.take 1504).length = 1504 := by rw [List.length_take]; omega
  unfold Verifies respond
  rw [List.drop_append, List.drop_of_length_le (by omega), hl, Nat.sub_self, List.nil_append, List.drop_zero, List.take_append_of_le_length (by omega),
    List.take_take]
  rfl

theorem respond_length (mac : Mac) (hm : Mac32 mac) (key r : Bytes) (hr : r.length = 1536) : (respond mac key r).length = 1536 := by
  unfold respond
  rw [List.length_append, hm, List.length_take]; omega

end Verif.Handshake
