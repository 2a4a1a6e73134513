import Verif.Rtmp.AccessModel
/-
C28: access rules — the first matching rule decides.
-/
namespace Verif.Access

/-! ### Specification -/

/-- The operations a directive applies to. -/
inductive Ops where | publish | play | both
deriving DecidableEq, Repr

inductive Op where | publish | play
deriving DecidableEq, Repr

def Ops.covers : Ops → Op → Bool
  | .both, _ => true
  | .publish, .publish => true
  | .play, .play => true
  | _, _ => false

/-- The network named by a directive. -/
inductive Net where
  | all
  | v4 (addr mask : BitVec 32)
  | v6 (addr mask : List UInt8)

/-- A peer: IPv4, or IPv6 (16 bytes) that is not an IPv4-mapped address. -/
inductive Peer where
  | v4 (a : BitVec 32)
  | v6 (p : List UInt8)

/-- Bitwise network membership: the address agrees with the network on every bit of the mask. -/
def Net.contains : Net → Peer → Prop
  | .all, _ => True
  | .v4 n m, .v4 a => ∀ i, m.getLsbD i = true → a.getLsbD i = n.getLsbD i
  | .v6 n m, .v6 p => ∀ k, k < 16 → ∀ i, (m.getD k 0).toBitVec.getLsbD i = true →
      (p.getD k 0).toBitVec.getLsbD i = (n.getD k 0).toBitVec.getLsbD i
  | _, _ => False

/-- One configuration directive: its meaning and the text of its network argument. -/
structure Directive where
  deny : Bool
  ops : Ops
  net : Net
  text : String

/-- Directive as written in the configuration file. -/
def Directive.args (d : Directive) : List String :=
  [if d.deny then "deny" else "allow"] ++
  (match d.ops with | .publish => ["publish"] | .play => ["play"] | .both => []) ++ [d.text]

/-- The text denotes the network according to the CIDR parser; networks come masked, and a zero bit
of the mask is a zero bit of the address. -/
def Directive.WellFormed (ptocidr : String → Option Cidr) (d : Directive) : Prop :=
  match d.net with
  | .all => d.text = "all"
  | .v4 a m => d.text ≠ "all" ∧ ptocidr d.text = some (.v4 a m) ∧ a &&& m = a
  | .v6 a m => d.text ≠ "all" ∧ ptocidr d.text = some (.v6 a m) ∧ a.length = 16 ∧ m.length = 16 ∧
      ∀ k, k < 16 → (a.getD k 0) &&& (m.getD k 0) = a.getD k 0

open Classical in
/-- First match decides; nothing matching means admitted. -/
noncomputable def admitted : List Directive → Op → Peer → Bool
  | [], _, _ => true
  | d :: ds, op, p => if d.ops.covers op ∧ d.net.contains p then !d.deny else admitted ds op p

def Op.flag : Op → Nat
  | .publish => PUBLISH
  | .play => PLAY

/-- What the module answers to a client asking for `op` (not over the inter-process socket): the publish or the play
handler runs. -/
def answer (conf : Conf) (sa : Option Sockaddr) : Op → Res
  | .publish => accessPublish conf false sa
  | .play => accessPlay conf sa

theorem answer_eq (conf : Conf) (sa : Option Sockaddr) (op : Op) : answer conf sa op = access conf sa op.flag := by
  cases op <;> rfl

/-- The address bytes of a peer inside its socket address structure (AF_INET: port 2 bytes after the
family; AF_INET6: port, flow info, then the address, then the scope id). -/
def Peer.sockaddr : Peer → Bytes → Bytes → Sockaddr
  | .v4 a, hdr, pad => ⟨.inet, hdr ++ beEnc 4 a.toNat ++ pad⟩
  | .v6 p, hdr, pad => ⟨.inet6, hdr ++ p ++ pad⟩

/-! ### Lemmas -/

def Ops.flags : Ops → Nat
  | .publish => PUBLISH
  | .play => PLAY
  | .both => PUBLISH ||| PLAY

theorem flags_covers (ops : Ops) (op : Op) : (op.flag &&& ops.flags ≠ 0) ↔ ops.covers op = true := by
  cases ops <;> cases op <;> decide

/-- Rules of a list of directives. -/
def rules4 : List Directive → List Rule4
  | [] => []
  | d :: ds => match d.net with
    | .all => ⟨0, 0, d.deny, d.ops.flags⟩ :: rules4 ds
    | .v4 a m => ⟨m, a, d.deny, d.ops.flags⟩ :: rules4 ds
    | .v6 _ _ => rules4 ds

def rules6 : List Directive → List Rule6
  | [] => []
  | d :: ds => match d.net with
    | .all => ⟨List.replicate 16 0, List.replicate 16 0, d.deny, d.ops.flags⟩ :: rules6 ds
    | .v6 a m => ⟨m, a, d.deny, d.ops.flags⟩ :: rules6 ds
    | .v4 _ _ => rules6 ds

theorem head_deny (d : Bool) :
    ((if d then "deny" else "allow" : String).toList.head? == some 'd') = d := by
  cases d <;> decide

theorem accessRule_spec (pt : String → Option Cidr) (conf : Conf) (d : Directive)
    (h : d.WellFormed pt) :
    accessRule pt conf d.args =
      some ⟨conf.rules ++ rules4 [d], conf.rules6 ++ rules6 [d]⟩ := by
  obtain ⟨deny, ops, net, text⟩ := d
  have hd := head_deny deny
  cases net with
  | all =>
    have ht : text = "all" := h
    subst ht
    cases ops <;>
      simp [Directive.args, accessRule, rules4, rules6, Ops.flags, hd]
  | v4 a m =>
    obtain ⟨ht, hp, _⟩ := h
    simp only at ht hp
    cases ops <;>
      simp [Directive.args, accessRule, rules4, rules6, Ops.flags, hd, ht, hp]
  | v6 a m =>
    obtain ⟨ht, hp, _⟩ := h
    simp only at ht hp
    cases ops <;>
      simp [Directive.args, accessRule, rules4, rules6, Ops.flags, hd, ht, hp]

theorem rules4_append (a b : List Directive) : rules4 (a ++ b) = rules4 a ++ rules4 b := by
  induction a with
  | nil => rfl
  | cons d ds ih => 
    obtain ⟨deny, ops, net, text⟩ := d
    cases net <;> simp [rules4, ih]

theorem rules6_append (a b : List Directive) : rules6 (a ++ b) = rules6 a ++ rules6 b := by
  induction a with
  | nil => rfl
  | cons d ds ih =>
    obtain ⟨deny, ops, net, text⟩ := d
    cases net <;> simp [rules6, ih]

theorem parseBlock_spec (pt : String → Option Cidr) (ds : List Directive) (conf : Conf)
    (h : ∀ d ∈ ds, d.WellFormed pt) :
    parseBlock pt conf (ds.map Directive.args) =
      some ⟨conf.rules ++ rules4 ds, conf.rules6 ++ rules6 ds⟩ := by
  induction ds generalizing conf with
  | nil => simp [parseBlock, rules4, rules6]
  | cons d ds ih =>
    simp only [List.map_cons, parseBlock]
    rw [accessRule_spec pt conf d (h d (by simp))]
    simp only
    rw [ih _ (fun d hd => h d (by simp [hd]))]
    have e4 := rules4_append [d] ds
    have e6 := rules6_append [d] ds
    simp only [List.cons_append, List.nil_append] at e4 e6
    rw [e4, e6, List.append_assoc, List.append_assoc]

theorem mergeRules_eq {α : Type} (prev rules : List α) : mergeRules prev rules = rules ++ prev := by
  unfold mergeRules
  cases prev <;> cases rules <;> simp

theorem and_eq_iff32 (a m n : BitVec 32) (hn : n &&& m = n) :
    (a &&& m = n) ↔ ∀ i, m.getLsbD i = true → a.getLsbD i = n.getLsbD i := by
  constructor
  · intro h i hi
    rw [← h, BitVec.getLsbD_and, hi, Bool.and_true]
  · intro h
    apply BitVec.eq_of_getLsbD_eq
    intro i hi
    rw [← hn, BitVec.getLsbD_and, BitVec.getLsbD_and]
    cases hm : m.getLsbD i
    · simp
    · simp [h i hm]

theorem and_eq_iff8 (a m n : UInt8) (hn : n &&& m = n) :
    (a &&& m = n) ↔ ∀ i, m.toBitVec.getLsbD i = true → a.toBitVec.getLsbD i = n.toBitVec.getLsbD i := by
  constructor
  · intro h i hi
    rw [← h, UInt8.toBitVec_and, BitVec.getLsbD_and, hi, Bool.and_true]
  · intro h
    apply UInt8.toBitVec_inj.mp
    apply BitVec.eq_of_getLsbD_eq
    intro i hi
    rw [← hn, UInt8.toBitVec_and, UInt8.toBitVec_and, BitVec.getLsbD_and, BitVec.getLsbD_and]
    cases hm : m.toBitVec.getLsbD i
    · simp
    · simp [h i hm]

theorem match6_iff (N : Nat) (p m a : List UInt8) (hp : p.length = N) (hm : m.length = N) (ha : a.length = N) :
    match6 p m a = true ↔ ∀ k, k < N → (p.getD k 0) &&& (m.getD k 0) = a.getD k 0 := by
  induction N generalizing p m a with
  | zero =>
    obtain rfl := List.length_eq_zero_iff.mp hp
    simp [match6]
  | succ N ih =>
    obtain ⟨x, p, rfl⟩ := List.exists_cons_of_length_eq_add_one hp
    obtain ⟨y, m, rfl⟩ := List.exists_cons_of_length_eq_add_one hm
    obtain ⟨z, a, rfl⟩ := List.exists_cons_of_length_eq_add_one ha
    have := ih p m a (by simpa using hp) (by simpa using hm) (by simpa using ha)
    simp only [match6]
    by_cases h : x &&& y = z
    · simp only [ne_eq, h, not_true_eq_false, ↓reduceIte, this]
      constructor
      · intro h2 k hk
        cases k with
        | zero => simpa using h
        | succ k => simpa using h2 k (by omega)
      · intro h2 k hk
        simpa using h2 (k+1) (by omega)
    · simp only [ne_eq, h, not_false_eq_true, ↓reduceIte, Bool.false_eq_true, false_iff]
      intro h2
      exact h (by simpa using h2 0 (by omega))

theorem glue {P Q : Prop} {_ : Decidable P} {_ : Decidable Q} (h : P ↔ Q) (deny b : Bool) :
    (if P then found deny else (if b = true then Res.ok else .error)) =
      if (if Q then !deny else b) = true then Res.ok else .error := by
  by_cases hq : Q
  · rw [if_pos (h.mpr hq), if_pos hq]; cases deny <;> rfl
  · rw [if_neg (fun x => hq (h.mp x)), if_neg hq]

theorem inet_spec (pt : String → Option Cidr) (ds : List Directive) (op : Op) (a : BitVec 32)
    (h : ∀ d ∈ ds, d.WellFormed pt) :
    inet (rules4 ds) a op.flag = if admitted ds op (.v4 a) then .ok else .error := by
  induction ds with
  | nil => simp [rules4, inet, admitted]
  | cons d ds ih =>
    have ih := ih (fun d hd => h d (by simp [hd]))
    have hw := h d (by simp)
    obtain ⟨deny, ops, net, text⟩ := d
    have hf := flags_covers ops op
    cases net with
    | all =>
      simp only [rules4, inet, admitted]
      rw [ih]
      apply glue
      simp only [Net.contains, hf, and_true]
      simp
    | v4 n m =>
      have hmask := and_eq_iff32 a m n hw.2.2
      simp only [rules4, inet, admitted]
      rw [ih]
      apply glue
      simp only [Net.contains, hf, hmask]
      exact And.comm
    | v6 n m =>
      simp only [rules4, admitted, Net.contains]
      rw [ih]
      simp

theorem inet6_spec (pt : String → Option Cidr) (ds : List Directive) (op : Op) (p : List UInt8)
    (hp : p.length = 16) (h : ∀ d ∈ ds, d.WellFormed pt) :
    inet6 (rules6 ds) p op.flag = if admitted ds op (.v6 p) then .ok else .error := by
  induction ds with
  | nil => simp [rules6, inet6, admitted]
  | cons d ds ih =>
    have ih := ih (fun d hd => h d (by simp [hd]))
    have hw := h d (by simp)
    obtain ⟨deny, ops, net, text⟩ := d
    have hf := flags_covers ops op
    cases net with
    | all =>
      have hm : match6 p (List.replicate 16 0) (List.replicate 16 0) = true := by
        rw [match6_iff 16 p _ _ hp (by simp) (by simp)]
        intro k hk
        have e : (List.replicate 16 (0 : UInt8)).getD k 0 = 0 := by
          rw [List.getD_eq_getElem?_getD, List.getElem?_replicate]; split <;> rfl
        rw [e, UInt8.and_zero]
      simp only [rules6, inet6, admitted]
      rw [ih]
      apply glue
      simp only [Net.contains, hf, hm, and_true, true_and]
    | v6 n m =>
      have hmask : match6 p m n = true ↔ ∀ k, k < 16 → ∀ i,
          (m.getD k 0).toBitVec.getLsbD i = true →
          (p.getD k 0).toBitVec.getLsbD i = (n.getD k 0).toBitVec.getLsbD i := by
        rw [match6_iff 16 p m n hp hw.2.2.2.1 hw.2.2.1]
        constructor
        · intro hh k hk
          exact (and_eq_iff8 _ _ _ (hw.2.2.2.2 k hk)).mp (hh k hk)
        · intro hh k hk
          exact (and_eq_iff8 _ _ _ (hw.2.2.2.2 k hk)).mpr (hh k hk)
      simp only [rules6, inet6, admitted]
      rw [ih]
      apply glue
      simp only [Net.contains, hf, hmask]
      exact And.comm
    | v4 n m =>
      simp only [rules6, admitted, Net.contains]
      rw [ih]
      simp

/-! ### Property theorems -/

/-- The configuration an application ends up with: `main` merged into `srv` merged into `app`
(nginx's configuration merging order). -/
def effective (pt : String → Option Cidr) (main srv app : List (List String)) : Option Conf := do
  let m ← parseBlock pt createConf main
  let s ← parseBlock pt createConf srv
  let a ← parseBlock pt createConf app
  return mergeConf (mergeConf m s) a

theorem effective_spec (pt : String → Option Cidr) (main srv app : List Directive)
    (h : ∀ d ∈ app ++ srv ++ main, d.WellFormed pt) :
    effective pt (main.map Directive.args) (srv.map Directive.args) (app.map Directive.args) =
      some ⟨rules4 (app ++ srv ++ main), rules6 (app ++ srv ++ main)⟩ := by
  simp only [effective, createConf]
  rw [parseBlock_spec pt main _ (fun d hd => h d (by simp [hd])),
      parseBlock_spec pt srv _ (fun d hd => h d (by simp [hd])),
      parseBlock_spec pt app _ (fun d hd => h d (by simp [hd]))]
  simp [mergeConf, mergeRules_eq, rules4_append, rules6_append]

theorem addr4_beEnc (a : BitVec 32) : addr4 (beEnc 4 a.toNat) = a := by
  unfold addr4
  rw [beDec_beEnc_of_lt (by have := a.isLt; omega)]
  simp

/-- C28 (IPv4): an RTMP connection from an IPv4 peer may publish/play exactly as the first matching
directive says, inner scopes first. The session address is the truncated copy the code makes. -/
theorem C28_ipv4_first_match (pt : String → Option Cidr) (main srv app : List Directive)
    (h : ∀ d ∈ app ++ srv ++ main, d.WellFormed pt)
    (op : Op) (a : BitVec 32) (hdr pad : Bytes) (hh : hdr.length = 4) :
    ∃ conf, effective pt (main.map Directive.args) (srv.map Directive.args) (app.map Directive.args) = some conf ∧
      answer conf (some (sessionSockaddr ((Peer.v4 a).sockaddr hdr pad))) op =
        if admitted (app ++ srv ++ main) op (.v4 a) then .ok else .error := by
  refine ⟨_, effective_spec pt main srv app h, ?_⟩
  rw [answer_eq]
  have hb : (((hdr ++ beEnc 4 a.toNat ++ pad).take 16).drop 4).take 4 = beEnc 4 a.toNat := by
    rw [List.drop_take, List.append_assoc, List.drop_append_of_le_length (by omega),
      List.drop_of_length_le (by omega), List.nil_append, List.take_take,
      List.take_append_of_le_length (by rw [beEnc_length]; omega)]
    exact List.take_of_length_le (by rw [beEnc_length]; omega)
  have : access ⟨rules4 (app ++ srv ++ main), rules6 (app ++ srv ++ main)⟩
      (some (sessionSockaddr ((Peer.v4 a).sockaddr hdr pad))) op.flag =
      inet (rules4 (app ++ srv ++ main)) a op.flag := by
    simp only [access, sessionSockaddr, Peer.sockaddr, hb, beEnc_length, addr4_beEnc, Nat.lt_irrefl,
      ↓reduceIte]
  rw [this]
  exact inet_spec pt _ op a h

/-- C28 (IPv4-mapped IPv6, full address available): judged by the IPv4 rules. -/
theorem C28_v4mapped_first_match_partial (pt : String → Option Cidr) (main srv app : List Directive)
    (h : ∀ d ∈ app ++ srv ++ main, d.WellFormed pt)
    (op : Op) (a : BitVec 32) (hdr pad : Bytes) (hh : hdr.length = 8) :
    ∃ conf, effective pt (main.map Directive.args) (srv.map Directive.args) (app.map Directive.args) = some conf ∧
      answer conf (some ⟨.inet6, hdr ++ ([0,0,0,0,0,0,0,0,0,0,0xff,0xff] ++ beEnc 4 a.toNat) ++ pad⟩) op =
        if admitted (app ++ srv ++ main) op (.v4 a) then .ok else .error := by
  refine ⟨_, effective_spec pt main srv app h, ?_⟩
  rw [answer_eq]
  generalize hq : ([0,0,0,0,0,0,0,0,0,0,0xff,0xff] ++ beEnc 4 a.toNat : Bytes) = q
  have hql : q.length = 16 := by rw [← hq]; simp [beEnc_length]
  have hb : ((hdr ++ q ++ pad).drop 8).take 16 = q := by
    rw [List.append_assoc, List.drop_append_of_le_length (by omega),
      List.drop_of_length_le (by omega), List.nil_append, List.take_append_of_le_length (by omega),
      List.take_of_length_le (by omega)]
  have hm : v4mapped q = true := by
    rw [← hq]; simp [v4mapped]
  have hd : q.drop 12 = beEnc 4 a.toNat := by rw [← hq]; simp
  have : access ⟨rules4 (app ++ srv ++ main), rules6 (app ++ srv ++ main)⟩
      (some ⟨.inet6, hdr ++ q ++ pad⟩) op.flag = inet (rules4 (app ++ srv ++ main)) a op.flag := by
    simp only [access, hb, hql, Nat.lt_irrefl, hm, hd, addr4_beEnc, ↓reduceIte]
  rw [this]
  exact inet_spec pt _ op a h

/-- C28 (IPv6, full address available): judged by the IPv6 rules. Missing for the full claim: real RTMP
sessions do not keep the full address, see `C28_ipv6_session_violation`. -/
theorem C28_ipv6_first_match_partial (pt : String → Option Cidr) (main srv app : List Directive)
    (h : ∀ d ∈ app ++ srv ++ main, d.WellFormed pt)
    (op : Op) (p : Bytes) (hp : p.length = 16) (hnm : v4mapped p = false)
    (hdr pad : Bytes) (hh : hdr.length = 8) :
    ∃ conf, effective pt (main.map Directive.args) (srv.map Directive.args) (app.map Directive.args) = some conf ∧
      answer conf (some ((Peer.v6 p).sockaddr hdr pad)) op =
        if admitted (app ++ srv ++ main) op (.v6 p) then .ok else .error := by
  refine ⟨_, effective_spec pt main srv app h, ?_⟩
  rw [answer_eq]
  have hb : ((hdr ++ p ++ pad).drop 8).take 16 = p := by
    rw [List.append_assoc, List.drop_append_of_le_length (by omega),
      List.drop_of_length_le (by omega), List.nil_append, List.take_append_of_le_length (by omega),
      List.take_of_length_le (by omega)]
  have : access ⟨rules4 (app ++ srv ++ main), rules6 (app ++ srv ++ main)⟩
      (some ((Peer.v6 p).sockaddr hdr pad)) op.flag = inet6 (rules6 (app ++ srv ++ main)) p op.flag := by
    simp only [access, Peer.sockaddr, hb, hp, Nat.lt_irrefl, hnm, ↓reduceIte, Bool.false_eq_true]
  rw [this]
  exact inet6_spec pt _ op p hp h

/-- C28 (violation): for every IPv6 peer and every rule set the RTMP session's copy of the address is too
short (16 bytes of a 28-byte structure) and evaluating the rules reads past it. -/
theorem C28_ipv6_session_violation (conf : Conf) (p hdr pad : Bytes) (hh : hdr.length = 8) (op : Op) :
    answer conf (some (sessionSockaddr ((Peer.v6 p).sockaddr hdr pad))) op = .ub := by
  rw [answer_eq]
  have hl : (((hdr ++ p ++ pad).take 16).drop 8).length < 16 := by
    simp only [List.length_take, List.length_drop, List.length_append]
    omega
  have hl2 : ((((hdr ++ p ++ pad).take 16).drop 8).take 16).length < 16 := by
    rw [List.length_take]; omega
  simp only [access, sessionSockaddr, Peer.sockaddr, hl2, ↓reduceIte]

/-- C28 (bypass, as coded): publishing over the inter-process socket is always admitted, and so is any
session without a recorded peer address (relay, but also HTTP-FLV players, which never record one). -/
theorem C28_bypass (conf : Conf) (sa : Option Sockaddr) (op : Op) :
    accessPublish conf true sa = .ok ∧ answer conf none op = .ok := by
  rw [answer_eq]
  simp [accessPublish, access]

/-- C28 (malformed): a directive with an unknown operation word or an unparsable network is a
configuration error. -/
theorem C28_bad_directive_rejected (pt : String → Option Cidr) (conf : Conf) (cmd op net : String) :
    (op ≠ "publish" → op ≠ "play" → accessRule pt conf [cmd, op, net] = none) ∧
    (net ≠ "all" → pt net = none → accessRule pt conf [cmd, net] = none ∧
      accessRule pt conf [cmd, op, net] = none) := by
  refine ⟨fun h1 h2 => by simp [accessRule, h1, h2], fun h1 h2 => ?_⟩
  simp [accessRule, h1, h2]

/-! ### Witnesses -/

def wpt : String → Option Cidr
  | "10.0.0.0/8" => some (.v4 0x0a000000 0xff000000)
  | "10.1.0.0/16" => some (.v4 0x0a010000 0xffff0000)
  | "fe80::/16" => some (.v6 ([0xfe, 0x80] ++ List.replicate 14 0) ([0xff, 0xff] ++ List.replicate 14 0))
  | _ => none

def wapp : List Directive :=
  [⟨false, .publish, .v4 0x0a010000 0xffff0000, "10.1.0.0/16"⟩, ⟨true, .both, .v4 0x0a000000 0xff000000, "10.0.0.0/8"⟩]
def wsrv : List Directive :=
  [⟨true, .play, .v6 ([0xfe, 0x80] ++ List.replicate 14 0) ([0xff, 0xff] ++ List.replicate 14 0), "fe80::/16"⟩]
def wmain : List Directive := [⟨true, .publish, .all, "all"⟩]

theorem witness_wf : ∀ d ∈ wapp ++ wsrv ++ wmain, d.WellFormed wpt := by
  intro d hd
  simp only [wapp, wsrv, wmain, List.cons_append, List.nil_append, List.mem_cons, List.not_mem_nil,
    or_false] at hd
  rcases hd with rfl | rfl | rfl | rfl
  · exact ⟨by decide, rfl, by decide⟩
  · exact ⟨by decide, rfl, by decide⟩
  · refine ⟨by decide, rfl, by decide, by decide, ?_⟩
    intro k hk
    have : ∀ k : Fin 16, (([0xfe, 0x80] ++ List.replicate 14 0 : List UInt8).getD k.val 0) &&&
      (([0xff, 0xff] ++ List.replicate 14 0 : List UInt8).getD k.val 0) =
      ([0xfe, 0x80] ++ List.replicate 14 0 : List UInt8).getD k.val 0 := by decide
    exact this ⟨k, hk⟩
  · rfl

example : (effective wpt (wmain.map Directive.args) (wsrv.map Directive.args) (wapp.map Directive.args)).map
    (fun c => (access c (some (sessionSockaddr ((Peer.v4 0x0a010203).sockaddr [2,0,7,0x8f] []))) Op.publish.flag,
               access c (some (sessionSockaddr ((Peer.v4 0x0a010203).sockaddr [2,0,7,0x8f] []))) Op.play.flag,
               access c (some (sessionSockaddr ((Peer.v4 0x0b000001).sockaddr [2,0,7,0x8f] []))) Op.publish.flag,
               access c (some (sessionSockaddr ((Peer.v4 0x0b000001).sockaddr [2,0,7,0x8f] []))) Op.play.flag))
    = some (.ok, .error, .error, .ok) := by decide +kernel

example := C28_ipv4_first_match wpt wmain wsrv wapp witness_wf .publish 0x0a010203 [2,0,7,0x8f] [] rfl
example := C28_ipv6_first_match_partial wpt wmain wsrv wapp witness_wf .play
  ([0xfe, 0x80] ++ List.replicate 13 0 ++ [1]) rfl (by decide) (List.replicate 8 0) [] rfl
example := C28_v4mapped_first_match_partial wpt wmain wsrv wapp witness_wf .play 0x0a010203 (List.replicate 8 0) [] rfl
example := C28_ipv6_session_violation createConf (List.replicate 16 1) (List.replicate 8 0) [0,0,0,0] rfl .play

end Verif.Access
