import Verif.Rtmp.HandshakeProps
/- C46: what the handshake reads from and writes to the connection; C35 for two connected peers. -/
namespace Verif.Handshake
open Verif

/-- Sessions reachable by calls the kernel can answer. -/
inductive Reach (e : Env) (s0 : St) : St → Prop where
  | start : Reach e s0 s0
  | step {s s' : St} {v : Ev} : Reach e s0 s → v.possible s = true → step e s v = some s' → Reach e s0 s'

/-- All the server writes for the client's packet `c1`. -/
def serverAll (e : Env) (c1 : Bytes) : Bytes := 3 :: serverHello e ++ serverAnswer e c1
/-- All the client writes for the server's packets. -/
def clientAll (e : Env) (s1 s2 : Bytes) : Bytes := 3 :: clientHello e ++ clientAnswer e s1 s2

theorem hello_length (e : Env) (hm : Mac32 e.mac) : (serverHello e).length = 1536 ∧ (clientHello e).length = 1536 :=
  ⟨sign_length _ hm _ _ (plain_length _ _ _ rfl), sign_length _ hm _ _ (plain_length _ _ _ rfl)⟩

theorem serverAnswer_length (e : Env) (hm : Mac32 e.mac) {c1 : Bytes} (h : c1.length = 1536) : (serverAnswer e c1).length = 1536 := by
  unfold serverAnswer
  split
  · exact h
  · exact respond_length _ hm _ _ (by simp)

theorem clientAnswer_length (e : Env) (hm : Mac32 e.mac) {s1 s2 : Bytes} (h : s2.length = 1536) : (clientAnswer e s1 s2).length = 1536 := by
  unfold clientAnswer
  split
  · exact h
  · exact respond_length _ hm _ _ h

theorem serverAll_length (e : Env) (hm : Mac32 e.mac) {c1 : Bytes} (h : c1.length = 1536) : (serverAll e c1).length = 3073 := by
  unfold serverAll
  rw [List.length_append, List.length_cons, (hello_length e hm).1, serverAnswer_length e hm h]

theorem clientAll_length (e : Env) (hm : Mac32 e.mac) {s1 s2 : Bytes} (h : s2.length = 1536) : (clientAll e s1 s2).length = 3073 := by
  unfold clientAll
  rw [List.length_append, List.length_cons, (hello_length e hm).2, clientAnswer_length e hm h]

/-- While bytes `d` have been received into the end of the buffer. -/
structure Filling (b : Buf) (d : Bytes) (n : Nat) : Prop where
  len : b.mem.length = 3073
  hn : n ≤ 3073
  room : d.length < n
  last : b.last = 3073 - n + d.length
  data : (b.mem.drop (3073 - n)).take d.length = d

def SrvInv (e : Env) (s : St) : Prop :=
  match s.stage with
  | .srvRecvChallenge => s.sent = [] ∧ s.h.old = false ∧ s.h.digest = none ∧ s.h.b.pos = 1536 ∧ Filling s.h.b s.taken 1537
  | .srvSendChallResp => ∃ c1, c1.length = 1536 ∧ s.taken = 3 :: c1 ∧ s.h.b.mem = serverAll e c1 ∧ s.h.b.last = 3073 ∧ s.h.b.pos < 3073 ∧
      s.sent = (serverAll e c1).take s.h.b.pos
  | .srvRecvResponse => ∃ c1 c2, c1.length = 1536 ∧ s.taken = 3 :: c1 ++ c2 ∧ s.sent = serverAll e c1 ∧ Filling s.h.b c2 1536
  | .srvDone => ∃ c1 c2, c1.length = 1536 ∧ c2.length = 1536 ∧ s.taken = 3 :: c1 ++ c2 ∧ s.sent = serverAll e c1
  | .closed => ∃ v c1, v ≠ 3 ∧ c1.length = 1536 ∧ s.taken = v :: c1 ∧ s.sent = []
  | _ => False

def CliInv (e : Env) (s : St) : Prop :=
  match s.stage with
  | .cliSendChallenge => s.taken = [] ∧ s.h.old = false ∧ s.h.digest = none ∧ s.h.b.mem.length = 3073 ∧ s.h.b.mem.take 1537 = 3 :: clientHello e ∧
      s.h.b.last = 1537 ∧ s.h.b.pos < 1537 ∧ s.sent = (3 :: clientHello e).take s.h.b.pos
  | .cliRecvChallenge => s.sent = 3 :: clientHello e ∧ s.h.old = false ∧ s.h.digest = none ∧ s.h.b.pos = 1536 ∧ Filling s.h.b s.taken 1537
  | .cliRecvResponse => ∃ s1 s2, s1.length = 1536 ∧ s.taken = 3 :: s1 ++ s2 ∧ s.sent = 3 :: clientHello e ∧ s.h.b.pos = 1537 ∧
      s.h.digest = respKey e.mac serverPartial clientKey s1 ∧ Filling s.h.b s2 1536
  | .cliSendResponse => ∃ s1 s2, s1.length = 1536 ∧ s2.length = 1536 ∧ s.taken = 3 :: s1 ++ s2 ∧ s.h.b.mem.length = 3073 ∧
      s.h.b.mem.drop 1537 = clientAnswer e s1 s2 ∧ s.h.b.last = 3073 ∧ 1537 ≤ s.h.b.pos ∧ s.h.b.pos < 3073 ∧
      s.sent = (clientAll e s1 s2).take s.h.b.pos
  | .cliDone => ∃ s1 s2, s1.length = 1536 ∧ s2.length = 1536 ∧ s.taken = 3 :: s1 ++ s2 ∧ s.sent = clientAll e s1 s2
  | .closed => ∃ v s1, v ≠ 3 ∧ s1.length = 1536 ∧ s.taken = v :: s1 ∧ s.sent = 3 :: clientHello e
  | _ => False

/-- More bytes come in. -/
theorem Filling.more {b : Buf} {d x : Bytes} {n : Nat} (f : Filling b d n) (hx : x.length ≤ 3073 - b.last) :
    ∃ m, wr b.mem b.last x = some m ∧ m.length = 3073 ∧ (m.drop (3073 - n)).take (d ++ x).length = d ++ x ∧ m.take (3073 - n) = b.mem.take (3073 - n) ∧
      b.last + x.length = 3073 - n + (d ++ x).length ∧ (d ++ x).length ≤ n := by
  have hl := f.len
  have hn := f.hn
  have hr := f.room
  have hla := f.last
  have hA : (b.mem.take (3073 - n)).length = 3073 - n := by rw [List.length_take]; omega
  have hR : (b.mem.drop (3073 - n)).length = n := by rw [List.length_drop]; omega
  have hm : b.mem = b.mem.take (3073 - n) ++ b.mem.drop (3073 - n) ++ [] := by rw [List.append_nil, List.take_append_drop]
  have hw := wr_mid (b.mem.take (3073 - n)) (b.mem.drop (3073 - n)) [] x (i := d.length) (by omega)
  rw [← hm, hA, ← hla, f.data, List.append_nil] at hw
  refine ⟨_, hw, ?_, ?_, ?_, by rw [List.length_append]; omega, by rw [List.length_append]; omega⟩
  · simp only [List.length_append, List.length_drop, List.length_take]; omega
  · rw [List.drop_append, List.drop_of_length_le (by omega), hA, Nat.sub_self, List.drop_zero, List.nil_append,
      List.take_append_of_le_length (Nat.le_refl _), List.take_length]
  · rw [List.take_append_of_le_length (by omega), List.take_of_length_le (by omega)]

theorem recv_eq (e : Env) (s : St) (x m : Bytes) (h : wr s.h.b.mem s.h.b.last x = some m) :
    recv e s x = if s.h.b.last + x.length = bufSize then
      received e { s with h := { s.h with b := ⟨m, s.h.b.pos, s.h.b.last + x.length⟩ }, taken := s.taken ++ x }
    else some { s with h := { s.h with b := ⟨m, s.h.b.pos, s.h.b.last + x.length⟩ }, taken := s.taken ++ x } := by
  unfold recv
  rw [h]

theorem take_succ_append {l : Bytes} {p n : Nat} : l.take p ++ (l.drop p).take n = l.take (p + n) := by rw [List.take_add]

theorem split_cons {l : Bytes} {n : Nat} (h : l.length = n + 1) : ∃ v c, l = v :: c ∧ c.length = n := by
  cases l with
  | nil => cases h
  | cons v c => exact ⟨v, c, rfl, by simpa using h⟩

theorem srv_step {e : Env} (hm : Mac32 e.mac) {s : St} {v : Ev} (i : SrvInv e s) (hv : v.possible s = true) :
    ∃ s', step e s v = some s' ∧ SrvInv e s' := by
  unfold SrvInv at i
  cases hs : s.stage <;> rw [hs] at i <;> dsimp only at i <;> try (exact absurd i id)
  · -- srvRecvChallenge
    cases v with
    | send n => simp [Ev.possible, hs, Stage.sending] at hv
    | recv x =>
      simp only [Ev.possible, hs, Stage.receiving, Bool.true_and, decide_eq_true_eq] at hv
      obtain ⟨i1, i2, i3, i4, f⟩ := i
      obtain ⟨m, w1, w2, w3, w4, w5, w6⟩ := f.more (x := x) hv.2
      show ∃ s', recv e s x = some s' ∧ _
      rw [recv_eq e s x m w1]
      by_cases c : s.h.b.last + x.length = bufSize
      · rw [if_pos c]
        have hlen : (s.taken ++ x).length = 1537 := by rw [c] at w5; simp only [bufSize] at w5; omega
        rw [List.take_of_length_le (by rw [List.length_drop]; omega)] at w3
        obtain ⟨u, c1, hc, hc1⟩ := split_cons hlen
        have hA : (m.take 1536).length = 1536 := by rw [List.length_take]; omega
        have hmem : m = m.take 1536 ++ u :: c1 := by rw [← hc, ← w3, List.take_append_drop]
        unfold received
        rw [show ({ s with h := { s.h with b := ⟨m, s.h.b.pos, s.h.b.last + x.length⟩ }, taken := s.taken ++ x } : St).stage = .srvRecvChallenge from hs]
        dsimp only
        obtain ⟨p1, p2⟩ := parseChallenge_spec e.mac clientPartial serverKey (m.take 1536) c1 u
          { s.h with b := ⟨m, s.h.b.pos, s.h.b.last + x.length⟩ } (by
            dsimp only
            rw [← hmem, hA, i4, c, hc1]; rfl) hc1 i2 i3
        by_cases hu : u = 3
        · obtain ⟨b', q1, q2⟩ := p2 hu
          rw [q2]
          dsimp only
          rw [createChallenge_spec e.mac hm e.epoch e.rnd1 serverVersion serverPartial rfl b' (by rw [q1, ← hmem]; exact w2)]
          dsimp only
          have hd : b'.mem.drop chalSize = c1 := by
            rw [q1, List.drop_append, List.drop_of_length_le (by rw [hA]; decide), hA]
            rfl
          rw [hd]
          have hS : (3 :: sign e.mac serverPartial (plain e.epoch serverVersion e.rnd1)).length = 1537 := by
            rw [List.length_cons]; have := (hello_length e hm).1; unfold serverHello at this; rw [this]
          cases hk : respKey e.mac clientPartial serverKey c1 with
          | none =>
            rw [show (none : Option Bytes).isNone = true from rfl, if_pos rfl]
            refine ⟨_, rfl, c1, hc1, by dsimp only; rw [hc, hu], ?_, rfl, Nat.zero_lt_succ _, i1⟩
            show _ = serverAll e c1
            unfold serverAll serverAnswer
            rw [hk]; rfl
          | some k =>
            rw [show (some k).isNone = false from rfl, if_neg (by simp),
              createResponse_server e.mac hm e.rnd2 _ _ k false _ hS hc1]
            refine ⟨_, rfl, c1, hc1, by dsimp only; rw [hc, hu], ?_, rfl, Nat.zero_lt_succ _, i1⟩
            show _ = serverAll e c1
            unfold serverAll serverAnswer
            rw [hk]; rfl
        · rw [p1 hu]
          exact ⟨_, rfl, u, c1, hu, hc1, hc, i1⟩
      · rw [if_neg c]
        refine ⟨_, rfl, ?_⟩
        unfold SrvInv
        dsimp only
        rw [hs]
        refine ⟨i1, i2, i3, i4, ⟨w2, by decide, ?_, w5, w3⟩⟩
        simp only [bufSize] at c
        omega
  · -- srvSendChallResp
    cases v with
    | recv x => simp [Ev.possible, hs, Stage.receiving] at hv
    | send n =>
      simp only [Ev.possible, hs, Stage.sending, Bool.true_and, decide_eq_true_eq] at hv
      obtain ⟨c1, i1, i2, i3, i4, i5, i6⟩ := i
      have hlen := serverAll_length e hm i1
      show ∃ s', send s n = some s' ∧ _
      unfold send rd
      rw [if_pos (by rw [i3]; omega)]
      dsimp only
      by_cases c : s.h.b.pos + n = s.h.b.last
      · rw [if_pos c]
        refine ⟨_, rfl, ?_⟩
        unfold flushed
        dsimp only
        rw [hs]
        refine ⟨c1, [], i1, by dsimp only; rw [i2, List.append_nil], ?_, ⟨by dsimp only; rw [i3]; exact hlen, by decide, by decide, rfl, rfl⟩⟩
        dsimp only
        rw [i6, i3, take_succ_append, c, i4, ← hlen, List.take_length]
      · rw [if_neg c]
        refine ⟨_, rfl, ?_⟩
        unfold SrvInv
        dsimp only
        rw [hs]
        refine ⟨c1, i1, i2, i3, i4, by omega, ?_⟩
        rw [i6, i3, take_succ_append]
  · -- srvRecvResponse
    cases v with
    | send n => simp [Ev.possible, hs, Stage.sending] at hv
    | recv x =>
      simp only [Ev.possible, hs, Stage.receiving, Bool.true_and, decide_eq_true_eq] at hv
      obtain ⟨c1, c2, i1, i2, i3, f⟩ := i
      obtain ⟨m, w1, w2, w3, w4, w5, w6⟩ := f.more (x := x) hv.2
      show ∃ s', recv e s x = some s' ∧ _
      rw [recv_eq e s x m w1]
      by_cases c : s.h.b.last + x.length = bufSize
      · rw [if_pos c]
        have hlen : (c2 ++ x).length = 1536 := by rw [c] at w5; simp only [bufSize] at w5; omega
        unfold received
        rw [show ({ s with h := { s.h with b := ⟨m, s.h.b.pos, s.h.b.last + x.length⟩ }, taken := s.taken ++ x } : St).stage = .srvRecvResponse from hs]
        exact ⟨_, rfl, c1, c2 ++ x, i1, hlen, by dsimp only; rw [i2, List.append_assoc], i3⟩
      · rw [if_neg c]
        refine ⟨_, rfl, ?_⟩
        unfold SrvInv
        dsimp only
        rw [hs]
        refine ⟨c1, c2 ++ x, i1, by rw [i2, List.append_assoc], i3, ⟨w2, by decide, ?_, w5, w3⟩⟩
        simp only [bufSize] at c
        omega
  · cases v <;> simp [Ev.possible, hs, Stage.sending, Stage.receiving] at hv
  · cases v <;> simp [Ev.possible, hs, Stage.sending, Stage.receiving] at hv

theorem cli_step {e : Env} (hm : Mac32 e.mac) {s : St} {v : Ev} (i : CliInv e s) (hv : v.possible s = true) :
    ∃ s', step e s v = some s' ∧ CliInv e s' := by
  have hH := (hello_length e hm).2
  unfold CliInv at i
  cases hs : s.stage <;> rw [hs] at i <;> dsimp only at i <;> try (exact absurd i id)
  · -- cliSendChallenge
    cases v with
    | recv x => simp [Ev.possible, hs, Stage.receiving] at hv
    | send n =>
      simp only [Ev.possible, hs, Stage.sending, Bool.true_and, decide_eq_true_eq] at hv
      obtain ⟨i1, i2, i3, i4, i5, i6, i7, i8⟩ := i
      have hlen : (3 :: clientHello e).length = 1537 := by rw [List.length_cons, hH]
      show ∃ s', send s n = some s' ∧ _
      unfold send rd
      rw [if_pos (by omega)]
      dsimp only
      have hd : (s.h.b.mem.drop s.h.b.pos).take n = ((3 :: clientHello e).drop s.h.b.pos).take n := by
        rw [← i5, List.drop_take, List.take_take, Nat.min_eq_left (by omega)]
      by_cases c : s.h.b.pos + n = s.h.b.last
      · rw [if_pos c]
        refine ⟨_, rfl, ?_⟩
        unfold flushed
        dsimp only
        rw [hs]
        refine ⟨?_, i2, i3, rfl, ⟨i4, by decide, by dsimp only; rw [i1]; decide, by dsimp only; rw [i1]; rfl, by dsimp only; rw [i1]; rfl⟩⟩
        dsimp only
        rw [i8, hd, take_succ_append, c, i6, ← hlen, List.take_length]
      · rw [if_neg c]
        refine ⟨_, rfl, ?_⟩
        unfold CliInv
        dsimp only
        rw [hs]
        refine ⟨i1, i2, i3, i4, i5, i6, by omega, ?_⟩
        rw [i8, hd, take_succ_append]
  · -- cliRecvChallenge
    cases v with
    | send n => simp [Ev.possible, hs, Stage.sending] at hv
    | recv x =>
      simp only [Ev.possible, hs, Stage.receiving, Bool.true_and, decide_eq_true_eq] at hv
      obtain ⟨i1, i2, i3, i4, f⟩ := i
      obtain ⟨m, w1, w2, w3, w4, w5, w6⟩ := f.more (x := x) hv.2
      show ∃ s', recv e s x = some s' ∧ _
      rw [recv_eq e s x m w1]
      by_cases c : s.h.b.last + x.length = bufSize
      · rw [if_pos c]
        have hlen : (s.taken ++ x).length = 1537 := by rw [c] at w5; simp only [bufSize] at w5; omega
        rw [List.take_of_length_le (by rw [List.length_drop]; omega)] at w3
        obtain ⟨u, c1, hc, hc1⟩ := split_cons hlen
        have hA : (m.take 1536).length = 1536 := by rw [List.length_take]; omega
        have hmem : m = m.take 1536 ++ u :: c1 := by rw [← hc, ← w3, List.take_append_drop]
        unfold received
        rw [show ({ s with h := { s.h with b := ⟨m, s.h.b.pos, s.h.b.last + x.length⟩ }, taken := s.taken ++ x } : St).stage = .cliRecvChallenge from hs]
        dsimp only
        obtain ⟨p1, p2⟩ := parseChallenge_spec e.mac serverPartial clientKey (m.take 1536) c1 u
          { s.h with b := ⟨m, s.h.b.pos, s.h.b.last + x.length⟩ } (by
            dsimp only
            rw [← hmem, hA, i4, c, hc1]; rfl) hc1 i2 i3
        by_cases hu : u = 3
        · obtain ⟨b', q1, q2⟩ := p2 hu
          rw [q2]
          refine ⟨_, rfl, c1, [], hc1, by dsimp only; rw [hc, hu, List.append_nil], i1, rfl, rfl,
            ⟨by dsimp only; rw [q1, ← hmem]; exact w2, by decide, by decide, rfl, rfl⟩⟩
        · rw [p1 hu]
          exact ⟨_, rfl, u, c1, hu, hc1, hc, i1⟩
      · rw [if_neg c]
        refine ⟨_, rfl, ?_⟩
        unfold CliInv
        dsimp only
        rw [hs]
        refine ⟨i1, i2, i3, i4, ⟨w2, by decide, ?_, w5, w3⟩⟩
        simp only [bufSize] at c
        omega
  · -- cliRecvResponse
    cases v with
    | send n => simp [Ev.possible, hs, Stage.sending] at hv
    | recv x =>
      simp only [Ev.possible, hs, Stage.receiving, Bool.true_and, decide_eq_true_eq] at hv
      obtain ⟨s1, s2, i1, i2, i3, i4, i5, f⟩ := i
      obtain ⟨m, w1, w2, w3, w4, w5, w6⟩ := f.more (x := x) hv.2
      show ∃ s', recv e s x = some s' ∧ _
      rw [recv_eq e s x m w1]
      by_cases c : s.h.b.last + x.length = bufSize
      · rw [if_pos c]
        have hlen : (s2 ++ x).length = 1536 := by rw [c] at w5; simp only [bufSize] at w5; omega
        rw [List.take_of_length_le (by rw [List.length_drop]; omega)] at w3
        have hA : (m.take 1537).length = 1537 := by rw [List.length_take]; omega
        have hmem : m = m.take 1537 ++ (s2 ++ x) := by rw [← w3, List.take_append_drop]
        unfold received
        rw [show ({ s with h := { s.h with b := ⟨m, s.h.b.pos, s.h.b.last + x.length⟩ }, taken := s.taken ++ x } : St).stage = .cliRecvResponse from hs]
        dsimp only
        have hr := createResponse_client e.mac hm e.rnd2 (m.take 1537) (s2 ++ x) s.h.old s.h.digest s.h.peerEpoch hA hlen
        rw [← hmem] at hr
        have he : ({ s.h with b := ⟨m, s.h.b.pos, s.h.b.last + x.length⟩ } : Hs) = ⟨⟨m, chalSize, bufSize⟩, s.h.old, s.h.digest, s.h.peerEpoch⟩ := by
          rw [i4, c]; rfl
        rw [he, hr]
        have hans : s.h.digest.elim (s2 ++ x) (fun k => respond e.mac k (s2 ++ x)) = clientAnswer e s1 (s2 ++ x) := by
          unfold clientAnswer; rw [i5]; cases respKey e.mac serverPartial clientKey s1 <;> rfl
        rw [hans]
        have hal := clientAnswer_length e hm (s1 := s1) hlen
        refine ⟨_, rfl, s1, s2 ++ x, i1, hlen, by dsimp only; rw [i2, List.append_assoc], ?_, ?_, rfl, Nat.le_refl _, (show (1537 : Nat) < 3073 by decide), ?_⟩
        · dsimp only; rw [List.length_append, hA, hal]
        · dsimp only; rw [List.drop_append, List.drop_of_length_le (by omega), hA, Nat.sub_self, List.drop_zero, List.nil_append]
        · dsimp only
          rw [i3]
          unfold clientAll
          rw [List.take_append_of_le_length (by rw [List.length_cons, hH]; decide), List.take_of_length_le (by rw [List.length_cons, hH]; decide)]
      · rw [if_neg c]
        refine ⟨_, rfl, ?_⟩
        unfold CliInv
        dsimp only
        rw [hs]
        refine ⟨s1, s2 ++ x, i1, by rw [i2, List.append_assoc], i3, i4, i5, ⟨w2, by decide, ?_, w5, w3⟩⟩
        simp only [bufSize] at c
        omega
  · -- cliSendResponse
    cases v with
    | recv x => simp [Ev.possible, hs, Stage.receiving] at hv
    | send n =>
      simp only [Ev.possible, hs, Stage.sending, Bool.true_and, decide_eq_true_eq] at hv
      obtain ⟨s1, s2, i1, i2, i3, i4, i5, i6, i7, i8, i9⟩ := i
      have hlen := clientAll_length e hm (s1 := s1) i2
      have hd : s.h.b.mem.drop s.h.b.pos = (clientAll e s1 s2).drop s.h.b.pos := by
        have e1 : s.h.b.mem.drop s.h.b.pos = (s.h.b.mem.drop 1537).drop (s.h.b.pos - 1537) := by
          rw [List.drop_drop, show 1537 + (s.h.b.pos - 1537) = s.h.b.pos by omega]
        rw [e1, i5]
        unfold clientAll
        rw [List.drop_append, List.drop_of_length_le (l := 3 :: clientHello e) (by rw [List.length_cons, hH]; omega), List.nil_append, List.length_cons, hH]
      show ∃ s', send s n = some s' ∧ _
      unfold send rd
      rw [if_pos (by omega)]
      dsimp only
      by_cases c : s.h.b.pos + n = s.h.b.last
      · rw [if_pos c]
        refine ⟨_, rfl, ?_⟩
        unfold flushed
        dsimp only
        rw [hs]
        refine ⟨s1, s2, i1, i2, i3, ?_⟩
        dsimp only
        rw [i9, hd, take_succ_append, c, i6, ← hlen, List.take_length]
      · rw [if_neg c]
        refine ⟨_, rfl, ?_⟩
        unfold CliInv
        dsimp only
        rw [hs]
        refine ⟨s1, s2, i1, i2, i3, i4, i5, i6, by omega, by omega, ?_⟩
        rw [i9, hd, take_succ_append]
  · cases v <;> simp [Ev.possible, hs, Stage.sending, Stage.receiving] at hv
  · cases v <;> simp [Ev.possible, hs, Stage.sending, Stage.receiving] at hv

theorem srv_reach {e : Env} (hm : Mac32 e.mac) {mem : Bytes} (hl : mem.length = 3073) {s : St} (r : Reach e (startServer mem) s) : SrvInv e s := by
  induction r with
  | start => exact ⟨rfl, rfl, rfl, rfl, ⟨hl, by decide, Nat.zero_lt_succ _, rfl, rfl⟩⟩
  | step _ h1 h2 ih =>
    obtain ⟨s', h3, h4⟩ := srv_step hm ih h1
    rw [h2] at h3; cases h3; exact h4

theorem cli_start {e : Env} (hm : Mac32 e.mac) {mem : Bytes} (hl : mem.length = 3073) : ∃ s, startClient e mem = some s ∧ CliInv e s := by
  unfold startClient
  rw [createChallenge_spec e.mac hm e.epoch e.rnd1 clientVersion clientPartial rfl ⟨mem, 0, 0⟩ hl]
  have hH := (hello_length e hm).2
  have hlen : (3 :: clientHello e).length = 1537 := by rw [List.length_cons, hH]
  refine ⟨_, rfl, rfl, rfl, rfl, ?_, ?_, rfl, Nat.zero_lt_succ _, rfl⟩
  · dsimp only
    have : (3 :: clientHello e ++ mem.drop chalSize).length = 3073 := by rw [List.length_append, hlen, List.length_drop, hl]; decide
    exact this
  · show (3 :: clientHello e ++ mem.drop chalSize).take 1537 = _
    rw [List.take_append_of_le_length (by omega), List.take_of_length_le (by omega)]

theorem cli_reach {e : Env} (hm : Mac32 e.mac) {mem : Bytes} (hl : mem.length = 3073) {s0 s : St} (h0 : startClient e mem = some s0)
    (r : Reach e s0 s) : CliInv e s := by
  induction r with
  | start =>
    obtain ⟨s, h1, h2⟩ := cli_start hm hl
    rw [h0] at h1; cases h1; exact h2
  | step _ h1 h2 ih =>
    obtain ⟨s', h3, h4⟩ := cli_step hm ih h1
    rw [h2] at h3; cases h3; exact h4

/-- **C46** (server). However the connection cuts up what is read and written, whatever the buffer held before, for every hash function and random
fill: no access leaves the buffer; the server never takes more than 3073 bytes; what it has written at any moment is the beginning of one answer that
depends only on the client's first packet; and when the handshake is done it has taken exactly 3073 bytes and written all of that answer. -/
theorem C46_server (e : Env) (hm : Mac32 e.mac) (mem : Bytes) (hl : mem.length = 3073) (s : St) (r : Reach e (startServer mem) s) :
    (∀ v : Ev, v.possible s = true → (step e s v).isSome = true) ∧
    s.taken.length ≤ 3073 ∧
    (s.sent = [] ∨ ∃ c1 c2, c1.length = 1536 ∧ s.taken = 3 :: c1 ++ c2 ∧ s.sent <+: 3 :: serverHello e ++ serverAnswer e c1) ∧
    (s.stage = .srvDone → ∃ c1 c2, c1.length = 1536 ∧ c2.length = 1536 ∧ s.taken = 3 :: c1 ++ c2 ∧ s.sent = 3 :: serverHello e ++ serverAnswer e c1) := by
  have i := srv_reach hm hl r
  refine ⟨fun v hv => ?_, ?_⟩
  · obtain ⟨s', h, _⟩ := srv_step hm i hv
    rw [h]; rfl
  unfold SrvInv at i
  cases hs : s.stage <;> rw [hs] at i <;> dsimp only at i <;> try (exact absurd i id)
  · obtain ⟨i1, _, _, _, f⟩ := i
    exact ⟨by have := f.room; omega, .inl i1, fun h => by cases h⟩
  · obtain ⟨c1, i1, i2, i3, i4, i5, i6⟩ := i
    exact ⟨by rw [i2, List.length_cons]; omega, .inr ⟨c1, [], i1, by rw [i2, List.append_nil], by rw [i6]; exact List.take_prefix _ _⟩, fun h => by cases h⟩
  · obtain ⟨c1, c2, i1, i2, i3, f⟩ := i
    exact ⟨by rw [i2, List.length_append, List.length_cons]; have := f.room; omega, .inr ⟨c1, c2, i1, i2, by rw [i3]; exact List.prefix_rfl⟩, fun h => by cases h⟩
  · obtain ⟨c1, c2, i1, i2, i3, i4⟩ := i
    exact ⟨by rw [i3, List.length_append, List.length_cons]; omega, .inr ⟨c1, c2, i1, i3, by rw [i4]; exact List.prefix_rfl⟩, fun _ => ⟨c1, c2, i1, i2, i3, i4⟩⟩
  · obtain ⟨v, c1, i1, i2, i3, i4⟩ := i
    exact ⟨by rw [i3, List.length_cons]; omega, .inl i4, fun h => by cases h⟩

/-- **C46** (client). The same for the client side: it first writes its own 1537 bytes, takes exactly 3073 bytes, and answers with the server's second
packet, with the digest in the last 32 bytes when the server's first packet carries one. -/
theorem C46_client (e : Env) (hm : Mac32 e.mac) (mem : Bytes) (hl : mem.length = 3073) :
    ∃ s0, startClient e mem = some s0 ∧ ∀ s, Reach e s0 s →
    (∀ v : Ev, v.possible s = true → (step e s v).isSome = true) ∧
    s.taken.length ≤ 3073 ∧
    (s.sent <+: 3 :: clientHello e ∨ ∃ s1 s2, s1.length = 1536 ∧ s2.length = 1536 ∧ s.taken = 3 :: s1 ++ s2 ∧ s.sent <+: 3 :: clientHello e ++ clientAnswer e s1 s2) ∧
    (s.stage = .cliDone → ∃ s1 s2, s1.length = 1536 ∧ s2.length = 1536 ∧ s.taken = 3 :: s1 ++ s2 ∧ s.sent = 3 :: clientHello e ++ clientAnswer e s1 s2) := by
  obtain ⟨s0, h0, _⟩ := cli_start hm hl
  refine ⟨s0, h0, fun s r => ?_⟩
  have i := cli_reach hm hl h0 r
  refine ⟨fun v hv => ?_, ?_⟩
  · obtain ⟨s', h, _⟩ := cli_step hm i hv
    rw [h]; rfl
  unfold CliInv at i
  cases hs : s.stage <;> rw [hs] at i <;> dsimp only at i <;> try (exact absurd i id)
  · obtain ⟨i1, i2, i3, i4, i5, i6, i7, i8⟩ := i
    exact ⟨by rw [i1]; decide, .inl (by rw [i8]; exact List.take_prefix _ _), fun h => by cases h⟩
  · obtain ⟨i1, _, _, _, f⟩ := i
    exact ⟨by have := f.room; omega, .inl (by rw [i1]; exact List.prefix_rfl), fun h => by cases h⟩
  · obtain ⟨s1, s2, i1, i2, i3, i4, i5, f⟩ := i
    exact ⟨by rw [i2, List.length_append, List.length_cons]; have := f.room; omega, .inl (by rw [i3]; exact List.prefix_rfl), fun h => by cases h⟩
  · obtain ⟨s1, s2, i1, i2, i3, i4, i5, i6, i7, i8, i9⟩ := i
    exact ⟨by rw [i3, List.length_append, List.length_cons]; omega, .inr ⟨s1, s2, i1, i2, i3, by rw [i9]; exact List.take_prefix _ _⟩, fun h => by cases h⟩
  · obtain ⟨s1, s2, i1, i2, i3, i4⟩ := i
    exact ⟨by rw [i3, List.length_append, List.length_cons]; omega, .inr ⟨s1, s2, i1, i2, i3, by rw [i4]; exact List.prefix_rfl⟩, fun _ => ⟨s1, s2, i1, i2, i3, i4⟩⟩
  · obtain ⟨v, c1, i1, i2, i3, i4⟩ := i
    exact ⟨by rw [i3, List.length_cons]; omega, .inl (by rw [i4]; exact List.prefix_rfl), fun h => by cases h⟩

/-- **C46** (never stuck). As long as the handshake is neither done nor refused, there is something for the kernel to do. -/
theorem C46_live (e : Env) (hm : Mac32 e.mac) (mem : Bytes) (hl : mem.length = 3073) (s : St) :
    (Reach e (startServer mem) s → s.stage = .srvDone ∨ s.stage = .closed ∨ ∃ v : Ev, v.possible s = true) ∧
    (∀ s0, startClient e mem = some s0 → Reach e s0 s → s.stage = .cliDone ∨ s.stage = .closed ∨ ∃ v : Ev, v.possible s = true) := by
  constructor
  · intro r
    have i := srv_reach hm hl r
    unfold SrvInv at i
    cases hs : s.stage <;> rw [hs] at i <;> dsimp only at i <;> try (exact absurd i id)
    · obtain ⟨_, _, _, _, f⟩ := i
      have h1 := f.last
      have h2 := f.room
      exact .inr (.inr ⟨.recv [0], by simp [Ev.possible, hs, Stage.receiving, bufSize]; omega⟩)
    · obtain ⟨c1, i1, i2, i3, i4, i5, i6⟩ := i
      exact .inr (.inr ⟨.send 1, by simp [Ev.possible, hs, Stage.sending]; omega⟩)
    · obtain ⟨_, _, _, _, _, f⟩ := i
      have h1 := f.last
      have h2 := f.room
      exact .inr (.inr ⟨.recv [0], by simp [Ev.possible, hs, Stage.receiving, bufSize]; omega⟩)
    · exact .inl rfl
    · exact .inr (.inl rfl)
  · intro s0 h0 r
    have i := cli_reach hm hl h0 r
    unfold CliInv at i
    cases hs : s.stage <;> rw [hs] at i <;> dsimp only at i <;> try (exact absurd i id)
    · obtain ⟨i1, i2, i3, i4, i5, i6, i7, i8⟩ := i
      exact .inr (.inr ⟨.send 1, by simp [Ev.possible, hs, Stage.sending]; omega⟩)
    · obtain ⟨_, _, _, _, f⟩ := i
      have h1 := f.last
      have h2 := f.room
      exact .inr (.inr ⟨.recv [0], by simp [Ev.possible, hs, Stage.receiving, bufSize]; omega⟩)
    · obtain ⟨_, _, _, _, _, _, _, f⟩ := i
      have h1 := f.last
      have h2 := f.room
      exact .inr (.inr ⟨.recv [0], by simp [Ev.possible, hs, Stage.receiving, bufSize]; omega⟩)
    · obtain ⟨s1, s2, i1, i2, i3, i4, i5, i6, i7, i8, i9⟩ := i
      exact .inr (.inr ⟨.send 1, by simp [Ev.possible, hs, Stage.sending]; omega⟩)
    · exact .inl rfl
    · exact .inr (.inl rfl)

theorem cons_append_inj {a b c d : Bytes} {x : UInt8} (h : x :: a ++ b = x :: c ++ d) (hl : a.length = c.length) : a = c ∧ b = d := by
  simp only [List.cons_append, List.cons.injEq, true_and] at h
  exact List.append_inj h hl

/-- **C35** (two peers). Connect a client and a server of this implementation: each has read what the other has written, and both are done. Then each
has recognised a digest in the other's first packet, and the second packet it got carries the digest of its contents under the key made from the digest it
sent itself - whatever the random bytes, the epochs, and the way the connection cut the bytes up. (`o` is the digest's place: the one written
to, unless the second place happens to hold a right digest too.) -/
theorem C35_exchange (ec es : Env) (hmac : ec.mac = es.mac) (hm : Mac32 es.mac) (mc ms : Bytes) (hc : mc.length = 3073) (hs : ms.length = 3073)
    (c0 c s : St) (h0 : startClient ec mc = some c0) (rc : Reach ec c0 c) (rs : Reach es (startServer ms) s)
    (dc : c.stage = .cliDone) (ds : s.stage = .srvDone) (h1 : s.taken = c.sent) (h2 : c.taken = s.sent) :
    ∃ c1 c2 s1 s2, c.sent = 3 :: c1 ++ c2 ∧ s.sent = 3 :: s1 ++ s2 ∧ c1 = clientHello ec ∧ s1 = serverHello es ∧
      (∃ o, Verifies es.mac (es.mac serverKey (digestAt c1 o)) s2 ∧ (¬ Signed es.mac clientPartial c1 772 → o = digPos c1 8)) ∧
      (∃ o, Verifies es.mac (es.mac clientKey (digestAt s1 o)) c2 ∧ (¬ Signed es.mac serverPartial s1 772 → o = digPos s1 8)) := by
  have hmc : Mac32 ec.mac := by rw [hmac]; exact hm
  obtain ⟨c1, c2, a1, a2, a3, a4⟩ := (C46_server es hm ms hs s rs).2.2.2 ds
  obtain ⟨s0, b0, b⟩ := C46_client ec hmc mc hc
  rw [h0] at b0; cases b0
  obtain ⟨s1, s2, b1, b2, b3, b4⟩ := (b c rc).2.2.2 dc
  have e1 := cons_append_inj (a3.symm.trans (h1.trans b4)) (by rw [a1, (hello_length ec hmc).2])
  have e2 := cons_append_inj (b3.symm.trans (h2.trans a4)) (by rw [b1, (hello_length es hm).1])
  obtain ⟨e11, e12⟩ := e1
  obtain ⟨e21, e22⟩ := e2
  refine ⟨c1, c2, s1, s2, by rw [b4, e11, e12], by rw [a4, e21, e22], e11, e21, ?_, ?_⟩
  · obtain ⟨o, k1, k2⟩ := (C35_recognised ec hmc).1
    rw [hmac, ← e11] at k1 k2
    refine ⟨o, ?_, k2⟩
    rw [e22]
    unfold serverAnswer
    rw [k1]
    exact respond_verifies _ _ _ (by rw [List.length_map, List.length_range])
  · obtain ⟨o, k1, k2⟩ := (C35_recognised es hm).2
    rw [← e21] at k1 k2
    refine ⟨o, ?_, k2⟩
    rw [e12]
    unfold clientAnswer
    rw [hmac, k1]
    exact respond_verifies _ _ _ b2

/-! ### Example: a complete exchange, with a stand-in for the hash -/

def runEvs (e : Env) : St → List Ev → Option St
  | s, [] => some s
  | s, v :: vs => if v.possible s then (step e s v).bind fun s' => runEvs e s' vs else none

theorem reach_runEvs {e : Env} {s0 : St} : ∀ {vs : List Ev} {s s' : St}, Reach e s0 s → runEvs e s vs = some s' → Reach e s0 s'
  | [], _, _, r, h => by cases h; exact r
  | v :: vs, s, s', r, h => by
    unfold runEvs at h
    split at h
    · rename_i hp
      cases hs : step e s v with
      | none => rw [hs] at h; cases h
      | some s1 => rw [hs] at h; exact reach_runEvs (r.step hp hs) h
    · cases h

private def mac0 : Mac := fun k m => (List.range 32).map fun i => UInt8.ofNat (k.length + (m.take 40).foldl (fun a x => a + x.toNat) i)
private def ec : Env := ⟨mac0, 77, fun i => UInt8.ofNat (i * 7), fun i => UInt8.ofNat (i * 3)⟩
private def es : Env := ⟨mac0, 99, fun i => UInt8.ofNat (i * 11), fun i => UInt8.ofNat (i * 5)⟩

private def talk : Option (St × St) := do
  let c0 ← startClient ec (List.replicate 3073 0)
  let c ← runEvs ec c0 [.send 1000, .send 537]
  let s ← runEvs es (startServer (List.replicate 3073 1)) [.recv (c.sent.take 1), .recv ((c.sent.drop 1).take 1500), .recv (c.sent.drop 1501), .send 3000, .send 73]
  let c ← runEvs ec c [.recv (s.sent.take 1536), .recv ((s.sent.drop 1536).take 1), .recv (s.sent.drop 1537), .send 1536]
  let s ← runEvs es s [.recv (c.sent.drop 1537)]
  return (c, s)

/-- Both get done, the bytes agree. -/
example : talk.any (fun r => r.1.stage == .cliDone && r.2.stage == .srvDone && r.1.taken == r.2.sent && r.2.taken == r.1.sent && !r.1.h.old && !r.2.h.old) = true := by
  decide +kernel
example : Mac32 mac0 := fun k m => by simp [mac0]

end Verif.Handshake
