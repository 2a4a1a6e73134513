import Verif.Proxy.Lemmas
import Verif.Rtmp.AccessProps
/-
C82: the PROXY protocol. Who a client behind a proxy is, is what the line in front of its bytes says; exactly the line is taken, and nothing outside of the buffer is read. What does not hold: the word
PROXY is not looked at, and access rules, logs and statistics go by the address of the proxy.
-/
namespace Verif.Proxy

open Verif.Access (Sockaddr sessionSockaddr answer Conf Op)

/-- What becomes of a connection by bytes that have arrived -/
theorem recv_data (core : Core) (s : Sess) (hs : s.phase = .proxy) (d : Bytes) (g : Nat → UInt8) :
    recv core s (.data d g) =
      match pureParse core.conv (d.take 107) with
      | none => { s with phase := .finalized }
      | some (none, n) => { s with phase := .handshake (d.drop n) }
      | some (some a, n) => if core.ntop a = [] then { s with phase := .finalized } else { s with conn := a, connText := core.ntop a, phase := .handshake (d.drop n) } := by
  have hl : (d.take 107 ++ (List.range (107 - (d.take 107).length)).map g).length = 107 := by
    simp only [List.length_append, List.length_map, List.length_range, List.length_take]
    omega
  have := parse_eq core _ _ hl
  unfold recv
  simp only [hs, peek, this]
  cases pureParse core.conv (d.take 107) with
  | none => rfl
  | some z => obtain ⟨a, n⟩ := z; cases a <;> rfl

theorem run_again (core : Core) (s : Sess) (hs : s.phase = .proxy) (k : Nat) (l : List Ev) : run core s (List.replicate k .again ++ l) = run core s l := by
  induction k with
  | zero => rfl
  | succ k ih =>
    have : recv core s .again = s := by simp [recv, hs]
    rw [List.replicate_succ, List.cons_append]
    show run core (recv core s .again) _ = _
    rw [this, ih]

theorem recv_done (core : Core) (s : Sess) (hs : s.phase ≠ .proxy) (ev : Ev) : recv core s ev = s := by
  unfold recv
  cases h : s.phase <;> simp_all

theorem run_done (core : Core) (s : Sess) (hs : s.phase ≠ .proxy) (l : List Ev) : run core s l = s := by
  induction l with
  | nil => rfl
  | cons e l ih =>
    show run core (recv core s e) l = s
    rw [recv_done core s hs, ih]

theorem take_prefix {head rest : Bytes} {n : Nat} (h : head.length ≤ n) : (head ++ rest).take n = head ++ rest.take (n - head.length) := by
  rw [List.take_append, List.take_of_length_le h]

/-- What a line that is taken does -/
theorem recv_accepted (core : Core) (s : Sess) (hs : s.phase = .proxy) (head rest : Bytes) (addr : Option Sockaddr) (h : Accepted core.conv head addr) (hl : head.length ≤ 107)
    (hn : ∀ a, addr = some a → core.ntop a ≠ []) (g : Nat → UInt8) :
    recv core s (.data (head ++ rest) g) = { s with conn := addr.getD s.conn, connText := (addr.map core.ntop).getD s.connText, phase := .handshake rest } := by
  have hd : (head ++ rest).drop head.length = rest := List.drop_left' rfl
  rw [recv_data core s hs, take_prefix hl, pure_complete h]
  cases addr with
  | none => simp [hd]
  | some a => simp [hn a rfl, hd]

theorem Field.noEnd {l : Bytes} (h : ∀ x ∈ l, x ≠ 0x0d) : NoEnd l := by
  rintro ⟨a, b, e⟩
  exact h 0x0d (by rw [← e]; simp [crlfW]) rfl

/-- Lines of the protocol are taken. -/
theorem Header.accepted {conv : Bytes → Option Sockaddr} {head : Bytes} {addr : Option Sockaddr} (h : Header conv head addr) : Accepted conv head addr ∧ head.length ≤ 107 := by
  cases h with
  | tcp f src dst sport dport a hs hd hp hq ha hl =>
    refine ⟨?_, hl⟩
    have := Accepted.tcp (conv := conv) proxyW f src (dst ++ 0x20 :: sport ++ 0x20 :: dport) a rfl (fun hx => (hs _ hx).1 rfl) ha (Field.noEnd (by
      intro x hx
      simp only [List.mem_append, List.mem_cons] at hx
      rcases hx with (hx | rfl | hx) | rfl | hx
      · exact (hd _ hx).2.1
      · decide
      · exact (hp _ hx).2.1
      · decide
      · exact (hq _ hx).2.1))
    simpa only [List.append_assoc, List.cons_append] using this
  | unknown more hm hl => exact ⟨.unknown proxyW more rfl hm, hl⟩

/-- C82, a client behind a proxy: whenever the line of the protocol arrives whole, alone or with more behind it, after waiting as long as may be, the connection has the address the line says (or keeps
its own with UNKNOWN), and the handshake begins with the first byte behind the line. -/
theorem C82_header (core : Core) (sa : Sockaddr) (text : Bytes) (k : Nat) (head rest : Bytes) (addr : Option Sockaddr) (h : Header core.conv head addr)
    (hn : ∀ a, addr = some a → core.ntop a ≠ []) (g : Nat → UInt8) (later : List Ev) :
    let s := run core (accept sa text) (List.replicate k .again ++ .data (head ++ rest) g :: later)
    s.phase = .handshake rest ∧ s.conn = addr.getD sa ∧ s.connText = (addr.map core.ntop).getD text := by
  have e := recv_accepted core (accept sa text) rfl head rest addr h.accepted.1 h.accepted.2 hn g
  have : run core (accept sa text) (List.replicate k .again ++ .data (head ++ rest) g :: later) = recv core (accept sa text) (.data (head ++ rest) g) := by
    rw [run_again core _ rfl]
    show run core (recv core _ _) later = _
    refine run_done core _ ?_ later
    rw [e]
    simp
  intro s
  have hs : s = _ := this.trans e
  rw [hs]
  exact ⟨rfl, rfl, rfl⟩

/-- C82, nothing else: when the handshake begins, what has arrived is a line as `Accepted` says and the bytes the handshake gets, and the address is the one of the line, or it was not changed. -/
theorem C82_exact (core : Core) (sa : Sockaddr) (text : Bytes) (d rest : Bytes) (g : Nat → UInt8) :
    (recv core (accept sa text) (.data d g)).phase = .handshake rest ↔
      ∃ head addr, d = head ++ rest ∧ head.length ≤ 107 ∧ Accepted core.conv head addr ∧ (∀ a, addr = some a → core.ntop a ≠ []) ∧
        (recv core (accept sa text) (.data d g)).conn = addr.getD sa ∧ (recv core (accept sa text) (.data d g)).connText = (addr.map core.ntop).getD text := by
  constructor
  · intro h
    rw [recv_data core _ rfl] at h ⊢
    cases hp : pureParse core.conv (d.take 107) with
    | none => simp [hp] at h
    | some z =>
      obtain ⟨addr, n⟩ := z
      obtain ⟨head, r, e, hl, ha⟩ := pure_sound hp
      have hle : head.length ≤ 107 := by
        have := congrArg List.length e
        rw [List.length_take, List.length_append] at this
        omega
      have hd : d = head ++ d.drop n := by
        conv => lhs; rw [← List.take_append_drop n d]
        congr 1
        have : d.take n = (d.take 107).take n := by rw [List.take_take, Nat.min_eq_left (by omega)]
        rw [this, e]; exact List.take_left' hl
      rw [hp] at h
      cases addr with
      | none =>
        simp only [Phase.handshake.injEq] at h
        exact ⟨head, none, by rw [← h]; exact hd, hle, ha, by simp, rfl, rfl⟩
      | some a =>
        simp only at h ⊢
        split at h
        · simp at h
        · rename_i hn
          simp only [Phase.handshake.injEq] at h
          refine ⟨head, some a, by rw [← h]; exact hd, hle, ha, ?_, ?_, ?_⟩
          · intro b hb; injection hb with hb; rw [← hb]; exact hn
          · rw [if_neg hn]; rfl
          · rw [if_neg hn]; rfl
  · rintro ⟨head, addr, rfl, hl, ha, hn, -, -⟩
    rw [recv_accepted core _ rfl head rest addr ha hl hn g]

/-- C82, safe: nothing outside of the buffer is read, whatever arrives and whatever was in the buffer before; and what was there makes no difference. -/
theorem C82_safe (core : Core) (sa : Sockaddr) (text : Bytes) (l : List Ev) :
    (run core (accept sa text) l).phase ≠ .bad ∧
      ∀ (g : Nat → UInt8), run core (accept sa text) (l.map fun e => match e with | .data d _ => .data d g | e => e) = run core (accept sa text) l := by
  have hb : ∀ (l : List Ev) (s : Sess), s.phase ≠ .bad → (run core s l).phase ≠ .bad := by
    intro l
    induction l with
    | nil => intro s h; exact h
    | cons e l ih =>
      intro s h
      refine ih (recv core s e) ?_
      by_cases hp : s.phase = .proxy
      · cases e with
        | timedout => simp [recv, hp]
        | again => simp [recv, hp]
        | error => simp [recv, hp]
        | data d g =>
          rw [recv_data core s hp]
          cases pureParse core.conv (d.take 107) with
          | none => simp
          | some z =>
            obtain ⟨a, n⟩ := z
            cases a with
            | none => simp
            | some a => simp only; split <;> simp
      · rw [recv_done core s hp]; exact h
  refine ⟨hb l _ (by simp [accept]), fun g => ?_⟩
  have : ∀ (l : List Ev) (s : Sess), run core s (l.map fun e => match e with | .data d _ => .data d g | e => e) = run core s l := by
    intro l
    induction l with
    | nil => intro s; rfl
    | cons e l ih =>
      intro s
      rw [List.map_cons]
      show run core (recv core s _) _ = run core (recv core s e) l
      rw [ih]
      congr 1
      cases e with
      | data d g' =>
        by_cases hp : s.phase = .proxy
        · rw [recv_data core s hp, recv_data core s hp]
        · rw [recv_done core s hp, recv_done core s hp]
      | _ => rfl
  exact this l _

/-- A proper beginning of a line of the protocol is not taken. -/
theorem prefix_refused {conv : Bytes → Option Sockaddr} {head : Bytes} {addr : Option Sockaddr} (h : Header conv head addr) {d : Bytes} (hd : d <+: head) (hne : d ≠ head) :
    pureParse conv d = none := by
  cases hp : pureParse conv d with
  | none => rfl
  | some z =>
    obtain ⟨a, n⟩ := z
    obtain ⟨hd', r, e, hl, ha⟩ := pure_sound hp
    obtain ⟨t, rfl⟩ := hd
    have h1 := pure_complete ha (r ++ t)
    have h2 := pure_complete h.accepted.1 []
    rw [← List.append_assoc, ← e] at h1
    rw [List.append_nil, h1] at h2
    simp only [Option.some.injEq, Prod.mk.injEq] at h2
    have := congrArg List.length e
    rw [List.length_append] at this
    have h3 := h2.2
    rw [List.length_append] at h3
    have : t = [] := List.eq_nil_of_length_eq_zero (by omega)
    exact absurd (by rw [this, List.append_nil]) hne

/-- C82, in pieces: a line of which only a beginning has arrived when the handler is called is refused; it is not waited for the rest. (The protocol allows that.) -/
theorem C82_whole (core : Core) (sa : Sockaddr) (text : Bytes) (head : Bytes) (addr : Option Sockaddr) (h : Header core.conv head addr) (d : Bytes) (hd : d <+: head) (hne : d ≠ head)
    (g : Nat → UInt8) (later : List Ev) : (run core (accept sa text) (.data d g :: later)).phase = .finalized := by
  have hl : d.length ≤ 107 := Nat.le_trans hd.length_le h.accepted.2
  have e : recv core (accept sa text) (.data d g) = { accept sa text with phase := .finalized } := by
    rw [recv_data core _ rfl, List.take_of_length_le hl, prefix_refused h hd hne]
  show (run core (recv core _ _) later).phase = _
  rw [e, run_done core _ (by simp)]

/-- C82 fails for what is not the protocol: any six bytes do for `PROXY `, destination and ports may be missing, and the family need not be that of the address. -/
theorem C82_other_violation (core : Core) (sa a : Sockaddr) (text six src rest : Bytes) (h6 : six.length = 6) (hs : 0x20 ∉ src) (hl : src.length ≤ 93) (ha : core.conv src = some a)
    (hn : core.ntop a ≠ []) (f : Family) (g : Nat → UInt8) :
    let s := recv core (accept sa text) (.data (six ++ (f.text ++ (0x20 :: (src ++ (0x20 :: crlfW)))) ++ rest) g)
    s.phase = .handshake rest ∧ s.conn = a := by
  have hacc := Accepted.tcp (conv := core.conv) six f src [] a h6 hs ha noEnd_nil
  have hf : f.text.length = 4 := by cases f <;> rfl
  have := recv_accepted core (accept sa text) rfl _ rest _ hacc (by
    simp only [List.length_append, List.length_cons, List.length_nil, h6, hf, crlfW, List.nil_append]
    omega) (by intro b hb; injection hb with hb; rw [← hb]; exact hn) g
  change recv core _ (.data (six ++ (f.text ++ (0x20 :: (src ++ (0x20 :: crlfW)))) ++ rest) g) = _ at this
  intro s
  have hs : s = _ := this
  rw [hs]
  exact ⟨rfl, rfl⟩

/-- What the session keeps -/
theorem run_kept (core : Core) : ∀ (l : List Ev) (s : Sess), (run core s l).kept = s.kept ∧ (run core s l).keptText = s.keptText := by
  intro l
  induction l with
  | nil => intro s; exact ⟨rfl, rfl⟩
  | cons e l ih =>
    intro s
    have h1 : (recv core s e).kept = s.kept ∧ (recv core s e).keptText = s.keptText := by
      by_cases hp : s.phase = .proxy
      · cases e with
        | timedout => simp [recv, hp]
        | again => simp [recv, hp]
        | error => simp [recv, hp]
        | data d g =>
          rw [recv_data core s hp]
          cases pureParse core.conv (d.take 107) with
          | none => exact ⟨rfl, rfl⟩
          | some z =>
            obtain ⟨a, n⟩ := z
            cases a with
            | none => exact ⟨rfl, rfl⟩
            | some a => simp only; split <;> exact ⟨rfl, rfl⟩
      · rw [recv_done core s hp]; exact ⟨rfl, rfl⟩
    have h2 := ih (recv core s e)
    exact ⟨h2.1.trans h1.1, h2.2.trans h1.2⟩

/-- C82 fails for access: rules are applied to the address of the proxy, whatever line arrives; so two clients with different addresses are treated alike. -/
theorem C82_access_violation (core : Core) (conf : Conf) (op : Op) (sa : Sockaddr) (text : Bytes) (l : List Ev) :
    answer conf (some (run core (accept sa text) l).kept) op = answer conf (some (sessionSockaddr sa)) op := by
  rw [(run_kept core l _).1]; rfl

/-- C82 fails for logs and statistics: what they show is the address of the proxy. -/
theorem C82_log_violation (core : Core) (sa : Sockaddr) (text : Bytes) (l : List Ev) : (run core (accept sa text) l).keptText = text := (run_kept core l _).2

end Verif.Proxy
