import Verif.Json.StatLemmas
/-
C81: what the statistics say.
-/
namespace Verif.Json
open Spec

/-! The tree can be printed. -/

theorem PlainMembers_append : ∀ (a b : List (Bytes × Val)), PlainMembers (a ++ b) = (PlainMembers a && PlainMembers b)
  | [], b => by simp [PlainMembers]
  | (k, v) :: a, b => by rw [List.cons_append, PlainMembers, PlainMembers, PlainMembers_append a b]; simp only [Bool.and_assoc]

theorem PlainItems_map {α : Type} (f : α → Val) : ∀ (l : List α), (∀ x ∈ l, Plain (f x) = true) → PlainItems (l.map f) = true
  | [], _ => rfl
  | x :: l, h => by
    rw [List.map_cons, PlainItems, h x (by simp), PlainItems_map f l fun y hy => h y (by simp [hy])]; rfl

theorem plain_str (s : Bytes) : Plain (mkStr s) = true := by
  rw [mkStr, Plain, cstr_contains]; rfl

theorem plain_string (n : Nat) (s : Bytes) : Plain (string n s) = true := plain_str (s.take n)
theorem plain_long (s : Bytes) : Plain (long s) = true := plain_str s

theorem plain_num {n : Nat} (h : n < 10 ^ 15) : Plain (mkNum n) = true := by
  rw [mkNum, Plain]; exact decide_eq_true (by omega)

theorem plain_one {k : Bytes} {v : Val} (hk : k.contains 0 = false) (hv : Plain v = true) {l : List (Bytes × Val)} (hl : PlainMembers l = true) : PlainMembers ((k, v) :: l) = true := by
  rw [PlainMembers, hk, hv, hl]; rfl

theorem plain_opt {k : Bytes} {v : Option Val} (hk : k.contains 0 = false) (hv : ∀ x, v = some x → Plain x = true) : PlainMembers (opt k v) = true := by
  cases v with
  | none => rfl
  | some x => exact plain_one hk (hv x rfl) rfl

theorem plain_maybe {s : Bytes} {v : Val} (h : maybe s = some v) : Plain v = true := by
  unfold maybe at h
  split at h
  · exact absurd h (by simp)
  · rw [← Option.some.inj h]; exact plain_string _ _

theorem plain_bw {b : Bandwidth.Bw} (h : SaneBw b) (sec : Nat) : Plain (statBw sec b) = true := by
  obtain ⟨h1, h2⟩ := saneBw_update h sec
  have h3 := h.bytes
  rw [statBw, Plain]
  exact plain_one (by decide) (plain_num (by omega)) (plain_one (by decide) (plain_num (by omega)) rfl)

theorem plain_client {w : World} (hm : w.msec < 10 ^ 15) {c : Client} (h : SaneClient c) : Plain (clientItem w c) = true := by
  have h1 := h.epoch
  have h2 := c.currentTime.toNat_lt
  have h3 := (c.audioTs - c.videoTs).toNat_lt
  rw [clientItem_eq, Plain, PlainMembers_append, PlainMembers_append, PlainMembers_append, PlainMembers_append, plain_opt (by decide) fun x => plain_maybe, plain_opt (by decide) fun x => plain_maybe,
    plain_opt (by decide) fun x => plain_maybe]
  simp only [Bool.and_true, Bool.and_eq_true]
  constructor
  · refine plain_one (by decide) (plain_num h.number) (plain_one (by decide) (plain_string _ _) (plain_one (by decide) (plain_string _ _) (plain_one (by decide) ?_ rfl)))
    rw [Plain]; exact decide_eq_true (by omega)
  · exact plain_one (by decide) (plain_num h.dropped) (plain_one (by decide) (plain_num (by omega)) (plain_one (by decide) (plain_num (by omega)) (plain_one (by decide) rfl (plain_one (by decide) rfl
      (plain_one (by decide) rfl (plain_one (by decide) rfl (plain_one (by decide) (plain_str _) rfl)))))))

theorem plain_if {p : Prop} [Decidable p] {a b : List (Bytes × Val)} (h1 : p → PlainMembers a = true) (h2 : ¬ p → PlainMembers b = true) : PlainMembers (if p then a else b) = true := by
  split
  · exact h1 ‹_›
  · exact h2 ‹_›

theorem plain_meta {c : Codec} (h : SaneCodec c) : Plain (statMeta c) = true := by
  rw [statMeta, Plain]
  refine plain_one (by decide) ?_ (plain_one (by decide) ?_ rfl)
  · rw [Plain]
    simp only [PlainMembers_append, Bool.and_eq_true]
    exact ⟨⟨⟨plain_one (by decide) (plain_num h.width) (plain_one (by decide) (plain_num h.height) (plain_one (by decide) (plain_str _) rfl)),
      plain_if (fun _ => plain_one (by decide) (plain_str _) rfl) fun _ => rfl⟩, plain_if (fun _ => plain_one (by decide) (plain_str _) rfl) fun _ => rfl⟩,
      plain_if (fun _ => plain_one (by decide) (plain_str _) rfl) fun _ => rfl⟩
  · rw [Plain]
    simp only [PlainMembers_append, Bool.and_eq_true]
    exact ⟨⟨⟨plain_if (fun _ => plain_one (by decide) (plain_str _) rfl) fun _ => rfl, plain_if (fun _ => plain_one (by decide) (plain_str _) rfl) fun _ => rfl⟩,
      plain_if (fun _ => plain_one (by decide) (plain_num h.chanConf) rfl) fun _ => plain_if (fun _ => plain_one (by decide) (plain_num h.channels) rfl) fun _ => rfl⟩,
      plain_if (fun _ => plain_one (by decide) (plain_num h.sampleRate) rfl) fun _ => rfl⟩

theorem plain_counts {l : List Client} (h : viewers l < 10 ^ 15) : PlainMembers (statCounts (viewers l) (countsOf l)) = true := by
  have e := viewers_sum l
  refine plain_one (by decide) (plain_num h) (plain_one (by decide) (plain_num ?_) (plain_one (by decide) (plain_num ?_) (plain_one (by decide) (plain_num ?_) (plain_one (by decide) (plain_num ?_) rfl)))) <;>
    simp only [countsOf] <;> omega

theorem codecOf_mem : ∀ (l : List Client) (d : Option Codec) (x : Codec), codecOf l d = some x → d = some x ∨ ∃ c ∈ l, c.codec = some x
  | [], d, x, h => .inl h
  | c :: l, d, x, h => by
    rcases codecOf_mem l (if c.joinedAsPublisher then c.codec else d) x h with h | ⟨e, he, h⟩
    · split at h
      · exact .inr ⟨c, by simp, h⟩
      · exact .inl h
    · exact .inr ⟨e, by simp [he], h⟩

theorem plain_stream {w : World} (hm : w.msec < 10 ^ 15) {s : Stream} (h : SaneStream w.msec s) (hv : viewers s.clients < 10 ^ 15) : Plain (streamItem w s).1 = true := by
  have he := h.epoch
  rw [streamItem_eq]
  simp only [Plain, PlainMembers_append, Bool.and_eq_true]
  refine ⟨⟨⟨?_, plain_opt (by decide) fun x hx => ?_⟩, plain_counts hv⟩, plain_one (by decide) rfl rfl⟩
  · refine plain_one (by decide) (plain_str _) (plain_one (by decide) (plain_num (by omega)) (plain_one (by decide) (plain_bw h.bwIn _) (plain_one (by decide) (plain_bw h.bwVideo _)
      (plain_one (by decide) (plain_bw h.bwAudio _) (plain_one (by decide) (plain_bw h.bwOut _) (plain_one (by decide) ?_ rfl))))))
    rw [Plain]
    exact PlainItems_map _ _ fun c hc => plain_client hm (h.clients c hc)
  · rw [Option.map_eq_some_iff] at hx
    obtain ⟨y, hy, rfl⟩ := hx
    rcases codecOf_mem _ _ _ hy with h' | ⟨c, hc, h'⟩
    · exact absurd h' (by simp)
    · exact plain_meta ((h.clients c hc).codec y h')

theorem viewers_le : ∀ (l : List Stream) (s : Stream), s ∈ l → viewers s.clients ≤ viewers (l.flatMap (·.clients))
  | [], s, h => absurd h (by simp)
  | x :: l, s, h => by
    rw [List.flatMap_cons, viewers_append]
    rcases List.mem_cons.1 h with rfl | h
    · omega
    · have := viewers_le l s h
      omega

theorem plain_root {w : World} (h : Sane w) : Plain (root w) = true := by
  rw [root, Plain]
  refine plain_one (by decide) (plain_num h.worker) (plain_one (by decide) (plain_num h.slot) (plain_one (by decide) (plain_num h.pid) (plain_one (by decide) ?_ rfl)))
  rw [liveStat, Plain]
  refine plain_one (by decide) (plain_str _) (plain_one (by decide) (plain_str _) (plain_one (by decide) (plain_str _) (plain_one (by decide) (plain_num h.pid) (plain_one (by decide) (plain_num h.sec)
    (plain_one (by decide) (plain_num h.naccepted) (plain_one (by decide) (plain_bw h.bwIn _) (plain_one (by decide) (plain_bw h.bwOut _) (plain_one (by decide) ?_ rfl))))))))
  rw [Plain, serverLoop_eq, List.nil_append]
  refine PlainItems_map _ _ fun s hs => ?_
  have hs' := h.servers s hs
  rw [serverItem_eq]
  simp only [Plain, PlainMembers_append, Bool.and_eq_true]
  refine ⟨plain_one (by decide) (plain_str _) (plain_one (by decide) ?_ rfl), plain_counts hs'.few⟩
  rw [Plain]
  exact PlainItems_map _ _ fun x hx => plain_stream h.msec (hs'.streams x hx) (Nat.lt_of_le_of_lt (viewers_le _ x hx) hs'.few)

/-! Names of members are different. -/

theorem DistinctMembers_append : ∀ (a b : List (Bytes × Val)), DistinctMembers a → DistinctMembers b → DistinctMembers (a ++ b)
  | [], b, _, h => h
  | (k, v) :: a, b, h1, h2 => by
    rw [DistinctMembers] at h1
    rw [List.cons_append, DistinctMembers]
    exact ⟨h1.1, DistinctMembers_append a b h1.2 h2⟩

theorem DistinctItems_map {α : Type} (f : α → Val) : ∀ (l : List α), (∀ x ∈ l, Distinct (f x)) → DistinctItems (l.map f)
  | [], _ => trivial
  | x :: l, h => by
    rw [List.map_cons, DistinctItems]
    exact ⟨h x (by simp), DistinctItems_map f l fun y hy => h y (by simp [hy])⟩

theorem distinct_members : ∀ (l : List (Bytes × Val)), (∀ x ∈ l, Distinct x.2) → DistinctMembers l
  | [], _ => trivial
  | (k, v) :: l, h => by
    rw [DistinctMembers]
    exact ⟨h (k, v) (by simp), distinct_members l fun x hx => h x (by simp [hx])⟩

theorem distinct_str (s : Bytes) : Distinct (.str s) := trivial

theorem distinct_bw (sec : Nat) (b : Bandwidth.Bw) : Distinct (statBw sec b) := by
  rw [statBw, Distinct]
  exact ⟨by show [kBw, kBytes].Nodup; decide, trivial, trivial, trivial⟩

theorem maybe_distinct {s : Bytes} {v : Val} (h : maybe s = some v) : Distinct v := by
  unfold maybe at h
  split at h
  · exact absurd h (by simp)
  · rw [← Option.some.inj h]; trivial

theorem opt_sub (k : Bytes) (x : Option Val) : ((opt k x).map (·.1)).Sublist [k] := by
  cases x
  · exact List.nil_sublist _
  · exact List.Sublist.refl _

theorem if_sub {p : Prop} [Decidable p] (k : Bytes) (v : Val) : ((if p then [(k, v)] else []).map (·.1)).Sublist [k] := by
  split
  · exact List.Sublist.refl _
  · exact List.nil_sublist _

theorem distinct_opt {k : Bytes} {v : Option Val} (h : ∀ x, v = some x → Distinct x) : DistinctMembers (opt k v) := by
  cases v with
  | none => trivial
  | some x => exact ⟨h x rfl, trivial⟩

theorem distinct_if {p : Prop} [Decidable p] {a b : List (Bytes × Val)} (h1 : DistinctMembers a) (h2 : DistinctMembers b) : DistinctMembers (if p then a else b) := by
  split
  · exact h1
  · exact h2

theorem distinct_client (w : World) (c : Client) : Distinct (clientItem w c) := by
  rw [clientItem_eq, Distinct]
  constructor
  · simp only [List.map_append]
    exact List.Sublist.nodup (((((List.Sublist.refl _).append (opt_sub _ _)).append (opt_sub _ _)).append (opt_sub _ _)).append (List.Sublist.refl _))
      (show ([kId, kAddress, kRemoteAddress, kTime] ++ [kFlashver] ++ [kPageurl] ++ [kSwfurl] ++ [kDropped, kAvsync, kTimestamp, kActive, kPublishing, kRelay, kInterprocess, kProtocol]).Nodup from by decide)
  · refine DistinctMembers_append _ _ (DistinctMembers_append _ _ (DistinctMembers_append _ _ (DistinctMembers_append _ _ ?_ (distinct_opt fun _ => maybe_distinct)) (distinct_opt fun _ => maybe_distinct))
      (distinct_opt fun _ => maybe_distinct)) ?_
    · exact ⟨trivial, trivial, trivial, trivial, trivial⟩
    · exact ⟨trivial, trivial, trivial, trivial, trivial, trivial, trivial, trivial, trivial⟩

theorem distinct_meta (c : Codec) : Distinct (statMeta c) := by
  rw [statMeta, Distinct]
  refine ⟨by show [kVideo, kAudio].Nodup; decide, ?_, ?_, trivial⟩
  · rw [Distinct]
    constructor
    · simp only [List.map_append]
      exact List.Sublist.nodup ((((List.Sublist.refl _).append (if_sub _ _)).append (if_sub _ _)).append (if_sub _ _))
        (show ([kWidth, kHeight, kFrameRate] ++ [kCodec] ++ [kProfile] ++ [kCompat]).Nodup from by decide)
    · exact DistinctMembers_append _ _ (DistinctMembers_append _ _ (DistinctMembers_append _ _ ⟨trivial, trivial, trivial, trivial⟩ (distinct_if ⟨trivial, trivial⟩ trivial)) (distinct_if ⟨trivial, trivial⟩ trivial))
        (distinct_if ⟨trivial, trivial⟩ trivial)
  · rw [Distinct]
    constructor
    · simp only [List.map_append]
      refine List.Sublist.nodup ((((if_sub _ _).append (if_sub _ _)).append (?_ : List.Sublist _ [kChannels])).append (if_sub _ _))
        (show ([kCodec] ++ [kProfile] ++ [kChannels] ++ [kSampleRate]).Nodup from by decide)
      split
      · exact List.Sublist.refl _
      · exact if_sub _ _
    · exact DistinctMembers_append _ _ (DistinctMembers_append _ _ (DistinctMembers_append _ _ (distinct_if ⟨trivial, trivial⟩ trivial) (distinct_if ⟨trivial, trivial⟩ trivial))
        (distinct_if ⟨trivial, trivial⟩ (distinct_if ⟨trivial, trivial⟩ trivial))) (distinct_if ⟨trivial, trivial⟩ trivial)

theorem distinct_counts (n : Nat) (c : Counts) : DistinctMembers (statCounts n c) := ⟨trivial, trivial, trivial, trivial, trivial, trivial⟩

theorem distinct_stream (w : World) (s : Stream) : Distinct (streamItem w s).1 := by
  rw [streamItem_eq]
  simp only
  rw [Distinct]
  constructor
  · simp only [List.map_append]
    exact List.Sublist.nodup ((((List.Sublist.refl _).append (opt_sub _ _)).append (List.Sublist.refl _)).append (List.Sublist.refl _))
      (show ([kName, kTime, kIn, kVideoIn, kAudioIn, kOut, kClientArray] ++ [kMeta] ++ [kTotalClients, kRtmpClients, kFlvClients, kHlsClients, kTsClients] ++ [kActive]).Nodup from by decide)
  · refine DistinctMembers_append _ _ (DistinctMembers_append _ _ (DistinctMembers_append _ _ ?_ (distinct_opt ?_)) (distinct_counts _ _)) ⟨trivial, trivial⟩
    · refine ⟨trivial, trivial, distinct_bw _ _, distinct_bw _ _, distinct_bw _ _, distinct_bw _ _, ?_, trivial⟩
      rw [Distinct]
      exact DistinctItems_map _ _ fun c _ => distinct_client w c
    · intro x hx
      rw [Option.map_eq_some_iff] at hx
      obtain ⟨y, _, rfl⟩ := hx
      exact distinct_meta y

theorem distinct_root (w : World) : Distinct (root w) := by
  rw [root, Distinct]
  refine ⟨by show [kNgxWorker, kNgxProcessSlot, kNgxPid, kLiveStream].Nodup; decide, trivial, trivial, trivial, ?_, trivial⟩
  rw [liveStat, Distinct]
  refine ⟨by show [kServerVersion, kCompiler, kBuilt, kPid, kTimestamp, kNaccepted, kIn, kOut, kServerArray].Nodup; decide, trivial, trivial, trivial, trivial, trivial, trivial, distinct_bw _ _,
    distinct_bw _ _, ?_, trivial⟩
  rw [Distinct, serverLoop_eq, List.nil_append]
  refine DistinctItems_map _ _ fun s _ => ?_
  rw [serverItem_eq, Distinct]
  refine ⟨?_, DistinctMembers_append _ _ ⟨trivial, ?_, trivial⟩ (distinct_counts _ _)⟩
  · show ([kServerid, kStreamArray] ++ [kTotalClients, kRtmpClients, kFlvClients, kHlsClients, kTsClients]).Nodup
    decide
  · rw [Distinct]
    exact DistinctItems_map _ _ fun x _ => distinct_stream w x

/-! What a client of the statistics gets -/

theorem handler_text {big : Int → Bytes} (hb : BigOk big) {mem : Nat → UInt8} {w : World} {t : Bytes} (h : handler big mem w = .ok t) : t = 0x20 :: text big true 0 (root w) := by
  unfold handler at h
  generalize root w = v at h ⊢
  have hp := print_text hb true mem v
  cases hr : print big true mem v with
  | bad => rw [hr] at h; exact absurd h (by simp)
  | null => rw [hr] at h; exact absurd h (by simp)
  | ok x =>
    rw [hr] at h hp
    have hx : x = text big true 0 v := hp
    have e := Res.ok.inj h
    rw [← e, List.take_of_length_le (by simp), hx]

/-- The body is JSON. It lists each server of the worker, each stream of a server and each session of the list of a stream, once and in order, with what is known of them, and it says how many of
them watch: those that do not publish and do not hand the stream on, in all and of each protocol. The numbers of a stream are those of its sessions, those of a server are those of all its sessions.
The names of the members of each object are different. -/
theorem C81_says {big : Int → Bytes} (hb : BigOk big) {mem : Nat → UInt8} {w : World} (hw : Sane w) {t : Bytes} (h : handler big mem w = .ok t) :
    ∃ v, read t = some v ∧ Says w v ∧ Distinct v := by
  refine ⟨root w, ?_, root_says hw, distinct_root w⟩
  have hp := plain_root hw
  rw [handler_text hb h]
  have h1 := need_le big true (root w) 0 hp
  have h2 := readVal_text big true (root w) hp ((0x20 :: text big true 0 (root w)).length + 1) 0 [] (by simp only [List.length_cons]; omega) ⟨by simp, rfl⟩
  rw [List.append_nil] at h2
  rw [read, readVal_skip _ (skip_ws (by decide) _), h2]
  rfl

/-- There is a body, if it is not too large: no byte is written outside of a buffer, and no NULL is read. -/
theorem C81_answers {big : Int → Bytes} (hb : BigOk big) (mem : Nat → UInt8) {w : World} (hw : weight 0 (root w) < 2147483646) : ∃ t, handler big mem w = .ok t := by
  obtain ⟨t, ht⟩ := C80_prints hb true mem hw
  exact ⟨_, by unfold handler; rw [ht]⟩

/-- The numbers of each protocol add up to that of all. -/
theorem C81_adds {v : Val} {l : List Client} (h : SaysViewers v l) : ∃ n a b c d : Nat, v.get kTotalClients = some (.num n) ∧ v.get kRtmpClients = some (.num a) ∧ v.get kFlvClients = some (.num b) ∧
    v.get kHlsClients = some (.num c) ∧ v.get kTsClients = some (.num d) ∧ a + b + c + d = n :=
  ⟨_, _, _, _, _, h.total, h.rtmp, h.flv, h.hls, h.ts, viewers_sum l⟩

/-! Who is not in the list -/

/-- Sessions of HLS and of transport streams over HTTP do not publish. -/
def Allowed : Op → Prop
  | .publish c => c.kind = .rtmp ∨ c.kind = .flv
  | _ => True

theorem lists_kinds {l : Lists} (hl : ∀ c ∈ l.ctx, c.kind = .rtmp ∨ c.kind = .flv) {o : Op} (ho : Allowed o) : ∀ c ∈ (listStep l o).ctx, c.kind = .rtmp ∨ c.kind = .flv := by
  cases o with
  | publish c =>
    intro x hx
    rcases List.mem_cons.1 hx with rfl | hx
    · exact ho
    · exact hl x hx
  | play c =>
    intro x hx
    simp only [listStep] at hx
    cases hk : c.kind <;> simp [hk] at hx
    · rcases hx with rfl | hx
      · exact .inl rfl
      · exact hl x hx
    · rcases hx with rfl | hx
      · exact .inr rfl
      · exact hl x hx
    · split at hx <;> exact hl x hx
    · exact hl x hx
  | close n =>
    intro x hx
    exact hl x (List.mem_filter.1 hx).1

/-- Whoever comes and goes: `hls_clients` and `ts_clients` are always 0, and nobody who watches by HLS or by a transport stream is listed or counted, because they are in other lists of the stream. -/
theorem C81_missing_violation (ops : List Op) (ho : ∀ o ∈ ops, Allowed o) (w : World) (s : Stream) (hs : s.clients = (ops.foldl listStep {}).ctx) :
    ofKind .hls s.clients = 0 ∧ ofKind .ts s.clients = 0 ∧ (streamItem w s).1.get kHlsClients = some (.num 0) ∧ (streamItem w s).1.get kTsClients = some (.num 0) := by
  have key : ∀ (ops : List Op) (l : Lists), (∀ o ∈ ops, Allowed o) → (∀ c ∈ l.ctx, c.kind = .rtmp ∨ c.kind = .flv) → ∀ c ∈ (ops.foldl listStep l).ctx, c.kind = .rtmp ∨ c.kind = .flv := by
    intro ops
    induction ops with
    | nil => intro l _ h; exact h
    | cons o ops ih => intro l ho hl; exact ih _ (fun x hx => ho x (by simp [hx])) (lists_kinds hl (ho o (by simp)))
  have hk := key ops {} ho (by simp)
  rw [← hs] at hk
  have h1 : ofKind .hls s.clients = 0 := by
    unfold ofKind
    rw [List.countP_eq_zero]
    intro c hc
    rcases hk c hc with h | h <;> simp [h]
  have h2 : ofKind .ts s.clients = 0 := by
    unfold ofKind
    rw [List.countP_eq_zero]
    intro c hc
    rcases hk c hc with h | h <;> simp [h]
  refine ⟨h1, h2, ?_, ?_⟩
  · rw [streamItem_eq]
    have e : (countsOf s.clients).hls = 0 := h1
    generalize codecOf s.clients none = cd
    cases cd with
    | none => show some (Val.num ((countsOf s.clients).hls : Int)) = _; rw [e]; rfl
    | some x => show some (Val.num ((countsOf s.clients).hls : Int)) = _; rw [e]; rfl
  · rw [streamItem_eq]
    have e : (countsOf s.clients).ts = 0 := h2
    generalize codecOf s.clients none = cd
    cases cd with
    | none => show some (Val.num ((countsOf s.clients).ts : Int)) = _; rw [e]; rfl
    | some x => show some (Val.num ((countsOf s.clients).ts : Int)) = _; rw [e]; rfl

/-- When the sound is behind the picture, `avsync` is some four billion, not a negative number. -/
theorem C81_avsync_violation (w : World) (c : Client) (h : c.audioTs.toNat < c.videoTs.toNat) : ∃ n : Nat, (clientItem w c).get kAvsync = some (.num n) ∧ n = 2 ^ 32 - (c.videoTs.toNat - c.audioTs.toNat) := by
  refine ⟨(c.audioTs - c.videoTs).toNat, ?_, ?_⟩
  · rw [clientItem_eq]
    generalize maybe c.flashver = f
    generalize maybe c.pageUrl = p
    generalize maybe c.swfUrl = s
    cases f <;> cases p <;> cases s <;> rfl
  · rw [UInt32.toNat_sub]
    have := c.videoTs.toNat_lt
    omega

theorem utf8_tail {b : UInt8} {r : Bytes} (hb : b.toNat < 128) (h : Utf8 (b :: r)) : Utf8 r := by
  cases h with
  | one _ h => exact h
  | two h _ _ => omega
  | three h _ _ _ => omega
  | four h _ _ _ _ => omega

theorem utf8_prefix : ∀ (n : Nat) (l : Bytes), Utf8 (List.replicate n 0x61 ++ l) → Utf8 l
  | 0, _, h => h
  | n + 1, l, h => by
    rw [List.replicate_succ, List.cons_append] at h
    exact utf8_prefix n l (utf8_tail (by decide) h)

theorem string_cut (n : Nat) : string (n + 1) (List.replicate n 0x61 ++ [0xc3, 0xa4]) = .str (List.replicate n 0x61 ++ [0xc3]) := by
  have : (List.replicate n (0x61 : UInt8) ++ [0xc3]).contains 0 = false := by
    rw [List.contains_eq_any_beq, List.any_eq_false]
    intro b hb
    rcases List.mem_append.1 hb with hb | hb
    · rw [List.eq_of_mem_replicate hb]; decide
    · rw [List.mem_singleton.1 hb]; decide
  have e := cstr_plain this
  unfold cstr at e
  unfold string
  rw [List.take_append, List.take_of_length_le (by simp), List.length_replicate, Nat.add_sub_cancel_left]
  exact congrArg Val.str e

/-- Strings are cut after 1023 bytes, in the middle of a character: what a client sent is UTF-8, what is said is not. -/
theorem C81_cut_violation : ∃ s : Bytes, Utf8 s ∧ ∀ (w : World) (c : Client), c.flashver = s → ∃ x, (clientItem w c).get kFlashver = some (.str x) ∧ ¬ Utf8 x := by
  refine ⟨List.replicate 1022 0x61 ++ [0xc3, 0xa4], ?_, fun w c hc => ⟨List.replicate 1022 0x61 ++ [0xc3], ?_, ?_⟩⟩
  · exact (Utf8.ascii fun b hb => by rw [List.eq_of_mem_replicate hb]; decide).append (.two (by decide) ⟨by decide, by decide⟩ .nil)
  · rw [(clientItem_says w c).flashver, hc]
    unfold maybe
    rw [if_neg (List.append_ne_nil_of_right_ne_nil _ (by simp)), string_cut 1022]
  · intro h
    have := utf8_prefix _ _ h
    cases this with
    | one h _ => exact absurd h (by decide)

end Verif.Json
