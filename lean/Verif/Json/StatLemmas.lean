import Verif.Json.StatModel
import Verif.Json.Props
/-
Helper lemmas for C81.
-/
namespace Verif.Json
open Spec

/-! Strings -/

theorem cstr_zero (s : Bytes) : cstr (s ++ [0]) = s.takeWhile (· != 0) := by
  unfold cstr
  rw [List.takeWhile_append]
  split
  · rename_i h
    rw [show ([0] : Bytes).takeWhile (· != 0) = [] from rfl, List.append_nil]
    exact ((List.takeWhile_prefix (l := s) (· != 0)).eq_of_length h).symm
  · rfl

theorem convert_str (s : Bytes) : mkStr (convert s) = string 1023 s := by
  unfold mkStr convert string
  cases s with
  | nil => rfl
  | cons b s => rw [if_neg (by simp), cstr_zero]

theorem mkStr_long (s : Bytes) : mkStr s = long s := rfl

theorem cstr_contains (s : Bytes) : (cstr s).contains 0 = false := by
  rw [List.contains_eq_any_beq, List.any_eq_false]
  intro b hb
  have := cstr_nonzero s b hb
  simpa using fun h => this h.symm

/-- A member that may be missing -/
def opt (k : Bytes) (v : Option Val) : List (Bytes × Val) := match v with
  | some v => [(k, v)]
  | none => []

theorem opt_maybe (k s : Bytes) : (if s.length ≠ 0 then [(k, mkStr (convert s))] else []) = opt k (maybe s) := by
  unfold maybe
  cases s with
  | nil => rfl
  | cons b s => rw [if_pos (by simp), if_neg (by simp), convert_str]; rfl

/-! Clients -/

theorem clientItem_eq (w : World) (c : Client) : clientItem w c = .obj ([(kId, mkNum c.number), (kAddress, string 1023 c.addr), (kRemoteAddress, string 1023 c.remote), (kTime, .num ((w.msec : Int) - c.epoch))] ++
    opt kFlashver (maybe c.flashver) ++ opt kPageurl (maybe c.pageUrl) ++ opt kSwfurl (maybe c.swfUrl) ++
    [(kDropped, mkNum c.dropped), (kAvsync, mkNum (c.audioTs - c.videoTs).toNat), (kTimestamp, mkNum c.currentTime.toNat), (kActive, .bool c.active),
    (kPublishing, .bool c.publishing), (kRelay, .bool c.relay), (kInterprocess, .bool c.interprocess), (kProtocol, mkStr (protocolString c.kind))]) := by
  unfold clientItem statClient
  rw [opt_maybe, opt_maybe, opt_maybe, convert_str, convert_str]

theorem proto_str (k : Kind) : mkStr (protocolString k) = .str (protocol k) := by cases k <;> rfl

theorem clientItem_says (w : World) (c : Client) : SaysClient w (clientItem w c) c := by
  rw [clientItem_eq, proto_str]
  generalize hf : maybe c.flashver = f
  generalize hp : maybe c.pageUrl = p
  generalize hs : maybe c.swfUrl = s
  constructor
  case avsync =>
    intro h
    have e : (c.audioTs - c.videoTs).toNat = c.audioTs.toNat - c.videoTs.toNat := UInt32.toNat_sub_of_le _ _ (UInt32.le_iff_toNat_le.2 h)
    rw [e]
    cases f <;> cases p <;> cases s <;> rfl
  all_goals try rw [hf]
  all_goals try rw [hp]
  all_goals try rw [hs]
  all_goals (cases f <;> cases p <;> cases s <;> rfl)

def codecOf (l : List Client) (d : Option Codec) : Option Codec := l.foldl (fun a c => if c.joinedAsPublisher then c.codec else a) d

theorem clientLoop_eq (w : World) : ∀ (l : List Client) (it : List Val) (cd : Option Codec) (n : Counts), clientLoop w l (it, cd, n) =
    (it ++ l.map (clientItem w), codecOf l cd, ⟨n.rtmp + ofKind .rtmp l, n.flv + ofKind .flv l, n.hls + ofKind .hls l, n.ts + ofKind .ts l⟩)
  | [], it, cd, n => by simp [clientLoop, codecOf, ofKind]
  | c :: l, it, cd, n => by
    rw [clientLoop]
    cases hp : c.joinedAsPublisher with
    | true => simp [clientLoop_eq w l, codecOf, ofKind, viewer, hp, List.countP_cons]
    | false =>
      cases hr : c.relay with
      | true => simp [clientLoop_eq w l, codecOf, ofKind, viewer, hp, hr, List.countP_cons]
      | false =>
        cases hi : c.interprocess with
        | true => simp [clientLoop_eq w l, codecOf, ofKind, viewer, hp, hr, hi, List.countP_cons]
        | false =>
          cases hk : c.kind <;> simp [clientLoop_eq w l, codecOf, ofKind, viewer, hp, hr, hi, hk, List.countP_cons] <;> omega

theorem codecOf_filter : ∀ (l : List Client) (d : Option Codec), codecOf l d = (l.filter (·.joinedAsPublisher)).foldl (fun _ c => c.codec) d
  | [], _ => rfl
  | c :: l, d => by
    have ih := codecOf_filter l
    unfold codecOf at ih ⊢
    rw [List.foldl_cons, ih, List.filter_cons]
    cases c.joinedAsPublisher <;> rfl

theorem viewers_sum : ∀ (l : List Client), ofKind .rtmp l + ofKind .flv l + ofKind .hls l + ofKind .ts l = viewers l
  | [] => rfl
  | c :: l => by
    have ih := viewers_sum l
    unfold ofKind viewers at ih ⊢
    simp only [List.countP_cons]
    cases viewer c with
    | false => simpa using ih
    | true => cases c.kind <;> simp <;> omega

/-! Streams -/

theorem statMeta_says (c : Codec) : SaysCodec (some (statMeta c)) c := by
  have e1 : (if c.videoName ≠ [] then [(kCodec, mkStr c.videoName)] else []) = opt kCodec (if c.videoName = [] then none else some (long c.videoName)) := by
    by_cases h : c.videoName = [] <;> simp [h, opt, mkStr_long]
  have e2 : (if c.avcProfile ≠ 0 then [(kProfile, mkStr (avcProfile c.avcProfile))] else []) = opt kProfile (nonzero c.avcProfile (.str (avcName c))) := by
    unfold nonzero
    by_cases h : c.avcProfile = 0
    · simp [h, opt]
    · rw [if_pos h, if_neg h]
      unfold avcProfile avcName
      split
      · rename_i h; simp only [h]; rfl
      · rename_i h; simp only [h]; rfl
      · rename_i h; simp only [h]; rfl
      · rename_i h1 h2 h3
        rw [if_neg h1, if_neg h2, if_neg h3]; rfl
  have e3 : (if c.avcLevel ≠ 0 then [(kCompat, mkStr c.compat)] else []) = opt kCompat (nonzero c.avcLevel (long c.compat)) := by
    unfold nonzero
    by_cases h : c.avcLevel = 0 <;> simp [h, opt, mkStr_long]
  have e4 : (if c.audioName ≠ [] then [(kCodec, mkStr c.audioName)] else []) = opt kCodec (if c.audioName = [] then none else some (long c.audioName)) := by
    by_cases h : c.audioName = [] <;> simp [h, opt, mkStr_long]
  have e5 : (if c.aacProfile ≠ 0 then [(kProfile, mkStr (aacProfile c.aacProfile c.sbr c.ps))] else []) = opt kProfile (nonzero c.aacProfile (.str (aacName c))) := by
    unfold nonzero
    by_cases h : c.aacProfile = 0
    · simp [h, opt]
    · rw [if_pos h, if_neg h]
      unfold aacProfile aacName
      split
      · rename_i h; simp only [h]; rfl
      · rename_i h; simp only [h]; cases c.ps <;> cases c.sbr <;> rfl
      · rename_i h; simp only [h]; rfl
      · rename_i h; simp only [h]; rfl
      · rename_i h; simp only [h]; rfl
      · rename_i h1 h2 h3 h4 h5
        rw [if_neg h1, if_neg h2, if_neg h3, if_neg h4, if_neg h5]; rfl
  have e6 : (if c.chanConf ≠ 0 then [(kChannels, mkNum c.chanConf)] else if c.channels ≠ 0 then [(kChannels, mkNum c.channels)] else []) =
      opt kChannels (if c.chanConf = 0 then nonzero c.channels (.num c.channels) else some (.num c.chanConf)) := by
    unfold nonzero
    by_cases h : c.chanConf = 0
    · by_cases h' : c.channels = 0 <;> simp [h, h', opt, mkNum]
    · simp [h, opt, mkNum]
  have e7 : (if c.sampleRate ≠ 0 then [(kSampleRate, mkNum c.sampleRate)] else []) = opt kSampleRate (nonzero c.sampleRate (.num c.sampleRate)) := by
    unfold nonzero
    by_cases h : c.sampleRate = 0 <;> simp [h, opt, mkNum]
  unfold statMeta
  rw [e1, e2, e3, e4, e5, e6, e7]
  generalize h1 : (if c.videoName = [] then none else some (long c.videoName)) = x1
  generalize h2 : nonzero c.avcProfile (.str (avcName c)) = x2
  generalize h3 : nonzero c.avcLevel (long c.compat) = x3
  generalize h4 : (if c.audioName = [] then none else some (long c.audioName)) = x4
  generalize h5 : nonzero c.aacProfile (.str (aacName c)) = x5
  generalize h6 : (if c.chanConf = 0 then nonzero c.channels (.num c.channels) else some (.num c.chanConf)) = x6
  generalize h7 : nonzero c.sampleRate (.num c.sampleRate) = x7
  constructor
  case width => rfl
  case height => rfl
  case rate => rfl
  case video => rw [h1]; cases x1 <;> cases x2 <;> cases x3 <;> rfl
  case profile => rw [h2]; cases x1 <;> cases x2 <;> cases x3 <;> rfl
  case compat => rw [h3]; cases x1 <;> cases x2 <;> cases x3 <;> rfl
  case audio => rw [h4]; cases x4 <;> cases x5 <;> cases x6 <;> cases x7 <;> rfl
  case aac => rw [h5]; cases x4 <;> cases x5 <;> cases x6 <;> cases x7 <;> rfl
  case channels => rw [h6]; cases x4 <;> cases x5 <;> cases x6 <;> cases x7 <;> rfl
  case sampleRate => rw [h7]; cases x4 <;> cases x5 <;> cases x6 <;> cases x7 <;> rfl

/-- Numbers are not too large. -/
structure SaneBw (b : Bandwidth.Bw) : Prop where
  bytes : b.bytes < 10 ^ 14
  bandwidth : b.bandwidth < 10 ^ 14
  intl : b.intlBytes < 10 ^ 14

theorem saneBw_update {b : Bandwidth.Bw} (h : SaneBw b) (sec : Nat) : (Bandwidth.update b sec 0).bytes = b.bytes ∧ (Bandwidth.update b sec 0).bandwidth < 10 ^ 14 := by
  obtain ⟨h1, h2, h3⟩ := h
  unfold Bandwidth.update
  simp only
  split
  · simp only
    refine ⟨by omega, ?_⟩
    split
    · decide
    · exact Nat.lt_of_le_of_lt (Nat.div_le_self _ _) h3
  · exact ⟨by omega, h2⟩

theorem statBw_says {b : Bandwidth.Bw} (h : SaneBw b) (sec : Nat) : SaysBw sec (some (statBw sec b)) b := by
  obtain ⟨h1, h2⟩ := saneBw_update h sec
  constructor
  · show some (Val.num ((((Bandwidth.update b sec 0).bandwidth * 8 % 2 ^ 64 : Nat)) : Int)) = _
    congr 2
    omega
  · show some (Val.num ((Bandwidth.update b sec 0).bytes : Int)) = _
    rw [h1]

structure SaneCodec (c : Codec) : Prop where
  width : c.width < 10 ^ 15
  height : c.height < 10 ^ 15
  chanConf : c.chanConf < 10 ^ 15
  channels : c.channels < 10 ^ 15
  sampleRate : c.sampleRate < 10 ^ 15

structure SaneClient (c : Client) : Prop where
  number : c.number < 10 ^ 15
  epoch : c.epoch < 10 ^ 15
  dropped : c.dropped < 10 ^ 15
  codec : ∀ x, c.codec = some x → SaneCodec x

structure SaneStream (msec : Nat) (s : Stream) : Prop where
  epoch : s.epoch ≤ msec
  bwIn : SaneBw s.bwIn
  bwVideo : SaneBw s.bwVideo
  bwAudio : SaneBw s.bwAudio
  bwOut : SaneBw s.bwOut
  clients : ∀ c ∈ s.clients, SaneClient c

structure SaneServer (msec : Nat) (s : Server) : Prop where
  streams : ∀ x ∈ s.streams.flatten, SaneStream msec x
  few : viewers (s.streams.flatten.flatMap (·.clients)) < 10 ^ 15

/-- Numbers are of fifteen digits at most; streams began in the past. -/
structure Sane (w : World) : Prop where
  worker : w.worker < 10 ^ 15
  slot : w.slot < 10 ^ 15
  pid : w.pid < 10 ^ 15
  msec : w.msec < 10 ^ 15
  sec : w.sec < 10 ^ 15
  naccepted : w.naccepted < 10 ^ 15
  bwIn : SaneBw w.bwIn
  bwOut : SaneBw w.bwOut
  servers : ∀ s ∈ w.servers.flatten, SaneServer w.msec s

def countsOf (l : List Client) : Counts := ⟨ofKind .rtmp l, ofKind .flv l, ofKind .hls l, ofKind .ts l⟩

theorem countsOf_sum (l : List Client) : (countsOf l).sum = viewers l := viewers_sum l

theorem streamItem_eq (w : World) (s : Stream) : streamItem w s = (.obj ([(kName, mkStr s.name), (kTime, mkNum ((w.msec + 2 ^ 64 - s.epoch) % 2 ^ 64)), (kIn, statBw w.sec s.bwIn),
      (kVideoIn, statBw w.sec s.bwVideo), (kAudioIn, statBw w.sec s.bwAudio), (kOut, statBw w.sec s.bwOut), (kClientArray, .arr (s.clients.map (clientItem w)))] ++
      opt kMeta ((codecOf s.clients none).map statMeta) ++ statCounts (viewers s.clients) (countsOf s.clients) ++ [(kActive, .bool s.active)]), countsOf s.clients) := by
  unfold streamItem
  have e := clientLoop_eq w s.clients [] none {}
  simp only [Nat.zero_add, List.nil_append] at e
  rw [e]
  simp only
  rw [show (⟨ofKind .rtmp s.clients, ofKind .flv s.clients, ofKind .hls s.clients, ofKind .ts s.clients⟩ : Counts) = countsOf s.clients from rfl, countsOf_sum]
  congr 4
  cases codecOf s.clients none <;> rfl

theorem each_map {α β : Type} {R : α → β → Prop} {f : β → α} : ∀ {m : List β}, (∀ b ∈ m, R (f b) b) → Each R (m.map f) m := by
  intro m h
  refine ⟨by simp, fun i a b ha hb => ?_⟩
  rw [List.getElem?_map, hb] at ha
  have e : a = f b := by simpa using ha.symm
  rw [e]
  exact h b (List.mem_of_getElem? hb)

theorem streamItem_says {w : World} (hm : w.msec < 10 ^ 15) {s : Stream} (h : SaneStream w.msec s) : SaysStream w (streamItem w s).1 s := by
  rw [streamItem_eq]
  have hcd : ∀ {c : Client}, s.clients.filter (·.joinedAsPublisher) = [c] → codecOf s.clients none = c.codec := by
    intro c hc; rw [codecOf_filter, hc]; rfl
  have hcn : s.clients.filter (·.joinedAsPublisher) = [] → codecOf s.clients none = none := by
    intro hc; rw [codecOf_filter, hc]; rfl
  generalize codecOf s.clients none = cd at hcd hcn
  have he := h.epoch
  have ht : (w.msec + 2 ^ 64 - s.epoch) % 2 ^ 64 = w.msec - s.epoch := by omega
  rw [ht]
  constructor
  case name => rfl
  case time => rfl
  case bwIn => exact statBw_says h.bwIn w.sec
  case bwVideo => exact statBw_says h.bwVideo w.sec
  case bwAudio => exact statBw_says h.bwAudio w.sec
  case bwOut => exact statBw_says h.bwOut w.sec
  case active => cases cd <;> rfl
  case viewers => constructor <;> cases cd <;> rfl
  case clients => exact ⟨s.clients.map (clientItem w), by cases cd <;> rfl, each_map fun c _ => clientItem_says w c⟩
  case codec =>
    intro c hc
    rw [hcd hc]
    cases c.codec with
    | none => rfl
    | some x => exact statMeta_says x
  case silent =>
    intro hc
    rw [hcn hc]
    rfl

theorem ofKind_append (k : Kind) (a b : List Client) : ofKind k (a ++ b) = ofKind k a + ofKind k b := by simp [ofKind]
theorem viewers_append (a b : List Client) : viewers (a ++ b) = viewers a + viewers b := by simp [viewers]

theorem streamLoop_eq (w : World) : ∀ (l : List Stream) (it : List Val) (t : Nat) (n : Counts), streamLoop w l (it, t, n) =
    (it ++ l.map (fun s => (streamItem w s).1), t + viewers (l.flatMap (·.clients)), ⟨n.rtmp + ofKind .rtmp (l.flatMap (·.clients)), n.flv + ofKind .flv (l.flatMap (·.clients)),
      n.hls + ofKind .hls (l.flatMap (·.clients)), n.ts + ofKind .ts (l.flatMap (·.clients))⟩)
  | [], it, t, n => by simp [streamLoop, ofKind, viewers]
  | s :: l, it, t, n => by
    rw [streamLoop]
    simp only [streamLoop_eq w l, List.flatMap_cons, ofKind_append, viewers_append]
    have e2 : (streamItem w s).2 = countsOf s.clients := by rw [streamItem_eq]
    rw [e2, countsOf_sum]
    simp only [countsOf, List.map_cons, List.append_assoc, List.cons_append, List.nil_append, Nat.add_assoc]

theorem bucketLoop_eq (w : World) : ∀ (l : List (List Stream)) (x : List Val × Nat × Counts), bucketLoop w l x = streamLoop w l.flatten x
  | [], _ => rfl
  | b :: l, x => by
    rw [bucketLoop, bucketLoop_eq w l, List.flatten_cons]
    generalize l.flatten = m
    induction b generalizing x with
    | nil => rfl
    | cons s b ih => rw [List.cons_append, streamLoop, streamLoop, ih]

theorem serverItem_eq (w : World) (s : Server) : serverItem w s = .obj ([(kServerid, mkStr s.id), (kStreamArray, .arr (s.streams.flatten.map fun x => (streamItem w x).1))] ++
    statCounts (viewers (s.streams.flatten.flatMap (·.clients))) (countsOf (s.streams.flatten.flatMap (·.clients)))) := by
  unfold serverItem
  have e := streamLoop_eq w s.streams.flatten [] 0 {}
  simp only [Nat.zero_add, List.nil_append] at e
  simp only [bucketLoop_eq, e]
  rfl

theorem serverItem_says {w : World} (hm : w.msec < 10 ^ 15) {s : Server} (h : SaneServer w.msec s) : SaysServer w (serverItem w s) s := by
  rw [serverItem_eq]
  exact ⟨rfl, ⟨rfl, rfl, rfl, rfl, rfl⟩, _, rfl, each_map fun x hx => streamItem_says hm (h.streams x hx)⟩

theorem serverLoop_eq (w : World) : ∀ (l : List (List Server)) (x : List Val), serverLoop w l x = x ++ l.flatten.map (serverItem w)
  | [], x => by simp [serverLoop]
  | b :: l, x => by
    have e : ∀ (b : List Server) (x : List Val), b.foldl (fun y s => y ++ [serverItem w s]) x = x ++ b.map (serverItem w) := by
      intro b
      induction b with
      | nil => simp
      | cons s b ih => intro x; rw [List.foldl_cons, ih]; simp
    rw [serverLoop, serverLoop_eq w l, e]
    simp

theorem root_says {w : World} (h : Sane w) : Says w (root w) := by
  refine ⟨rfl, rfl, rfl, liveStat w, rfl, rfl, rfl, rfl, rfl, rfl, rfl, statBw_says h.bwIn w.sec, statBw_says h.bwOut w.sec, w.servers.flatten.map (serverItem w), ?_, ?_⟩
  · show some (serverLoop w w.servers []) = _
    rw [serverLoop_eq]; rfl
  · exact each_map fun s hs => serverItem_says h.msec (h.servers s hs)

end Verif.Json
