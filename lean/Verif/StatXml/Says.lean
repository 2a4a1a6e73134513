import Verif.StatXml.Lemmas
/-
Lemmas: what the reader finds in what is written of a session, a stream, a server, a worker.
-/
namespace Verif.StatXml

open Verif.Json (dec cstr)
open Spec

/-! Elements by name -/

def leaf (n t : Bytes) : Node := .el n t []

/-- An element that may be missing -/
def mb (b : Bool) (n t : Bytes) : List Node := if b then [leaf n t] else []

def sel (k : Bytes) (ks : List Node) : List Node := ks.filter (·.name == k)

theorem all_eq (n t k : Bytes) (ks : List Node) : (Node.el n t ks).all k = sel k ks := rfl
theorem sel_app (k : Bytes) (a b : List Node) : sel k (a ++ b) = sel k a ++ sel k b := List.filter_append ..
theorem sel_nil (k : Bytes) : sel k [] = [] := rfl
theorem sel_el_eq (k t : Bytes) (ks : List Node) : sel k [.el k t ks] = [.el k t ks] := by simp [sel, Node.name]
theorem sel_el_ne {n k : Bytes} (h : n ≠ k) (t : Bytes) (ks : List Node) : sel k [.el n t ks] = [] := by simp [sel, Node.name, h]
theorem sel_leaf_eq (k t : Bytes) : sel k [leaf k t] = [leaf k t] := sel_el_eq ..
theorem sel_leaf_ne {n k : Bytes} (h : n ≠ k) (t : Bytes) : sel k [leaf n t] = [] := sel_el_ne h ..
theorem sel_mb_eq (b : Bool) (k t : Bytes) : sel k (mb b k t) = mb b k t := by
  unfold mb; cases b
  · rfl
  · exact sel_leaf_eq ..
theorem sel_mb_ne {n k : Bytes} (h : n ≠ k) (b : Bool) (t : Bytes) : sel k (mb b n t) = [] := by
  unfold mb; cases b
  · rfl
  · exact sel_leaf_ne h ..

theorem sel_same {k : Bytes} {ks : List Node} (h : ∀ x ∈ ks, x.name = k) : sel k ks = ks := by
  unfold sel
  rw [List.filter_eq_self]
  intro x hx
  rw [h x hx]; exact beq_self_eq_true k

theorem sel_other {k n : Bytes} {ks : List Node} (h : ∀ x ∈ ks, x.name = n) (hn : n ≠ k) : sel k ks = [] := by
  unfold sel
  rw [List.filter_eq_nil_iff]
  intro x hx
  rw [h x hx]; simpa using hn

theorem one_of {n : Node} {k : Bytes} {x : Node} (h : n.all k = [x]) : n.one k = some x := by simp [Node.one, h]
theorem val_of {n : Node} {k t : Bytes} (h : n.all k = [leaf k t]) : n.val k = some t := by simp [Node.val, one_of h, leaf, Node.kids, Node.text]
theorem val_mb {n : Node} {k t : Bytes} {b : Bool} (h : n.all k = mb b k t) : n.val k = if b then some t else none := by
  cases b
  · have h : n.all k = [] := h
    simp [Node.val, Node.one, h]
  · exact val_of h
theorem nat_of {n : Node} {k : Bytes} {v : Nat} (h : n.all k = [leaf k (dec v)]) : n.nat k = some v := by simp [Node.nat, val_of h, natOf_dec]
theorem nat_mb {n : Node} {k : Bytes} {v : Nat} {b : Bool} (h : n.all k = mb b k (dec v)) : n.nat k = if b then some v else none := by
  unfold Node.nat
  rw [val_mb h]
  cases b
  · rfl
  · exact natOf_dec v
theorem int_of {n : Node} {k : Bytes} {v : Int} (h : n.all k = [leaf k (decI v)]) : n.int k = some v := by simp [Node.int, val_of h, intOf_decI]
theorem flag_of {n : Node} {k : Bytes} {b : Bool} (h : n.all k = mb b k []) : (n.all k).isEmpty = !b := by rw [h]; cases b <;> rfl

/-- Elements are found by deciding which names are the same. -/
macro "sel_tac" : tactic => `(tactic| (simp (decide := true) only [all_eq, sel_app, sel_nil, sel_el_eq, sel_el_ne, sel_leaf_eq, sel_leaf_ne, sel_mb_eq, sel_mb_ne, List.nil_append, List.append_nil]))

/-! Bytes of elements -/

def leafB (n t : Bytes) : Bytes := o n ++ t ++ c n
def mbB (b : Bool) (n t : Bytes) : Bytes := if b then leafB n t else []

theorem lit_bytes (l : Bytes) : (lit l).bytes = l := rfl
theorem num_bytes (k : Nat) (l : Bytes) : (num k l).bytes = l.take k := rfl

theorem flat_mb (b : Bool) (n : Bytes) (x : Write) : flat (if b then [lit (o n), x, lit (c n)] else []) = mbB b n x.bytes := by
  cases b
  · rfl
  · simp [flat, mbB, leafB, lit_bytes]

theorem Adds.leafB {n t s : Bytes} (hn : Name n) (h : Adds s t []) : Adds (StatXml.leafB n s) [] [StatXml.leaf n t] := Adds.leaf hn h

theorem Adds.mbB {n t s : Bytes} (b : Bool) (hn : Name n) (h : b = true → Adds s t []) : Adds (StatXml.mbB b n s) [] (mb b n t) := by
  cases b
  · exact Adds.nil
  · exact Adds.leafB hn (h rfl)

theorem Adds.flag {n : Bytes} (b : Bool) (hn : Name n) : Adds (if b then e n else []) [] (mb b n []) := by
  cases b
  · exact Adds.nil
  · exact Adds.empty hn

/-- Character data does not matter -/
def Holds (b : Bytes) (ks : List Node) : Prop := ∃ t, Adds b t ks

theorem Holds.nil : Holds [] [] := ⟨_, Adds.nil⟩
theorem Holds.app {b1 b2 : Bytes} {k1 k2 : List Node} (h1 : Holds b1 k1) (h2 : Holds b2 k2) : Holds (b1 ++ b2) (k1 ++ k2) := by
  obtain ⟨t1, h1⟩ := h1
  obtain ⟨t2, h2⟩ := h2
  exact ⟨_, h1.app h2⟩
theorem Holds.nl : Holds nl [] := ⟨_, Adds.nl⟩
theorem Holds.of {b t : Bytes} {ks : List Node} (h : Adds b t ks) : Holds b ks := ⟨t, h⟩

/-! Numbers that are told right -/

theorem diff_eq {a b : Nat} (ha : a < 2 ^ 63) (hb : b < 2 ^ 63) : diff a b = (a : Int) - b := by
  unfold diff signed
  rw [Nat.mod_eq_of_lt (by omega : a < 2 ^ 64), Nat.mod_eq_of_lt (by omega : b < 2 ^ 64)]
  split <;> omega

theorem signed32_range (n : UInt32) : -(2 ^ 31) ≤ signed32 n ∧ signed32 n < 2 ^ 31 := by
  have := n.toNat_lt
  unfold signed32
  split <;> omega

theorem signed32_sub {a b : UInt32} (h : ((a.toNat : Int) - b.toNat).natAbs < 2 ^ 31) : signed32 (a - b) = (a.toNat : Int) - b.toNat := by
  have h1 := a.toNat_lt
  have h2 := b.toNat_lt
  unfold signed32
  rw [UInt32.toNat_sub]
  split <;> omega

/-! A session -/

structure SaneClient (w : World) (x : Client) : Prop where
  number : x.number < 2 ^ 64
  dropped : x.dropped < 2 ^ 64
  epoch : x.epoch < 2 ^ 63
  now : w.msec < 2 ^ 63

def clientKids (w : World) (x : Client) : List Node :=
  [leaf nId (dec x.number)] ++ [leaf nAddress (shown x.addr)] ++ [leaf nRemoteAddress (shown x.remote)] ++ [leaf nTime (decI ((w.msec : Int) - x.epoch))] ++
  mb (x.flashver.length != 0) nFlashver (shown x.flashver) ++ mb (x.pageUrl.length != 0) nPageurl (shown x.pageUrl) ++ mb (x.swfUrl.length != 0) nSwfurl (shown x.swfUrl) ++
  [leaf nDropped (dec x.dropped)] ++ [leaf nAvsync (decI (signed32 (x.audioTs - x.videoTs)))] ++ [leaf nTimestamp (decI (signed32 x.currentTime))] ++ mb x.publishing nPublishing [] ++ mb x.active nActive []

theorem ite_bne {α : Type} (l : Bytes) (a b : α) : (if l.length ≠ 0 then a else b) = if (l.length != 0) = true then a else b := by
  by_cases h : l.length = 0 <;> simp [h]

theorem client_bytes (w : World) (x : Client) (h : SaneClient w x) :
    flat (clientWrites w x) = o nClient ++ (leafB nId (dec x.number) ++ leafB nAddress (esc x.addr).bytes ++ leafB nRemoteAddress (esc x.remote).bytes ++ leafB nTime (decI ((w.msec : Int) - x.epoch)) ++
      mbB (x.flashver.length != 0) nFlashver (esc x.flashver).bytes ++ mbB (x.pageUrl.length != 0) nPageurl (esc x.pageUrl).bytes ++ mbB (x.swfUrl.length != 0) nSwfurl (esc x.swfUrl).bytes ++
      leafB nDropped (dec x.dropped) ++ leafB nAvsync (decI (signed32 (x.audioTs - x.videoTs))) ++ leafB nTimestamp (decI (signed32 x.currentTime)) ++
      (if x.publishing then e nPublishing else []) ++ (if x.active then e nActive else [])) ++ c nClient ++ nl := by
  have hf : ∀ (b : Bool) (n : Bytes), flat (if b then [lit (e n)] else []) = if b then e n else [] := by intro b n; cases b <;> simp [flat, lit_bytes]
  have hd := diff_eq h.now h.epoch
  have hr := signed32_range
  unfold clientWrites statClient
  rw [ite_bne, ite_bne, ite_bne, hd]
  simp only [flat_append, flat_cons, flat_nil, lit_bytes, num_bytes, flat_mb, hf, dec_fits h.number, dec_fits h.dropped, decI_fits32 (hr _).1 (hr _).2,
    decI_fits (n := (w.msec : Int) - x.epoch) (by have := h.epoch; omega) (by have := h.now; omega), leafB, List.append_assoc, List.nil_append, List.append_nil]

theorem client_adds (w : World) (x : Client) (h : SaneClient w x) : Holds (flat (clientWrites w x)) [.el nClient [] (clientKids w x)] := by
  rw [client_bytes w x h]
  have hin := ((((((((((((Adds.leafB (Name.of (n := nId) rfl) (Adds.text (dec_text x.number))).app (Adds.leafB (Name.of (n := nAddress) rfl) (Adds.esc x.addr))).app
    (Adds.leafB (Name.of (n := nRemoteAddress) rfl) (Adds.esc x.remote))).app (Adds.leafB (Name.of (n := nTime) rfl) (Adds.text (decI_text ((w.msec : Int) - x.epoch))))).app
    (Adds.mbB (x.flashver.length != 0) (Name.of (n := nFlashver) rfl) fun _ => Adds.esc x.flashver)).app (Adds.mbB (x.pageUrl.length != 0) (Name.of (n := nPageurl) rfl) fun _ => Adds.esc x.pageUrl)).app
    (Adds.mbB (x.swfUrl.length != 0) (Name.of (n := nSwfurl) rfl) fun _ => Adds.esc x.swfUrl)).app (Adds.leafB (Name.of (n := nDropped) rfl) (Adds.text (dec_text x.dropped)))).app
    (Adds.leafB (Name.of (n := nAvsync) rfl) (Adds.text (decI_text (signed32 (x.audioTs - x.videoTs)))))).app (Adds.leafB (Name.of (n := nTimestamp) rfl) (Adds.text (decI_text (signed32 x.currentTime))))).app
    (Adds.flag x.publishing (Name.of (n := nPublishing) rfl))).app (Adds.flag x.active (Name.of (n := nActive) rfl)))
  have := (Holds.of (Adds.el (Name.of (n := nClient) rfl) hin)).app Holds.nl
  rw [List.append_nil] at this
  exact this

theorem maybe_eq (s : Bytes) : (if (s.length != 0) = true then some (shown s) else none) = maybe s := by
  unfold maybe; cases s <;> simp

theorem client_says (w : World) (x : Client) : SaysClient w (.el nClient [] (clientKids w x)) x where
  id := nat_of (by unfold clientKids; sel_tac)
  address := val_of (by unfold clientKids; sel_tac)
  remote := val_of (by unfold clientKids; sel_tac)
  time := int_of (by unfold clientKids; sel_tac)
  flashver := (val_mb (by unfold clientKids; sel_tac)).trans (maybe_eq _)
  pageUrl := (val_mb (by unfold clientKids; sel_tac)).trans (maybe_eq _)
  swfUrl := (val_mb (by unfold clientKids; sel_tac)).trans (maybe_eq _)
  dropped := nat_of (by unfold clientKids; sel_tac)
  avsync := fun h => by
    rw [← signed32_sub h]
    exact int_of (by unfold clientKids; sel_tac)
  timestamp := fun h => by
    have : decI (signed32 x.currentTime) = dec x.currentTime.toNat := by
      unfold signed32 decI
      rw [if_pos h, if_neg (by omega), Int.natAbs_natCast]
    refine nat_of (v := x.currentTime.toNat) ?_
    rw [← this]
    unfold clientKids; sel_tac
  publishing := flag_of (by unfold clientKids; sel_tac)
  active := flag_of (by unfold clientKids; sel_tac)

/-! Codecs -/

structure SaneCodec (x : Codec) : Prop where
  width : x.width < 2 ^ 64
  height : x.height < 2 ^ 64
  rate : x.rate.length ≤ 20 ∧ ∀ b ∈ x.rate, isText b = true
  videoName : 0 ∉ x.videoName
  compat : x.avcCompat < 2 ^ 64
  level : x.level.length ≤ 20 ∧ ∀ b ∈ x.level, isText b = true
  audioName : 0 ∉ x.audioName
  chanConf : x.chanConf < 2 ^ 64
  channels : x.channels < 2 ^ 64
  sampleRate : x.sampleRate < 2 ^ 64

theorem cstr_id {l : Bytes} (h : 0 ∉ l) : cstr l = l := by
  unfold cstr
  induction l with
  | nil => rfl
  | cons x l ih =>
    simp only [List.mem_cons, not_or] at h
    have : x ≠ 0 := fun e => h.1 e.symm
    rw [List.takeWhile_cons, ih h.2]
    simp [this]

theorem avc_eq (x : Codec) : avcProfile x.avcProfile = avcName x := by
  unfold avcProfile avcName
  split <;> simp_all

theorem aac_eq (x : Codec) : aacProfile x.aacProfile x.sbr x.ps = aacName x := by
  unfold aacProfile aacName
  split <;> simp_all

theorem avc_text (x : Codec) : ∀ b ∈ avcName x, isText b = true := by
  unfold avcName
  repeat' split
  all_goals decide

theorem aac_text (x : Codec) : ∀ b ∈ aacName x, isText b = true := by
  unfold aacName
  repeat' split
  all_goals decide

def videoKids (x : Codec) : List Node :=
  [leaf nWidth (dec x.width)] ++ [leaf nHeight (dec x.height)] ++ [leaf nFrameRate x.rate] ++ mb (x.videoName.length != 0) nCodec (shown x.videoName) ++ mb (x.avcProfile != 0) nProfile (avcName x) ++
  mb (x.avcLevel != 0) nCompat (dec x.avcCompat) ++ mb (x.avcLevel != 0) nLevel x.level

def channelsOf (x : Codec) : Nat := if x.chanConf = 0 then x.channels else x.chanConf

def audioKids (x : Codec) : List Node :=
  mb (x.audioName.length != 0) nCodec (shown x.audioName) ++ mb (x.aacProfile != 0) nProfile (aacName x) ++ mb (channelsOf x != 0) nChannels (dec (channelsOf x)) ++
  mb (x.sampleRate != 0) nSampleRate (dec x.sampleRate)

theorem ite_ne {α : Type} (n : Nat) (a b : α) : (if n ≠ 0 then a else b) = if (n != 0) = true then a else b := by
  by_cases h : n = 0 <;> simp [h]

theorem ite_nil {α : Type} (l : Bytes) (a b : α) : (if l ≠ [] then a else b) = if (l.length != 0) = true then a else b := by
  cases l <;> simp

theorem escC_bytes {l : Bytes} (h : 0 ∉ l) : (escC l).bytes = (esc l).bytes := by
  unfold escC esc; rw [cstr_id h]

theorem video_adds (x : Codec) (h : SaneCodec x) : Adds (flat (videoWrites x)) [] [.el nVideo [] (videoKids x)] := by
  have e : flat (videoWrites x) = o nVideo ++ (leafB nWidth (dec x.width) ++ leafB nHeight (dec x.height) ++ leafB nFrameRate x.rate ++ mbB (x.videoName.length != 0) nCodec (esc x.videoName).bytes ++
      mbB (x.avcProfile != 0) nProfile (avcName x) ++ mbB (x.avcLevel != 0) nCompat (dec x.avcCompat) ++ mbB (x.avcLevel != 0) nLevel x.level) ++ c nVideo := by
    unfold videoWrites
    rw [ite_nil, ite_ne, ite_ne, ite_ne]
    simp only [flat_append, flat_cons, flat_nil, lit_bytes, num_bytes, flat_mb, escC_bytes h.videoName, avc_eq, dec_fits h.width, dec_fits h.height, dec_fits h.compat,
      List.take_of_length_le (show x.rate.length ≤ INT_LEN from h.rate.1), List.take_of_length_le (show x.level.length ≤ INT_LEN from h.level.1), leafB, List.append_assoc, List.nil_append, List.append_nil]
  rw [e]
  have hin := (((((((Adds.leafB (Name.of (n := nWidth) rfl) (Adds.text (dec_text x.width))).app (Adds.leafB (Name.of (n := nHeight) rfl) (Adds.text (dec_text x.height)))).app
    (Adds.leafB (Name.of (n := nFrameRate) rfl) (Adds.text h.rate.2))).app (Adds.mbB (x.videoName.length != 0) (Name.of (n := nCodec) rfl) fun _ => Adds.esc x.videoName)).app
    (Adds.mbB (x.avcProfile != 0) (Name.of (n := nProfile) rfl) fun _ => Adds.text (avc_text x))).app (Adds.mbB (x.avcLevel != 0) (Name.of (n := nCompat) rfl) fun _ => Adds.text (dec_text x.avcCompat))).app
    (Adds.mbB (x.avcLevel != 0) (Name.of (n := nLevel) rfl) fun _ => Adds.text h.level.2))
  exact Adds.el (Name.of (n := nVideo) rfl) hin

theorem audio_adds (x : Codec) (h : SaneCodec x) : Adds (flat (audioWrites x)) [] [.el nAudio [] (audioKids x)] := by
  have hch : flat (if x.chanConf ≠ 0 then [lit (o nChannels), num INT_LEN (dec x.chanConf), lit (c nChannels)]
      else if x.channels ≠ 0 then [lit (o nChannels), num INT_LEN (dec x.channels), lit (c nChannels)] else []) = mbB (channelsOf x != 0) nChannels (dec (channelsOf x)) := by
    unfold channelsOf
    by_cases hc : x.chanConf = 0
    · simp only [hc, ne_eq, not_true_eq_false, ↓reduceIte]
      have := flat_mb (x.channels != 0) nChannels (num INT_LEN (dec x.channels))
      rw [num_bytes, dec_fits h.channels] at this
      rw [← this, ← ite_ne]
    · simp only [hc, ne_eq, not_false_eq_true, ↓reduceIte]
      have := flat_mb (x.chanConf != 0) nChannels (num INT_LEN (dec x.chanConf))
      rw [num_bytes, dec_fits h.chanConf] at this
      rw [← this, ← ite_ne, if_pos hc]
  have e : flat (audioWrites x) = o nAudio ++ (mbB (x.audioName.length != 0) nCodec (esc x.audioName).bytes ++ mbB (x.aacProfile != 0) nProfile (aacName x) ++
      mbB (channelsOf x != 0) nChannels (dec (channelsOf x)) ++ mbB (x.sampleRate != 0) nSampleRate (dec x.sampleRate)) ++ c nAudio := by
    unfold audioWrites
    rw [flat_append, flat_append, flat_append, hch, ite_nil, ite_ne, ite_ne]
    simp only [flat_append, flat_cons, flat_nil, lit_bytes, num_bytes, flat_mb, escC_bytes h.audioName, aac_eq, dec_fits h.sampleRate, List.append_assoc, List.nil_append, List.append_nil]
  rw [e]
  have hin := ((((Adds.mbB (x.audioName.length != 0) (Name.of (n := nCodec) rfl) fun _ => Adds.esc x.audioName).app
    (Adds.mbB (x.aacProfile != 0) (Name.of (n := nProfile) rfl) fun _ => Adds.text (aac_text x))).app (Adds.mbB (channelsOf x != 0) (Name.of (n := nChannels) rfl) fun _ => Adds.text (dec_text (channelsOf x)))).app
    (Adds.mbB (x.sampleRate != 0) (Name.of (n := nSampleRate) rfl) fun _ => Adds.text (dec_text x.sampleRate)))
  exact Adds.el (Name.of (n := nAudio) rfl) hin

def metaNode (x : Codec) : Node := .el nMeta [] ([.el nVideo [] (videoKids x)] ++ [.el nAudio [] (audioKids x)])

theorem meta_adds (x : Codec) (h : SaneCodec x) : Holds (flat (metaWrites x)) [metaNode x] := by
  have e : flat (metaWrites x) = o nMeta ++ (flat (videoWrites x) ++ flat (audioWrites x)) ++ c nMeta ++ nl := by
    unfold metaWrites
    simp only [flat_append, flat_cons, flat_nil, lit_bytes, List.append_assoc, List.append_nil]
  rw [e]
  have := (Holds.of (Adds.el (Name.of (n := nMeta) rfl) ((video_adds x h).app (audio_adds x h)))).app Holds.nl
  rw [List.append_nil] at this
  exact this

theorem nonzero_eq {α : Type} (n : Nat) (v : α) : (if (n != 0) = true then some v else none) = nonzero n v := by
  unfold nonzero; by_cases h : n = 0 <;> simp [h]

theorem meta_says (x : Codec) : SaysCodec (metaNode x) x where
  video := ⟨.el nVideo [] (videoKids x), one_of (by unfold metaNode; sel_tac), {
    width := nat_of (by unfold videoKids; sel_tac)
    height := nat_of (by unfold videoKids; sel_tac)
    rate := val_of (by unfold videoKids; sel_tac)
    codec := (val_mb (by unfold videoKids; sel_tac)).trans (maybe_eq _)
    profile := (val_mb (by unfold videoKids; sel_tac)).trans (nonzero_eq _ _)
    compat := (nat_mb (by unfold videoKids; sel_tac)).trans (nonzero_eq _ _)
    level := (val_mb (by unfold videoKids; sel_tac)).trans (nonzero_eq _ _) }⟩
  audio := ⟨.el nAudio [] (audioKids x), one_of (by unfold metaNode; sel_tac), {
    codec := (val_mb (by unfold audioKids; sel_tac)).trans (maybe_eq _)
    profile := (val_mb (by unfold audioKids; sel_tac)).trans (nonzero_eq _ _)
    channels := by
      refine (nat_mb (v := channelsOf x) (b := channelsOf x != 0) (by unfold audioKids; sel_tac)).trans ?_
      rw [nonzero_eq]
      unfold channelsOf nonzero
      by_cases hc : x.chanConf = 0 <;> simp [hc]
    sampleRate := (nat_mb (by unfold audioKids; sel_tac)).trans (nonzero_eq _ _) }⟩

end Verif.StatXml
