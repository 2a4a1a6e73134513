import Verif.StatXml.Says
/-
Lemmas: streams, servers and the worker.
-/
namespace Verif.StatXml

open Verif.Json (dec cstr)
open Spec

/-! Rates -/

structure SaneBw (sec : Nat) (b : Bandwidth.Bw) : Prop where
  rate : rate sec b < 2 ^ 64
  bytes : b.bytes < 2 ^ 64

theorem update_bytes {b : Bandwidth.Bw} (h : b.bytes < 2 ^ 64) (sec : Nat) : (Bandwidth.update b sec 0).bytes = b.bytes := by
  unfold Bandwidth.update
  simp only
  split <;> exact Nat.mod_eq_of_lt h

/-- `bw_`, `bytes_` -/
def bwW : Bytes := [0x62, 0x77, 0x5f]
def bytesW : Bytes := [0x62, 0x79, 0x74, 0x65, 0x73, 0x5f]

theorem bw_bytes {sec : Nat} {b : Bandwidth.Bw} (h : SaneBw sec b) (name : Bytes) (all : Bool) :
    flat (statBw sec b name all) = leafB (bwW ++ name) (dec (rate sec b)) ++ nl ++ if all then leafB (bytesW ++ name) (dec b.bytes) ++ nl else [] := by
  have hr : (Bandwidth.update b sec 0).bandwidth * 8 % 2 ^ 64 = rate sec b := by
    have := h.rate
    unfold rate at this ⊢
    omega
  have l1 := dec_length (n := rate sec b) 19 (Nat.lt_of_lt_of_le h.rate (by decide))
  have l2 := dec_length (n := b.bytes) 19 (Nat.lt_of_lt_of_le h.bytes (by decide))
  unfold statBw
  simp only
  rw [hr, update_bytes h.bytes]
  generalize dec (rate sec b) = x at l1 ⊢
  generalize dec b.bytes = y at l2 ⊢
  have e1 : (num (20 + 9) (0x3e :: x ++ [0x3c, 0x2f, 0x62, 0x77, 0x5f])).bytes = 0x3e :: x ++ [0x3c, 0x2f, 0x62, 0x77, 0x5f] := by
    rw [num_bytes]
    refine List.take_of_length_le ?_
    simp only [List.length_append, List.length_cons, List.length_nil]; omega
  have e2 : (num (20 + 9) (0x3e :: y ++ [0x3c, 0x2f, 0x62, 0x79, 0x74, 0x65, 0x73, 0x5f])).bytes = 0x3e :: y ++ [0x3c, 0x2f, 0x62, 0x79, 0x74, 0x65, 0x73, 0x5f] := by
    rw [num_bytes]
    refine List.take_of_length_le ?_
    simp only [List.length_append, List.length_cons, List.length_nil]; omega
  cases all
  · simp only [flat_append, flat_cons, flat_nil, lit_bytes, e1, Bool.false_eq_true, ↓reduceIte, leafB, o, c, bwW]
    simp
  · simp only [flat_append, flat_cons, flat_nil, lit_bytes, e1, e2, ↓reduceIte, leafB, o, c, bwW, bytesW]
    simp

theorem bw_all {sec : Nat} {b : Bandwidth.Bw} (h : SaneBw sec b) {name : Bytes} (h1 : nameB (bwW ++ name) = true) (h2 : nameB (bytesW ++ name) = true) :
    Holds (flat (statBw sec b name true)) ([leaf (bwW ++ name) (dec (rate sec b))] ++ [leaf (bytesW ++ name) (dec b.bytes)]) := by
  rw [bw_bytes h]
  have := (((Holds.of (Adds.leafB (Name.of h1) (Adds.text (dec_text (rate sec b))))).app Holds.nl).app ((Holds.of (Adds.leafB (Name.of h2) (Adds.text (dec_text b.bytes)))).app Holds.nl))
  rw [List.append_nil, List.append_nil] at this
  exact this

theorem bw_rate {sec : Nat} {b : Bandwidth.Bw} (h : SaneBw sec b) {name : Bytes} (h1 : nameB (bwW ++ name) = true) :
    Holds (flat (statBw sec b name false)) [leaf (bwW ++ name) (dec (rate sec b))] := by
  rw [bw_bytes h]
  simp only [Bool.false_eq_true, ↓reduceIte]
  have := ((Holds.of (Adds.leafB (Name.of h1) (Adds.text (dec_text (rate sec b))))).app Holds.nl).app Holds.nil
  exact this

/-! Sessions of a stream -/

def lastCodec (l : List Client) (cd : Option Codec) : Option Codec := l.foldl (fun cd x => if x.publishing then x.codec else cd) cd

theorem clientLoop_eq (listed : Bool) (w : World) : ∀ (l : List Client) (ws : List Write) (n : Nat) (cd : Option Codec),
    clientLoop listed w l (ws, n, cd) = (ws ++ l.flatMap (fun x => if listed then clientWrites w x else []), n + l.length, lastCodec l cd)
  | [], ws, n, cd => by simp [clientLoop, lastCodec]
  | x :: l, ws, n, cd => by
    rw [clientLoop, clientLoop_eq listed w l]
    simp [lastCodec, Nat.add_assoc, Nat.add_comm 1]

theorem lastCodec_filter : ∀ (l : List Client) (cd : Option Codec), lastCodec l cd = lastCodec (l.filter (·.publishing)) cd
  | [], cd => rfl
  | x :: l, cd => by
    have ih := lastCodec_filter l
    by_cases hx : x.publishing = true
    · rw [List.filter_cons_of_pos hx]
      show lastCodec l _ = lastCodec _ _
      exact ih _
    · rw [List.filter_cons_of_neg hx]
      show lastCodec l (if x.publishing = true then _ else _) = _
      rw [if_neg hx]
      exact ih _

theorem clients_hold (w : World) : ∀ (l : List Client), (∀ x ∈ l, SaneClient w x) → Holds (flat (l.flatMap (clientWrites w))) (l.map fun x => .el nClient [] (clientKids w x))
  | [], _ => Holds.nil
  | x :: l, h => by
    rw [List.flatMap_cons, flat_append]
    exact (client_adds w x (h x (by simp))).app (clients_hold w l fun y hy => h y (by simp [hy]))

theorem clients_each (w : World) : ∀ (l : List Client), Each (SaysClient w) (l.map fun x => .el nClient [] (clientKids w x)) l
  | [] => trivial
  | x :: l => ⟨client_says w x, clients_each w l⟩

/-! The name of a stream -/

theorem last_split {x : UInt8} : ∀ {l : Bytes}, x ∈ l → ∃ a b, l = a ++ x :: b ∧ x ∉ b
  | [], h => by cases h
  | y :: l, h => by
    by_cases hl : x ∈ l
    · obtain ⟨a, b, rfl, hb⟩ := last_split hl
      exact ⟨y :: a, b, rfl, hb⟩
    · rcases List.mem_cons.mp h with rfl | h
      · exact ⟨[], l, rfl, hl⟩
      · exact absurd h hl

theorem nameLoop_eq (a b : Bytes) (ha : a ≠ []) (hb : 0x2f ∉ b) : ∀ j, nameLoop (a ++ 0x2f :: b) (a.length + j) = a.length
  | 0 => by
    cases a with
    | nil => exact absurd rfl ha
    | cons y a =>
      show nameLoop _ (a.length + 1) = a.length + 1
      rw [nameLoop, if_pos (by simp)]
  | j + 1 => by
    rw [← Nat.add_assoc, nameLoop, if_neg, nameLoop_eq a b ha hb j]
    intro h
    rw [List.getElem?_append_right (by omega)] at h
    have he : a.length + j + 1 - a.length = j + 1 := by omega
    rw [he, List.getElem?_cons_succ] at h
    exact hb (List.mem_of_getElem? h)

theorem takeWhile_all {p : UInt8 → Bool} : ∀ {l : Bytes} {r : Bytes} {x : UInt8}, (∀ b ∈ l, p b = true) → p x = false → (l ++ x :: r).takeWhile p = l
  | [], r, x, _, hx => by simp [hx]
  | y :: l, r, x, h, hx => by
    rw [List.cons_append, List.takeWhile_cons, h y (by simp), if_pos rfl, takeWhile_all (fun b hb => h b (by simp [hb])) hx]

theorem streamName_eq {s : Bytes} (h0 : 0 ∉ s) (h : 0x2f ∈ s.drop 1) : streamName s = lastPart s := by
  obtain ⟨y, l, rfl⟩ : ∃ y l, s = y :: l := by
    cases s with
    | nil => cases h
    | cons y l => exact ⟨y, l, rfl⟩
  obtain ⟨a, b, e, hb⟩ := last_split (show 0x2f ∈ l from h)
  subst e
  have e : y :: (a ++ 0x2f :: b) = (y :: a) ++ 0x2f :: b := rfl
  unfold streamName lastPart
  rw [cstr_id h0, e]
  have hl : ((y :: a) ++ 0x2f :: b).length = (y :: a).length + (b.length + 1) := by simp; omega
  simp only
  rw [hl, nameLoop_eq (y :: a) b (by simp) hb, if_pos (by simp), List.reverse_append, List.reverse_cons, List.append_assoc, List.singleton_append, takeWhile_all, List.reverse_reverse]
  · rw [List.drop_append]
    simp
  · intro x hx
    rw [List.mem_reverse] at hx
    have : x ≠ 0x2f := fun e => hb (e ▸ hx)
    simpa using this
  · rfl

/-! A stream -/

structure SaneStream (w : World) (s : Stream) : Prop where
  name : 0 ∉ s.name
  now : w.msec < 2 ^ 63
  epoch : s.epoch < 2 ^ 63
  bwIn : SaneBw w.sec s.bwIn
  bwOut : SaneBw w.sec s.bwOut
  bwAudio : SaneBw w.sec s.bwAudio
  bwVideo : SaneBw w.sec s.bwVideo
  clients : ∀ x ∈ s.clients, SaneClient w x
  count : s.clients.length < 2 ^ 64
  codecs : ∀ x ∈ s.clients, ∀ y, x.codec = some y → SaneCodec y

theorem lastCodec_mem : ∀ (l : List Client) (cd : Option Codec) (y : Codec), lastCodec l cd = some y → cd = some y ∨ ∃ x ∈ l, x.codec = some y
  | [], cd, y, h => .inl h
  | x :: l, cd, y, h => by
    rcases lastCodec_mem l _ y h with h | ⟨z, hz, h⟩
    · have h : (if x.publishing = true then x.codec else cd) = some y := h
      by_cases hx : x.publishing = true
      · rw [if_pos hx] at h; exact .inr ⟨x, by simp, h⟩
      · rw [if_neg hx] at h; exact .inl h
    · exact .inr ⟨z, by simp [hz], h⟩

def streamKids (listed : Bool) (w : World) (s : Stream) : List Node :=
  [leaf nName (shown (streamName s.name))] ++ [leaf nTime (decI ((w.msec : Int) - s.epoch))] ++ ([leaf nBwIn (dec (rate w.sec s.bwIn))] ++ [leaf nBytesIn (dec s.bwIn.bytes)]) ++
  ([leaf nBwOut (dec (rate w.sec s.bwOut))] ++ [leaf nBytesOut (dec s.bwOut.bytes)]) ++ [leaf nBwAudio (dec (rate w.sec s.bwAudio))] ++ [leaf nBwVideo (dec (rate w.sec s.bwVideo))] ++
  (if listed then s.clients.map fun x => Node.el nClient [] (clientKids w x) else []) ++ ((lastCodec s.clients none).map metaNode).toList ++ [leaf nNclients (dec s.clients.length)] ++
  mb s.publishing nPublishing [] ++ mb s.active nActive []

theorem flagNl (b : Bool) (n : Bytes) (hn : nameB n = true) : Holds (flat (if b then [lit (e n ++ nl)] else [])) (mb b n []) := by
  cases b
  · exact Holds.nil
  · have := (Holds.of (Adds.empty (Name.of hn))).app Holds.nl
    have e1 : flat (if true = true then [lit (e n ++ nl)] else []) = e n ++ nl := by simp [flat, lit_bytes]
    rw [e1]
    exact this

theorem stream_count (listed : Bool) (w : World) (s : Stream) : (streamWrites listed w s).2 = s.clients.length := by
  simp [streamWrites, clientLoop_eq]

theorem stream_holds (listed : Bool) (w : World) (s : Stream) (h : SaneStream w s) : ∃ t, Holds (flat (streamWrites listed w s).1) [.el nStream t (streamKids listed w s)] := by
  have hcl : Holds (flat (s.clients.flatMap fun x => if listed then clientWrites w x else [])) (if listed then s.clients.map fun x => Node.el nClient [] (clientKids w x) else []) := by
    cases listed
    · simp only [Bool.false_eq_true, ↓reduceIte]
      have : (s.clients.flatMap fun _ => ([] : List Write)) = [] := by simp
      rw [this]
      exact Holds.nil
    · exact clients_hold w s.clients h.clients
  have hme : Holds (flat (match lastCodec s.clients none with
      | some y => metaWrites y
      | none => [])) ((lastCodec s.clients none).map metaNode).toList := by
    cases hc : lastCodec s.clients none with
    | none => exact Holds.nil
    | some y =>
      rcases lastCodec_mem _ _ _ hc with h0 | ⟨x, hx, hy⟩
      · cases h0
      · exact meta_adds y (h.codecs x hx y hy)
  have e : flat (streamWrites listed w s).1 = o nStream ++ (nl ++ (leafB nName (esc (streamName s.name)).bytes ++ nl ++ leafB nTime (decI ((w.msec : Int) - s.epoch)) ++
      flat (statBw w.sec s.bwIn sIn true) ++ flat (statBw w.sec s.bwOut sOut true) ++ flat (statBw w.sec s.bwAudio sAudio false) ++ flat (statBw w.sec s.bwVideo sVideo false) ++
      flat (s.clients.flatMap fun x => if listed then clientWrites w x else []) ++ flat (match lastCodec s.clients none with
      | some y => metaWrites y
      | none => []) ++ (leafB nNclients (dec s.clients.length) ++ nl) ++ flat (if s.publishing then [lit (e nPublishing ++ nl)] else []) ++ flat (if s.active then [lit (e nActive ++ nl)] else []))) ++ c nStream ++ nl := by
    unfold streamWrites
    simp only [clientLoop_eq, List.nil_append, Nat.zero_add]
    simp only [flat_append, flat_cons, flat_nil, lit_bytes, num_bytes, diff_eq h.now h.epoch, dec_fits h.count,
      decI_fits (n := (w.msec : Int) - s.epoch) (by have := h.epoch; omega) (by have := h.now; omega), leafB, List.append_assoc, List.append_nil]
    rfl
  rw [e]
  have hin := Holds.nl.app ((((((((((((Holds.of (Adds.leafB (Name.of (n := nName) rfl) (Adds.esc (streamName s.name)))).app Holds.nl).app
    (Holds.of (Adds.leafB (Name.of (n := nTime) rfl) (Adds.text (decI_text ((w.msec : Int) - s.epoch)))))).app (bw_all h.bwIn (name := sIn) rfl rfl)).app (bw_all h.bwOut (name := sOut) rfl rfl)).app
    (bw_rate h.bwAudio (name := sAudio) rfl)).app (bw_rate h.bwVideo (name := sVideo) rfl)).app hcl).app hme).app
    ((Holds.of (Adds.leafB (Name.of (n := nNclients) rfl) (Adds.text (dec_text s.clients.length)))).app Holds.nl)).app (flagNl s.publishing nPublishing rfl)).app (flagNl s.active nActive rfl))
  obtain ⟨t, hin⟩ := hin
  refine ⟨t, ?_⟩
  have := (Holds.of (Adds.el (Name.of (n := nStream) rfl) hin)).app Holds.nl
  rw [List.append_nil] at this
  simp only [List.append_nil, List.nil_append] at this
  exact this

theorem sel_clients {k : Bytes} (hk : nClient ≠ k) (listed : Bool) (w : World) (l : List Client) : sel k (if listed then l.map fun x => Node.el nClient [] (clientKids w x) else []) = [] := by
  cases listed
  · rfl
  · refine sel_other (n := nClient) ?_ hk
    intro x hx
    obtain ⟨y, -, rfl⟩ := List.mem_map.mp hx
    rfl

theorem sel_clients_eq (listed : Bool) (w : World) (l : List Client) :
    sel nClient (if listed then l.map fun x => Node.el nClient [] (clientKids w x) else []) = if listed then l.map fun x => Node.el nClient [] (clientKids w x) else [] := by
  cases listed
  · rfl
  · refine sel_same ?_
    intro x hx
    obtain ⟨y, -, rfl⟩ := List.mem_map.mp hx
    rfl

theorem sel_meta {k : Bytes} (hk : nMeta ≠ k) (x : Option Codec) : sel k (x.map metaNode).toList = [] := by
  cases x
  · rfl
  · exact sel_el_ne hk ..

theorem sel_meta_eq (x : Option Codec) : sel nMeta (x.map metaNode).toList = (x.map metaNode).toList := by
  cases x
  · rfl
  · exact sel_el_eq ..

macro "sel_tac2" : tactic => `(tactic| (simp (decide := true) only [all_eq, sel_app, sel_nil, sel_el_eq, sel_el_ne, sel_leaf_eq, sel_leaf_ne, sel_mb_eq, sel_mb_ne, sel_clients, sel_clients_eq, sel_meta, sel_meta_eq,
  List.nil_append, List.append_nil]))

theorem stream_says (listed : Bool) (w : World) (s : Stream) (h : SaneStream w s) (t : Bytes) : SaysStream listed w (.el nStream t (streamKids listed w s)) s := by
  have hm : (Node.el nStream t (streamKids listed w s)).all nMeta = ((lastCodec s.clients none).map metaNode).toList := by unfold streamKids; sel_tac2
  exact {
    name := fun hn => by
      rw [← streamName_eq h.name hn]
      exact val_of (by unfold streamKids; sel_tac2)
    time := int_of (by unfold streamKids; sel_tac2)
    bwIn := ⟨nat_of (by unfold streamKids; sel_tac2), nat_of (by unfold streamKids; sel_tac2)⟩
    bwOut := ⟨nat_of (by unfold streamKids; sel_tac2), nat_of (by unfold streamKids; sel_tac2)⟩
    bwAudio := nat_of (by unfold streamKids; sel_tac2)
    bwVideo := nat_of (by unfold streamKids; sel_tac2)
    clients := by
      have : (Node.el nStream t (streamKids listed w s)).all nClient = if listed then s.clients.map fun x => Node.el nClient [] (clientKids w x) else [] := by unfold streamKids; sel_tac2
      rw [this]
      cases listed
      · rfl
      · exact clients_each w s.clients
    nclients := nat_of (by unfold streamKids; sel_tac2)
    publishing := flag_of (by unfold streamKids; sel_tac2)
    active := flag_of (by unfold streamKids; sel_tac2)
    codec := fun c hc => by
      have : lastCodec s.clients none = c.codec := by
        rw [lastCodec_filter, hc]
        have hp : c.publishing = true := by
          have : c ∈ s.clients.filter (·.publishing) := by rw [hc]; simp
          exact (List.mem_filter.mp this).2
        show (if c.publishing = true then _ else _) = _
        rw [if_pos hp]
      rw [hm, this]
      cases hx : c.codec with
      | none => rfl
      | some x =>
        refine ⟨metaNode x, one_of ?_, meta_says x⟩
        rw [hm, this, hx]; rfl
    silent := fun hc => by
      rw [hm, lastCodec_filter, hc]; rfl }

/-! Streams of a server -/

theorem streamLoop_eq (listed : Bool) (w : World) : ∀ (l : List Stream) (ws : List Write) (n : Nat),
    streamLoop listed w l (ws, n) = (ws ++ l.flatMap (fun s => (streamWrites listed w s).1), n + (l.map (·.clients.length)).sum)
  | [], ws, n => by simp [streamLoop]
  | s :: l, ws, n => by
    rw [streamLoop, streamLoop_eq listed w l, stream_count]
    simp [Nat.add_assoc]

theorem bucketLoop_eq (listed : Bool) (w : World) : ∀ (l : List (List Stream)) (ws : List Write) (n : Nat),
    bucketLoop listed w l (ws, n) = (ws ++ l.flatten.flatMap (fun s => (streamWrites listed w s).1), n + (l.flatten.map (·.clients.length)).sum)
  | [], ws, n => by simp [bucketLoop]
  | b :: l, ws, n => by
    rw [bucketLoop, streamLoop_eq, bucketLoop_eq listed w l]
    simp [Nat.add_assoc]

theorem streams_hold (listed : Bool) (w : World) : ∀ (l : List Stream), (∀ s ∈ l, SaneStream w s) →
    ∃ ks, Holds (flat (l.flatMap fun s => (streamWrites listed w s).1)) ks ∧ (∀ x ∈ ks, x.name = nStream) ∧ Each (SaysStream listed w) ks l
  | [], _ => ⟨[], Holds.nil, by simp, trivial⟩
  | s :: l, h => by
    obtain ⟨ks, h1, h2, h3⟩ := streams_hold listed w l fun y hy => h y (by simp [hy])
    obtain ⟨t, h0⟩ := stream_holds listed w s (h s (by simp))
    refine ⟨.el nStream t (streamKids listed w s) :: ks, ?_, ?_, stream_says listed w s (h s (by simp)) t, h3⟩
    · rw [List.flatMap_cons, flat_append]
      exact h0.app h1
    · intro x hx
      rcases List.mem_cons.mp hx with rfl | hx
      · rfl
      · exact h2 x hx

structure SaneServer (w : World) (s : Server) : Prop where
  id : ∀ b ∈ s.id, isText b = true
  streams : ∀ x ∈ s.streams.flatten, SaneStream w x
  count : (s.streams.flatten.map (·.clients.length)).sum < 2 ^ 64

theorem server_holds (listed : Bool) (w : World) (s : Server) (h : SaneServer w s) :
    ∃ n, Holds (flat (serverWrites listed w s)) [n] ∧ n.name = nServer ∧ SaysServer listed w n s := by
  obtain ⟨ks, h1, h2, h3⟩ := streams_hold listed w s.streams.flatten h.streams
  have hz : cstr s.id = s.id := cstr_id fun h0 => absurd (h.id 0 h0) (by decide)
  have e : flat (serverWrites listed w s) = o nServer ++ (nl ++ (leafB nServerid s.id ++ nl) ++ ((o nLive ++ (nl ++ flat (s.streams.flatten.flatMap fun s => (streamWrites listed w s).1) ++
      (leafB nNclients (dec (s.streams.flatten.map (·.clients.length)).sum) ++ nl)) ++ c nLive) ++ nl)) ++ c nServer ++ nl := by
    unfold serverWrites statLive
    simp only [bucketLoop_eq, List.nil_append, Nat.zero_add]
    simp only [flat_append, flat_cons, flat_nil, lit_bytes, num_bytes, dec_fits h.count, hz, leafB, List.append_assoc, List.append_nil]
  rw [e]
  obtain ⟨t, hl⟩ := (Holds.nl.app h1).app ((Holds.of (Adds.leafB (Name.of (n := nNclients) rfl) (Adds.text (dec_text (s.streams.flatten.map (·.clients.length)).sum)))).app Holds.nl)
  obtain ⟨t', hs⟩ := (Holds.nl.app ((Holds.of (Adds.leafB (Name.of (n := nServerid) rfl) (Adds.text h.id))).app Holds.nl)).app ((Holds.of (Adds.el (Name.of (n := nLive) rfl) hl)).app Holds.nl)
  have hf := (Holds.of (Adds.el (Name.of (n := nServer) rfl) hs)).app Holds.nl
  simp only [List.append_nil, List.nil_append] at hf
  refine ⟨_, hf, rfl, ?_, ?_⟩
  · exact val_of (by sel_tac)
  · refine ⟨.el nLive t (ks ++ [leaf nNclients (dec (s.streams.flatten.map (·.clients.length)).sum)]), one_of (by sel_tac), ?_, ?_⟩
    · rw [all_eq, sel_app, sel_same h2, sel_leaf_ne (by decide), List.append_nil]
      exact h3
    · refine nat_of ?_
      rw [all_eq, sel_app, sel_other h2 (by decide), sel_leaf_eq, List.nil_append]

theorem serverLoop_eq (listed : Bool) (w : World) : ∀ (l : List (List Server)) (ws : List Write), serverLoop listed w l ws = ws ++ l.flatten.flatMap (serverWrites listed w)
  | [], ws => by simp [serverLoop]
  | b :: l, ws => by
    have hf : ∀ (b : List Server) (ws : List Write), b.foldl (fun ws s => ws ++ serverWrites listed w s) ws = ws ++ b.flatMap (serverWrites listed w) := by
      intro b
      induction b with
      | nil => simp
      | cons s b ih => intro ws; rw [List.foldl_cons, ih]; simp
    rw [serverLoop, serverLoop_eq listed w l, hf]
    simp

theorem servers_hold (listed : Bool) (w : World) : ∀ (l : List Server), (∀ s ∈ l, SaneServer w s) →
    ∃ ks, Holds (flat (l.flatMap (serverWrites listed w))) ks ∧ (∀ x ∈ ks, x.name = nServer) ∧ Each (SaysServer listed w) ks l
  | [], _ => ⟨[], Holds.nil, by simp, trivial⟩
  | s :: l, h => by
    obtain ⟨ks, h1, h2, h3⟩ := servers_hold listed w l fun y hy => h y (by simp [hy])
    obtain ⟨n, h0, hn, hs⟩ := server_holds listed w s (h s (by simp))
    refine ⟨n :: ks, ?_, ?_, hs, h3⟩
    · rw [List.flatMap_cons, flat_append]
      exact h0.app h1
    · intro x hx
      rcases List.mem_cons.mp hx with rfl | hx
      · exact hn
      · exact h2 x hx

/-! The worker -/

structure Sane (w : World) : Prop where
  version : ∀ b ∈ w.version, isText b = true
  rtmpVersion : ∀ b ∈ w.rtmpVersion, isText b = true
  compiler : ∀ b ∈ w.compiler, isText b = true
  built : ∀ b ∈ w.built, isText b = true
  pid : w.pid < 2 ^ 64
  sec : w.sec < 2 ^ 63
  start : w.start < 2 ^ 63
  naccepted : w.naccepted < 2 ^ 64
  bwIn : SaneBw w.sec w.bwIn
  bwOut : SaneBw w.sec w.bwOut
  servers : ∀ s ∈ w.servers.flatten, SaneServer w s

/-- Instructions before the root -/
theorem run_pi (s : Bytes) : ∀ (l : Bytes), (∀ b ∈ l, b ≠ 0x3e) → ∀ m, (m = Mode.pi ∨ m = Mode.piEnd) →
    run ⟨m, [], none⟩ (l ++ [0x20, 0x3f, 0x3e] ++ s) = run ⟨.content, [], none⟩ s
  | [], _, m, hm => by
    rcases hm with rfl | rfl <;> simp [run, step]
  | b :: l, h, m, hm => by
    have hb := h b (by simp)
    have ih := run_pi s l fun x hx => h x (by simp [hx])
    rcases hm with rfl | rfl
    · simp only [List.cons_append, run, step, Option.bind_some]
      by_cases hq : (b == 0x3f) = true
      · rw [if_pos hq]; exact ih _ (.inr rfl)
      · rw [if_neg hq]; exact ih _ (.inl rfl)
    · simp only [List.cons_append, run, step, Option.bind_some]
      rw [if_neg (by simpa using hb)]
      by_cases hq : (b == 0x3f) = true
      · rw [if_pos hq]; exact ih _ (.inr rfl)
      · rw [if_neg hq]; exact ih _ (.inl rfl)

theorem run_instr (s l : Bytes) (h : ∀ b ∈ l, b ≠ 0x3e) : run ⟨.content, [], none⟩ ([0x3c, 0x3f] ++ l ++ [0x20, 0x3f, 0x3e] ++ nl ++ s) = run ⟨.content, [], none⟩ s := by
  have e : [0x3c, 0x3f] ++ l ++ [0x20, 0x3f, 0x3e] ++ nl ++ s = 0x3c :: 0x3f :: (l ++ [0x20, 0x3f, 0x3e] ++ (nl ++ s)) := by simp
  rw [e]
  simp only [run, step, beq_self_eq_true, ↓reduceIte, Option.bind_some]
  have : ((0x3f : UInt8) == 0x2f) = false := by decide
  rw [this]
  simp only [Bool.false_eq_true, ↓reduceIte, List.isEmpty_nil, Option.isNone_none, Bool.and_self, Option.bind_some]
  rw [run_pi _ l h _ (.inl rfl)]
  simp [nl, run, step, isSpace]

theorem html_gt (b : UInt8) : ∀ x ∈ html b, x ≠ 0x3e := by
  unfold html
  repeat' split
  all_goals first | decide | skip
  intro x hx
  rw [List.mem_singleton] at hx
  subst hx
  assumption

theorem esc_gt (l : Bytes) : ∀ x ∈ (esc l).bytes, x ≠ 0x3e := by
  intro x hx
  have hx : x ∈ (shown l).flatMap html := hx
  obtain ⟨b, -, hb⟩ := List.mem_flatMap.mp hx
  exact html_gt b x hb

theorem run_prolog (sheet s : Bytes) :
    run ⟨.content, [], none⟩ (flat ([lit (xmlDecl ++ nl)] ++ (if sheet.length ≠ 0 then [lit sheetDecl, esc sheet, lit ([0x22, 0x20, 0x3f, 0x3e] ++ nl)] else [])) ++ s) = run ⟨.content, [], none⟩ s := by
  have e1 : xmlDecl ++ nl = [0x3c, 0x3f] ++ (xmlDecl.drop 2).take 34 ++ [0x20, 0x3f, 0x3e] ++ nl := by decide
  have g1 : ∀ b ∈ (xmlDecl.drop 2).take 34, b ≠ 0x3e := by decide
  rw [flat_append, flat_cons, flat_nil, lit_bytes, List.append_nil, List.append_assoc, e1, run_instr _ _ g1]
  by_cases hs : sheet.length = 0
  · rw [if_neg (by simpa using hs)]; rfl
  · rw [if_pos hs]
    have e2 : sheetDecl = [0x3c, 0x3f] ++ sheetDecl.drop 2 := by decide
    have g2 : ∀ b ∈ sheetDecl.drop 2, b ≠ 0x3e := by decide
    have e : flat [lit sheetDecl, esc sheet, lit ([0x22, 0x20, 0x3f, 0x3e] ++ nl)] ++ s = [0x3c, 0x3f] ++ (sheetDecl.drop 2 ++ (esc sheet).bytes ++ [0x22]) ++ [0x20, 0x3f, 0x3e] ++ nl ++ s := by
      simp only [flat_cons, flat_nil, lit_bytes]
      conv => lhs; rw [e2]
      simp
    rw [e, run_instr]
    intro b hb
    rcases List.mem_append.mp hb with hb | hb
    · rcases List.mem_append.mp hb with hb | hb
      · exact g2 b hb
      · exact esc_gt sheet b hb
    · rw [List.mem_singleton] at hb; subst hb; decide

macro "sel_tacW" h:ident : tactic => `(tactic| (simp (decide := true) only [all_eq, sel_app, sel_nil, sel_el_eq, sel_el_ne, sel_leaf_eq, sel_leaf_ne, sel_mb_eq, sel_mb_ne, $h:ident, List.nil_append, List.append_nil]))

theorem whole (listed : Bool) (sheet : Bytes) (w : World) (h : Sane w) : ∃ n, read (flat (writes listed sheet w)) = some n ∧ Says listed w n := by
  obtain ⟨ks, h1, h2, h3⟩ := servers_hold listed w w.servers.flatten h.servers
  have e : flat (writes listed sheet w) = flat ([lit (xmlDecl ++ nl)] ++ (if sheet.length ≠ 0 then [lit sheetDecl, esc sheet, lit ([0x22, 0x20, 0x3f, 0x3e] ++ nl)] else [])) ++
      (o nRtmp ++ ((nl ++ leafB nNginxVersion w.version ++ (nl ++ leafB nNginxRtmpVersion w.rtmpVersion) ++ (nl ++ leafB nCompiler w.compiler) ++ (nl ++ leafB nBuilt w.built) ++ (nl ++ leafB nPid (dec w.pid)) ++
        (nl ++ leafB nUptime (decI ((w.sec : Int) - w.start))) ++ (nl ++ leafB nNaccepted (dec w.naccepted)) ++ nl ++ flat (statBw w.sec w.bwIn sIn true) ++ flat (statBw w.sec w.bwOut sOut true) ++
        flat (w.servers.flatten.flatMap (serverWrites listed w))) ++ (c nRtmp ++ nl))) := by
    unfold writes
    rw [serverLoop_eq]
    simp only [flat_append, flat_cons, flat_nil, lit_bytes, num_bytes, diff_eq h.sec h.start, dec_fits h.pid, dec_fits h.naccepted,
      decI_fits (n := (w.sec : Int) - w.start) (by have := h.start; omega) (by have := h.sec; omega), leafB, List.append_assoc, List.append_nil, List.nil_append]
  obtain ⟨t, hin⟩ := (((((((((((Holds.nl.app (Holds.of (Adds.leafB (Name.of (n := nNginxVersion) rfl) (Adds.text h.version)))).app
    (Holds.nl.app (Holds.of (Adds.leafB (Name.of (n := nNginxRtmpVersion) rfl) (Adds.text h.rtmpVersion))))).app (Holds.nl.app (Holds.of (Adds.leafB (Name.of (n := nCompiler) rfl) (Adds.text h.compiler))))).app
    (Holds.nl.app (Holds.of (Adds.leafB (Name.of (n := nBuilt) rfl) (Adds.text h.built))))).app (Holds.nl.app (Holds.of (Adds.leafB (Name.of (n := nPid) rfl) (Adds.text (dec_text w.pid)))))).app
    (Holds.nl.app (Holds.of (Adds.leafB (Name.of (n := nUptime) rfl) (Adds.text (decI_text ((w.sec : Int) - w.start))))))).app
    (Holds.nl.app (Holds.of (Adds.leafB (Name.of (n := nNaccepted) rfl) (Adds.text (dec_text w.naccepted)))))).app Holds.nl).app (bw_all h.bwIn (name := sIn) rfl rfl)).app
    (bw_all h.bwOut (name := sOut) rfl rfl)).app h1)
  generalize hks : (_ ++ ks : List Node) = all at hin
  have hr : read (flat (writes listed sheet w)) = some (.el nRtmp t all) := by
    unfold read
    rw [e, run_prolog, run_open (Name.of (n := nRtmp) rfl) _ _ _ (.inr rfl), hin, run_shut (Name.of (n := nRtmp) rfl)]
    simp [shut, nl, run, step, isSpace]
  refine ⟨_, hr, ?_⟩
  have n1 : bwW ++ sIn = nBwIn := by decide
  have n2 : bytesW ++ sIn = nBytesIn := by decide
  have n3 : bwW ++ sOut = nBwOut := by decide
  have n4 : bytesW ++ sOut = nBytesOut := by decide
  simp only [List.append_nil, List.nil_append, n1, n2, n3, n4] at hks
  have ho : ∀ k, nServer ≠ k → sel k ks = [] := fun k hk => sel_other h2 hk
  subst hks
  exact {
    name := rfl
    version := val_of (by sel_tacW ho)
    rtmpVersion := val_of (by sel_tacW ho)
    compiler := val_of (by sel_tacW ho)
    built := val_of (by sel_tacW ho)
    pid := nat_of (by sel_tacW ho)
    uptime := int_of (by sel_tacW ho)
    naccepted := nat_of (by sel_tacW ho)
    bwIn := ⟨nat_of (by sel_tacW ho), nat_of (by sel_tacW ho)⟩
    bwOut := ⟨nat_of (by sel_tacW ho), nat_of (by sel_tacW ho)⟩
    servers := by
      have hk : sel nServer ks = ks := sel_same h2
      rw [all_eq, sel_app, hk]
      sel_tac
      exact h3 }

end Verif.StatXml
