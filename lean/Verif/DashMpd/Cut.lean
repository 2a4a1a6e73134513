import Verif.DashMpd.Bound
/- What is left of a list that does not fit is not a document. -/
namespace Verif.DashMpd
open Verif Verif.Xml
open Verif.HlsRestore (dec decGo_mem)
open Verif.TsDash (plain_dec)
open Verif.Dash (Slot)
open Verif.Mpd (s)

/-- Within a tag -/
def mid : St → Bool
  | .start | .first | .decl | .declEnd | .content => false
  | _ => true

theorem mid_step {st st' : St} {c : Char} {t : List Tok} (h : mid st = true) (hc : c ≠ '>') (e : step st c = some (st', t)) : mid st' = true := by
  cases st <;> simp only [mid, Bool.false_eq_true] at h <;> simp only [step] at e <;> (repeat' split at e) <;> simp_all <;> (obtain ⟨rfl, _⟩ := e; rfl)

theorem mid_lex : ∀ (t : Text) {st st' : St} {x : List Tok}, mid st = true → '>' ∉ t → lex st t = some (st', x) → mid st' = true
  | [], _, _, _, h, _, e => by
    simp only [lex, Option.some.injEq, Prod.mk.injEq] at e
    rw [← e.1]; exact h
  | c :: t, st, st', x, h, hn, e => by
    rw [lex] at e
    cases h1 : step st c with
    | none => rw [h1] at e; simp at e
    | some y =>
      rw [h1, Option.bind_some] at e
      cases h2 : lex y.1 t with
      | none => rw [h2] at e; simp at e
      | some z =>
        rw [h2] at e
        simp only [Option.map_some, Option.some.injEq, Prod.mk.injEq] at e
        have hy : mid y.1 = true := mid_step (t := y.2) h (fun hc : c = '>' => hn (by rw [hc]; exact List.mem_cons_self)) (by rw [h1])
        have := mid_lex t (st := y.1) (st' := z.1) (x := z.2) hy (fun hm => hn (List.mem_cons_of_mem _ hm)) h2
        rw [← e.1]; exact this

/-- A tag that has begun does not go on with another. -/
theorem mid_stop {st : St} (h : mid st = true) (r : Text) : lex st (' ' :: ' ' :: '<' :: r) = none ∧ lex st (' ' :: ' ' :: ' ' :: ' ' :: '<' :: r) = none := by
  cases st <;> simp only [mid, Bool.false_eq_true] at h <;> constructor <;> simp [lex, step, isSpace, isStart, isName] <;> decide

theorem lex_take {st st' : St} {t : Text} {x : List Tok} (h : lex st t = some (st', x)) (k : Nat) : ∃ y, lex st (t.take k) = some y := by
  rw [← List.take_append_drop k t, lex_append] at h
  cases e : lex st (t.take k) with
  | none => rw [e] at h; simp at h
  | some y => exact ⟨y, rfl⟩

/-- Where a reader can be behind a list that was cut -/
def Behind (x : St × List Tok) : Prop := mid x.1 = true ∨ (x.1 = .content ∧ ∃ l : List Slot, x.2 = l.flatMap timeToks)

/-- What is between the angle brackets -/
def inner (f : Slot) : Text := "S t=\"".toList ++ dec f.timestamp ++ "\" d=\"".toList ++ dec f.duration ++ "\"/".toList

theorem time_inner (f : Slot) : timeText f = "             ".toList ++ '<' :: (inner f ++ ['>', '\n']) := by
  have e1 : "             <S t=\"".toList = "             ".toList ++ '<' :: "S t=\"".toList := by decide
  have e2 : "\"/>\n".toList = "\"/".toList ++ ['>', '\n'] := by decide
  unfold timeText inner
  rw [e1, e2]
  simp only [List.append_assoc, List.cons_append]

theorem dec_no (n : Nat) : '>' ∉ dec n := by
  intro h
  obtain ⟨k, hk, e⟩ := decGo_mem _ _ _ h
  have : ∀ k < 10, '>' ≠ Char.ofNat (48 + k) := by decide
  exact this k hk e

theorem inner_no (f : Slot) : '>' ∉ inner f := by
  have h1 : '>' ∉ "S t=\"".toList := by decide
  have h2 : '>' ∉ "\" d=\"".toList := by decide
  have h3 : '>' ∉ "\"/".toList := by decide
  unfold inner
  simp only [List.mem_append, not_or]
  exact ⟨⟨⟨⟨h1, dec_no _⟩, h2⟩, dec_no _⟩, h3⟩

/-- The entry without its end of line -/
theorem lex_time' (f : Slot) : Lexes .content ("             ".toList ++ '<' :: (inner f ++ ['>'])) .content (timeToks f) := by
  have e1 : "\" d=\"".toList = '"' :: " d=\"".toList := by decide
  have h1 : Lexes .content ("             ".toList ++ '<' :: "S t=\"".toList) (.value (s "t") []) [.opens (s "S")] := by unfold Lexes; decide +kernel
  have h2 : Lexes .after " d=\"".toList (.value (s "d") []) [] := by unfold Lexes; decide +kernel
  have h3 : Lexes .after ['/', '>'] .content [.empty] := by unfold Lexes; decide +kernel
  have key := (h1.value (plain_dec f.timestamp) h2).value (plain_dec f.duration) h3
  unfold inner timeToks
  rw [e1, show "\"/".toList = ['"', '/'] from by decide]
  simp only [List.append_assoc, List.cons_append, List.nil_append] at key ⊢
  exact key

theorem spaces_take (k : Nat) (h : k ≤ 13) : lex .content ("             ".toList.take k) = some (.content, []) := by
  have : ∀ k < 14, lex .content ("             ".toList.take k) = some (.content, []) := by decide
  exact this k (by omega)

theorem time_take (f : Slot) (k : Nat) : ∃ x, lex .content ((timeText f).take k) = some x ∧ Behind x := by
  obtain ⟨x, hx⟩ := lex_take (lex_time f) k
  refine ⟨x, hx, ?_⟩
  rw [time_inner] at hx
  have hl : "             ".toList.length = 13 := by decide
  by_cases h1 : k ≤ 13
  · rw [List.take_append_of_le_length (by rw [hl]; exact h1), spaces_take k h1] at hx
    cases hx
    exact Or.inr ⟨rfl, [], rfl⟩
  · obtain ⟨j, rfl⟩ : ∃ j, k = 13 + (j + 1) := ⟨k - 14, by omega⟩
    have e : ("             ".toList ++ '<' :: (inner f ++ ['>', '\n'])).take (13 + (j + 1)) = "             ".toList ++ '<' :: (inner f ++ ['>', '\n']).take j := by
      rw [show 13 + (j + 1) = "             ".toList.length + (j + 1) from by rw [hl], List.take_length_add_append]
      rfl
    rw [e] at hx
    by_cases h2 : j ≤ (inner f).length
    · left
      rw [List.take_append_of_le_length h2] at hx
      rw [show "             ".toList ++ '<' :: (inner f).take j = ("             ".toList ++ ['<']) ++ (inner f).take j from by simp, lex_append] at hx
      have e3 : lex .content ("             ".toList ++ ['<']) = some (.lt, []) := by decide
      rw [e3, Option.bind_some] at hx
      cases e4 : lex .lt ((inner f).take j) with
      | none => rw [e4] at hx; simp at hx
      | some y =>
        rw [e4] at hx
        simp only [Option.map_some, Option.some.injEq] at hx
        have := mid_lex ((inner f).take j) (st := .lt) (st' := y.1) (x := y.2) rfl (fun hm => inner_no f (List.mem_of_mem_take hm)) e4
        rw [← hx]; exact this
    · right
      by_cases h3 : j = (inner f).length + 1
      · have e5 : (inner f ++ ['>', '\n']).take j = inner f ++ ['>'] := by rw [h3, List.take_length_add_append]; rfl
        rw [e5, lex_time' f] at hx
        cases hx
        exact ⟨rfl, [f], by simp⟩
      · have e5 : (inner f ++ ['>', '\n']).take j = inner f ++ ['>', '\n'] := List.take_of_length_le (by simp only [List.length_append, List.length_cons, List.length_nil]; omega)
        rw [e5, ← time_inner, lex_time f] at hx
        cases hx
        exact ⟨rfl, [f], by simp⟩

theorem times_take : ∀ (l : List Slot) (k : Nat), ∃ x, lex .content ((l.flatMap timeText).take k) = some x ∧ Behind x
  | [], k => ⟨(.content, []), by simp [lex], Or.inr ⟨rfl, [], rfl⟩⟩
  | f :: l, k => by
    rw [List.flatMap_cons]
    by_cases h : k ≤ (timeText f).length
    · rw [List.take_append_of_le_length h]
      exact time_take f k
    · obtain ⟨j, rfl⟩ : ∃ j, k = (timeText f).length + j := ⟨k - (timeText f).length, by omega⟩
      obtain ⟨x, hx, hb⟩ := times_take l j
      rw [List.take_length_add_append, lex_append, show lex .content (timeText f) = _ from lex_time f, Option.bind_some]
      dsimp only
      rw [hx]
      refine ⟨_, rfl, ?_⟩
      rcases hb with hb | ⟨hb, l', e⟩
      · exact Or.inl hb
      · exact Or.inr ⟨hb, f :: l', by rw [List.flatMap_cons, ← e]⟩

/-- A track whose list does not fit -/
theorem track_take {head : Text} {toks : List Tok} (l : List Slot) (hl : Lexes .content head .content toks) (h1 : head.length ≤ bufSize) (h2 : bufSize < (l.flatMap timeText).length) :
    ∃ x : St × List Tok, lex .content (buffered (head ++ l.flatMap timeText ++ trackFoot)) = some (x.1, toks ++ x.2) ∧ Behind x := by
  obtain ⟨k, hk⟩ : ∃ k, bufSize = head.length + k := ⟨bufSize - head.length, by omega⟩
  obtain ⟨x, hx, hb⟩ := times_take l k
  refine ⟨x, ?_, hb⟩
  unfold buffered
  rw [List.append_assoc, hk, List.take_length_add_append, List.take_append_of_le_length (by omega), lex_append, show lex .content head = _ from hl, Option.bind_some]
  dsimp only
  rw [hx]
  rfl

/-- The innermost element is the list of segments. -/
def Inside (t : Tree) : Prop := ∃ g gs, t.stack = g :: gs ∧ g.name = s "SegmentTimeline"

theorem inside_times {t : Tree} (h : Inside t) (l : List Slot) : ∃ t', growAll t (l.flatMap timeToks) = some t' ∧ Inside t' := by
  obtain ⟨g, gs, e, hn⟩ := h
  have et : t = ⟨g :: gs, t.root⟩ := by rw [← e]
  rw [et, grows_times l g gs t.root]
  exact ⟨_, rfl, _, _, rfl, hn⟩

theorem inside_video (c : Conf) (i : Info) (f : Frame) (fs : List Frame) (root : Option Node) : ∃ t', growAll ⟨f :: fs, root⟩ (videoToks c i) = some t' ∧ Inside t' := ⟨_, rfl, _, _, rfl, rfl⟩

theorem inside_audio (c : Conf) (i : Info) (f : Frame) (fs : List Frame) (root : Option Node) : ∃ t', growAll ⟨f :: fs, root⟩ (audioToks c i) = some t' ∧ Inside t' := ⟨_, rfl, _, _, rfl, rfl⟩

theorem inside_end {t : Tree} (h : Inside t) : growAll t [.closes (s "Period"), .closes (s "MPD")] = none := by
  obtain ⟨g, gs, e, hn⟩ := h
  have : grow t (.closes (s "Period")) = none := by
    unfold grow
    rw [e]
    dsimp only
    rw [hn]
    rfl
  rw [growAll, this]
  rfl

theorem foot_starts : footText = ' ' :: ' ' :: '<' :: "/Period>\n</MPD>\n".toList := by decide

theorem audio_starts (c : Conf) (i : Info) (l : List Slot) : ∃ r, buffered (audioText c i l) = ' ' :: ' ' :: ' ' :: ' ' :: '<' :: r := by
  have : ∃ r, audioHead c i = ' ' :: ' ' :: ' ' :: ' ' :: '<' :: r := by
    unfold audioHead
    have e : "    <AdaptationSet\n        id=\"2\"\n        segmentAlignment=\"true\">\n      <AudioChannelConfiguration\n          schemeIdUri=\"urn:mpeg:dash:23003:3:audio_channel_configuration:2011\"\n          value=\"1\"/>\n      <Representation\n          id=\"".toList =
      ' ' :: ' ' :: ' ' :: ' ' :: '<' :: "AdaptationSet\n        id=\"2\"\n        segmentAlignment=\"true\">\n      <AudioChannelConfiguration\n          schemeIdUri=\"urn:mpeg:dash:23003:3:audio_channel_configuration:2011\"\n          value=\"1\"/>\n      <Representation\n          id=\"".toList := by
      decide +kernel
    rw [e]
    simp only [List.cons_append]
    exact ⟨_, rfl⟩
  obtain ⟨r, e⟩ := this
  have eb : bufSize = 1048571 + 5 := by decide
  unfold buffered audioText
  rw [e, eb]
  simp only [List.cons_append, List.take_succ_cons]
  exact ⟨_, rfl⟩

/-- A body that is not finished -/
def Broken (c : Conf) (start publish : Text) (body : Text) : Prop :=
  ∃ x, lex .content body = some x ∧ (mid x.1 = true ∨ (x.1 = .content ∧ ∃ t, growAll ⟨openFrames c start publish, none⟩ x.2 = some t ∧ Inside t))

theorem broken_read {c : Conf} {start publish body : Text} (h1 : Plain start) (h2 : Plain publish) (h : lex .content (body ++ footText) = none ∨ Broken c start publish body) :
    Xml.read (headerText c start publish ++ (body ++ footText)) = none := by
  unfold Xml.read
  rw [lex_append, show lex .start (headerText c start publish) = _ from lex_header c start publish h1 h2, Option.bind_some]
  dsimp only
  rcases h with h | ⟨x, hx, h⟩
  · rw [h]; rfl
  · rw [lex_append, hx, Option.bind_some]
    rcases h with h | ⟨h, t, ht, hi⟩
    · rw [foot_starts, (mid_stop h _).1]; rfl
    · rw [h, show lex .content footText = _ from lex_foot]
      show ((growAll {} (headerToks c start publish ++ (x.2 ++ [.closes (s "Period"), .closes (s "MPD")]))).bind _) = none
      rw [growAll_append, grow_header, Option.bind_some, growAll_append, ht, Option.bind_some, inside_end hi]
      rfl

/-- Lists that do not fit make a document that cannot be read. -/
theorem cut_read {c : Conf} {i : Info} {start publish : Text} (hs : Sized c i start publish) (hn : Plain c.name) (h1 : Plain start) (h2 : Plain publish) {hv ha : Bool} (ht : (hv || ha) = true)
    {l : List Slot} (hl : bufSize < (l.flatMap timeText).length) : Xml.read (playlist c i start publish hv ha l) = none := by
  have eb : bufSize = 1048576 := by decide
  have e1 : buffered (headerText c start publish) = headerText c start publish := List.take_of_length_le (by have := header_len hs; omega)
  have e2 : buffered footText = footText := List.take_of_length_le (by rw [eb]; decide)
  obtain ⟨xv, hxv, bv⟩ := track_take l (lex_video c i hn) (by have := videoHead_len hs; omega) hl
  obtain ⟨xa, hxa, ba⟩ := track_take l (lex_audio c i hn) (by have := audioHead_len hs; omega) hl
  have vv : Broken c start publish (buffered (videoText c i l)) := by
    refine ⟨_, hxv, ?_⟩
    rcases bv with b | ⟨b, l', e⟩
    · exact Or.inl b
    · obtain ⟨t1, g1, i1⟩ := inside_video c i ⟨s "Period", [(s "start", s "PT0S"), (s "id", s "dash")], []⟩ (openFrames c start publish).tail none
      obtain ⟨t2, g2, i2⟩ := inside_times i1 l'
      refine Or.inr ⟨b, t2, ?_, i2⟩
      dsimp only
      rw [growAll_append, show growAll ⟨openFrames c start publish, none⟩ (videoToks c i) = _ from g1, Option.bind_some, e, g2]
  unfold playlist
  rw [e1, e2, List.append_assoc, List.append_assoc]
  cases hv <;> cases ha
  · cases ht
  · simp only [Bool.false_eq_true, if_false, if_true, List.nil_append]
    refine broken_read h1 h2 (Or.inr ⟨_, hxa, ?_⟩)
    rcases ba with b | ⟨b, l', e⟩
    · exact Or.inl b
    · obtain ⟨t1, g1, i1⟩ := inside_audio c i ⟨s "Period", [(s "start", s "PT0S"), (s "id", s "dash")], []⟩ (openFrames c start publish).tail none
      obtain ⟨t2, g2, i2⟩ := inside_times i1 l'
      refine Or.inr ⟨b, t2, ?_, i2⟩
      dsimp only
      rw [growAll_append, show growAll ⟨openFrames c start publish, none⟩ (audioToks c i) = _ from g1, Option.bind_some, e, g2]
  · simp only [Bool.false_eq_true, if_false, if_true, List.nil_append]
    exact broken_read h1 h2 (Or.inr vv)
  · simp only [if_true]
    rw [← List.append_assoc (buffered (videoText c i l))]
    refine broken_read h1 h2 ?_
    obtain ⟨y, hy, b⟩ := vv
    rcases b with b | ⟨b, t, g, ins⟩
    · left
      obtain ⟨r, hr⟩ := audio_starts c i l
      rw [List.append_assoc, lex_append, hy, Option.bind_some, hr]
      simp only [List.cons_append]
      rw [(mid_stop b _).2]
      rfl
    · right
      refine ⟨(xa.1, y.2 ++ (audioToks c i ++ xa.2)), ?_, ?_⟩
      · rw [lex_append, hy, Option.bind_some, b]
        have : lex .content (buffered (audioText c i l)) = some (xa.1, audioToks c i ++ xa.2) := hxa
        rw [this]
        rfl
      · rcases ba with b' | ⟨b', l', e⟩
        · exact Or.inl b'
        · obtain ⟨gf, gs, e3, _⟩ := ins
          obtain ⟨t1, g1, i1⟩ := inside_audio c i gf gs t.root
          obtain ⟨t2, g2, i2⟩ := inside_times i1 l'
          refine Or.inr ⟨b', t2, ?_, i2⟩
          have et : t = ⟨gf :: gs, t.root⟩ := by rw [← e3]
          dsimp only
          rw [growAll_append, g, Option.bind_some, growAll_append, et, g1, Option.bind_some, e, g2]

theorem dec_pos (n : Nat) : 1 ≤ (dec n).length := List.length_pos_iff.2 (HlsRestore.dec_ne n)

theorem time_min (f : Slot) : 30 ≤ (timeText f).length := by
  have k1 := dec_pos f.timestamp
  have k2 := dec_pos f.duration
  have e1 : "             <S t=\"".toList.length = 19 := by decide
  have e2 : "\" d=\"".toList.length = 5 := by decide
  have e3 : "\"/>\n".toList.length = 4 := by decide
  unfold timeText
  simp only [List.length_append]
  rw [e1, e2, e3]
  generalize (dec f.timestamp).length = a at *
  generalize (dec f.duration).length = b at *
  clear e1 e2 e3
  omega

theorem times_min : ∀ l : List Slot, 30 * l.length ≤ (l.flatMap timeText).length
  | [] => by simp
  | f :: l => by
    have h1 := time_min f
    have h2 := times_min l
    rw [List.flatMap_cons, List.length_append, List.length_cons]
    omega

end Verif.DashMpd
