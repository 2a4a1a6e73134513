import Verif.Rtmp.RecSession
/- Any history: files stay whole, limits hold. -/
namespace Verif.Rec
open Verif Verif.Flv

/-- The file being written. -/
structure Live (c : Conf) (s : S) (p : Nat) (ts : List Tag) : Prop where
  fd : s.node.fd = .opened p
  init : s.node.initialized = true
  file : ∃ fl, s.fs p = fileHeader fl 9 ++ ts.flatMap Tag.bytes
  off : s.node.offset = (s.fs p).length
  hOk : ∀ t ∈ ts, t.Ok
  audio : c.append = false → s.node.audio = ts.any fun t => t.type == 8
  video : c.append = false → s.node.video = ts.any fun t => t.type == 9
  size : c.append = false → c.maxSize ≠ 0 → s.node.offset < max c.maxSize 14
  frames : c.append = false → c.maxFrames ≠ 0 → s.node.nframes < c.maxFrames

/-- Opened, nothing written yet. -/
structure New (c : Conf) (s : S) (p : Nat) : Prop where
  fd : s.node.fd = .opened p
  init : s.node.initialized = false
  flags : s.node.aacSent = false ∧ s.node.avcSent = false ∧ s.node.nframes = 0 ∧ s.node.audio = false ∧ s.node.video = false
  whole : Whole c (s.fs p)
  fresh : Fresh s p
  empty : c.append = false → s.node.offset = 0 ∧ s.fs p = []

def count (s : S) : Nat := s.node.nframes + nat s.node.aacSent + nat s.node.avcSent

/-- All files but `p` at rest. -/
def Rest (c : Conf) (s : S) (p : Nat) : Prop := ∀ q, q ≠ p → Whole c (s.fs q)

inductive Inv (c : Conf) (s : S) : Prop
  | idle : s.node.fd = .invalid → (∀ q, Whole c (s.fs q)) → Inv c s
  | new (p : Nat) : New c s p → Rest c s p → Inv c s
  | live (p : Nat) (ts : List Tag) : Live c s p ts → (c.append = false → ts.length ≤ count s) → Rest c s p → Inv c s

theorem Whole.mk' {c : Conf} {s : S} {p : Nat} {ts : List Tag} (h : Live c s p ts) (hc : c.append = false → c.maxFrames ≠ 0 → ts.length ≤ c.maxFrames + 2)
    (hs : c.append = false → c.maxSize ≠ 0 → ts = [] ∨ 13 + (ts.dropLast.flatMap Tag.bytes).length < max c.maxSize 14) :
    Whole c (put (s.fs p) 4 [avMask s.node]) := by
  obtain ⟨fl, hf⟩ := h.file
  rw [hf, put_flags]
  refine .inr ⟨_, ts, rfl, h.hOk, fun ha => ⟨avMask_maskOf _ _ (h.audio ha) (h.video ha), hs ha, hc ha⟩⟩

theorem dropLast_bytes (ts : List Tag) : (ts.dropLast.flatMap Tag.bytes).length ≤ (ts.flatMap Tag.bytes).length := by
  rcases List.eq_nil_or_concat ts with h | ⟨l, t, h⟩
  · simp [h]
  · rw [h]; simp

theorem Live.length {c : Conf} {s : S} {p : Nat} {ts : List Tag} (h : Live c s p ts) : (s.fs p).length = 13 + (ts.flatMap Tag.bytes).length := by
  obtain ⟨fl, hf⟩ := h.file
  rw [hf, List.length_append, fileHeader_length]

theorem ite_ex {P : Prop} [Decidable P] {a b : Option S} {Q : S → Prop} (h1 : ∃ s, a = some s ∧ Q s) (h2 : ¬ P → ∃ s, b = some s ∧ Q s) :
    ∃ s, (if P then a else b) = some s ∧ Q s := by
  by_cases h : P
  · rw [if_pos h]; exact h1
  · rw [if_neg h]; exact h2 h

theorem nat_le (b : Bool) : nat b ≤ 1 := by cases b <;> simp [nat]

section
variable {W : Disk} (hW : ∀ i, W i = none) (c : Conf)
include hW

theorem close_live {s : S} {p : Nat} {ts : List Tag} (h : Live c s p ts) (hc : c.append = false → c.maxFrames ≠ 0 → ts.length ≤ c.maxFrames + 2)
    (hs : c.append = false → c.maxSize ≠ 0 → ts = [] ∨ 13 + (ts.dropLast.flatMap Tag.bytes).length < max c.maxSize 14) (hr : Rest c s p) :
    ∃ s', nodeClose W s = some s' ∧ s'.node.fd = .invalid ∧ ∀ q, Whole c (s'.fs q) := by
  obtain ⟨s', e, hf, hfs⟩ := nodeClose_opened hW h.fd
  refine ⟨s', e, hf, fun q => ?_⟩
  rw [hfs, if_pos h.init]
  by_cases hq : q = p
  · rw [hq, setFile_same]; exact Whole.mk' h hc hs
  · rw [setFile_other _ hq]; exact hr q hq

theorem close_inv {s : S} (h : Inv c s) : ∃ s', nodeClose W s = some s' ∧ s'.node.fd = .invalid ∧ ∀ q, Whole c (s'.fs q) := by
  cases h with
  | idle hf hw => exact ⟨s, by simp [nodeClose, hf], hf, hw⟩
  | new p hn hr =>
    obtain ⟨s', e, hf, hfs⟩ := nodeClose_opened hW hn.fd
    refine ⟨s', e, hf, fun q => ?_⟩
    rw [hfs, if_neg (by simp [hn.init])]
    by_cases hq : q = p
    · rw [hq]; exact hn.whole
    · exact hr q hq
  | live p ts hl hc hr =>
    refine close_live hW c hl (fun ha hm => ?_) (fun ha hm => .inr ?_) hr
    · have h1 := hc ha
      have h2 := hl.frames ha hm
      have := nat_le s.node.aacSent; have := nat_le s.node.avcSent
      simp only [count] at h1
      omega
    · have h1 := hl.size ha hm
      rw [hl.off, hl.length] at h1
      have := dropLast_bytes ts
      omega

omit hW in
theorem open_inv {s : S} (h : Inv c s) (e : Env) : Inv c (nodeOpen c e s) := by
  cases h with
  | new p hn hr => rw [show nodeOpen c e s = s by simp [nodeOpen, hn.fd]]; exact .new p hn hr
  | live p ts hl hc hr => rw [show nodeOpen c e s = s by simp [nodeOpen, hl.fd]]; exact .live p ts hl hc hr
  | idle hf hw =>
    unfold nodeOpen
    rw [hf]
    dsimp only
    by_cases hok : (!e.ok) = true
    · rw [if_pos hok]; exact .idle rfl hw
    · rw [if_neg hok]
      by_cases ha : c.append = true
      · rw [if_pos ha]
        refine .new e.path ⟨rfl, rfl, ⟨rfl, rfl, rfl, rfl, rfl⟩, hw _, ?_, fun h => by simp [ha] at h⟩ (fun q _ => hw q)
        show (appendAt (s.fs e.path)).1 = (s.fs e.path).length ∨ ((appendAt (s.fs e.path)).1 = 0 ∧ (s.fs e.path).length ≤ 13)
        rcases hw e.path with h0 | ⟨fl, ts, h1, h2, _⟩
        · rw [h0]; exact .inl rfl
        · rw [h1]
          rcases List.eq_nil_or_concat ts with h | ⟨l, t, h⟩
          · rw [h]
            right
            simp only [List.flatMap_nil, List.append_nil, appendAt_header, fileHeader_length]
            exact ⟨trivial, Nat.le_refl _⟩
          · left
            rw [h, List.concat_eq_append, List.flatMap_append, List.flatMap_singleton, ← List.append_assoc]
            rw [appendAt_tag _ (h2 t (by rw [h]; simp))]
      · rw [if_neg ha]
        refine .new e.path ⟨rfl, rfl, ⟨rfl, rfl, rfl, rfl, rfl⟩, .inl ?_, .inl ?_, fun _ => ⟨rfl, ?_⟩⟩ (fun q hq => ?_)
        · exact setFile_same _ _ _
        · show 0 = (setFile s.fs e.path [] e.path).length
          rw [setFile_same]; rfl
        · exact setFile_same _ _ _
        · show Whole c (setFile s.fs e.path [] q)
          rw [setFile_other _ hq]; exact hw q

/-- Writing one more tag. -/
theorem writeFrame_live {s : S} {p : Nat} {ts : List Tag} (h : Live c s p ts) (hr : Rest c s p) (type ts' : Nat) {mlen : Nat} (bufs : List Bytes)
    (hm : mlen = bufs.flatten.length) (inc : Nat) (hinc : inc ≤ 1) (hty : type = 8 ∨ type = 9) (hlen : bufs.flatten.length < 2 ^ 24)
    (hcount : c.append = false → ts.length + 1 ≤ s.node.nframes + inc + 2) :
    ∃ s' t, writeFrame W c s type ts' mlen bufs inc = some (s', true) ∧
      ((Live c s' p (ts ++ [t]) ∧ Rest c s' p ∧ s'.node.nframes = s.node.nframes + inc ∧ s'.node.aacSent = s.node.aacSent ∧ s'.node.avcSent = s.node.avcSent) ∨
       (s'.node.fd = .invalid ∧ ∀ q, Whole c (s'.fs q))) := by
  obtain ⟨k, e⟩ := writeFrame_spec hW c h.fd h.off type ts' bufs hm inc
  have hb := frameBytes_tag s.node.epoch ts' type bufs hlen
  let t : Tag := ⟨type, fileTime s.node.epoch ts', 0, bufs.flatten⟩
  have htok : t.Ok := by
    refine ⟨?_, ?_, (by show 0 < 2 ^ 24; omega), hlen⟩
    · rcases hty with h | h
      · exact .inl h
      · exact .inr (.inl h)
    · have := fileTime_lt s.node.epoch ts'
      show fileTime s.node.epoch ts' < 2 ^ 32
      omega
  have hfile : (wrote s p type ts' bufs inc k).fs p = s.fs p ++ t.bytes := by simp only [wrote, setFile_same, hb, t]
  have hlive0 : (∃ fl, (wrote s p type ts' bufs inc k).fs p = fileHeader fl 9 ++ (ts ++ [t]).flatMap Tag.bytes) ∧
      (wrote s p type ts' bufs inc k).node.offset = ((wrote s p type ts' bufs inc k).fs p).length ∧ (∀ x ∈ ts ++ [t], x.Ok) ∧
      (c.append = false → (wrote s p type ts' bufs inc k).node.audio = (ts ++ [t]).any fun t => t.type == 8) ∧
      (c.append = false → (wrote s p type ts' bufs inc k).node.video = (ts ++ [t]).any fun t => t.type == 9) := by
    obtain ⟨fl, hf⟩ := h.file
    refine ⟨⟨fl, by rw [hfile, hf]; simp⟩, ?_, ?_, ?_, ?_⟩
    · rw [hfile, List.length_append, ← h.off]
      show s.node.offset + (frameBytes s.node.epoch type ts' bufs).length = _
      rw [hb]
    · intro x hx
      rcases List.mem_append.1 hx with hx | hx
      · exact h.hOk x hx
      · rw [List.mem_singleton.1 hx]; exact htok
    · intro ha
      show (s.node.audio || !decide (type = 9)) = _
      rw [h.audio ha]
      rcases hty with h | h <;> simp [h, t]
    · intro ha
      show (s.node.video || decide (type = 9)) = _
      rw [h.video ha]
      rcases hty with h | h <;> simp [h, t]
  have hrest : Rest c (wrote s p type ts' bufs inc k) p := by
    intro q hq
    show Whole c (setFile s.fs p _ q)
    rw [setFile_other _ hq]; exact hr q hq
  by_cases hlim : limit c (wrote s p type ts' bufs inc k).node
  · rw [if_pos hlim] at e
    obtain ⟨s', ec, hf, hfs⟩ := nodeClose_opened hW (s := wrote s p type ts' bufs inc k) (p := p) h.fd
    refine ⟨s', t, by rw [e, ec]; rfl, .inr ⟨hf, fun q => ?_⟩⟩
    rw [hfs, if_pos (show (wrote s p type ts' bufs inc k).node.initialized = true from h.init)]
    by_cases hq : q = p
    · rw [hq, setFile_same]
      obtain ⟨fl, hf'⟩ := hlive0.1
      rw [hf', put_flags]
      refine .inr ⟨_, ts ++ [t], rfl, hlive0.2.2.1, fun ha => ⟨avMask_maskOf _ _ (hlive0.2.2.2.1 ha) (hlive0.2.2.2.2 ha), fun hm => .inr ?_, fun hm => ?_⟩⟩
      · have h1 := h.size ha hm
        rw [h.off, h.length] at h1
        simpa using h1
      · have h1 := h.frames ha hm
        have h2 := hcount ha
        simp only [List.length_append, List.length_cons, List.length_nil]
        omega
    · rw [setFile_other _ hq]; exact hrest q hq
  · rw [if_neg hlim] at e
    refine ⟨_, t, e, .inl ⟨⟨h.fd, h.init, hlive0.1, hlive0.2.1, hlive0.2.2.1, hlive0.2.2.2.1, hlive0.2.2.2.2, fun _ hm => ?_, fun _ hm => ?_⟩, hrest, rfl, rfl, rfl⟩⟩
    · simp only [limit, not_or, not_and] at hlim
      have := hlim.1 hm
      omega
    · simp only [limit, not_or, not_and] at hlim
      have := hlim.2 hm
      omega

omit hW in
theorem writeFrame_idle (W : Disk) {s : S} (hf : s.node.fd = .invalid) (hw : ∀ q, Whole c (s.fs q)) (type ts mlen : Nat) (bufs : List Bytes) (inc : Nat) :
    ∃ s' ok, writeFrame W c s type ts mlen bufs inc = some (s', ok) ∧ s'.node.fd = .invalid ∧ ∀ q, Whole c (s'.fs q) := by
  unfold writeFrame
  by_cases h : type = 9
  · refine ⟨{ s with node := { s.node with video := true, failed := true } }, false, ?_, hf, hw⟩
    simp only [if_pos h, write, hf, Option.bind_some, Bool.not_false, if_true]
  · refine ⟨{ s with node := { s.node with audio := true, failed := true } }, false, ?_, hf, hw⟩
    simp only [if_neg h, write, hf, Option.bind_some, Bool.not_false, if_true]

/-- States after the header was written. -/
inductive Mid (s : S) : Prop
  | idle : s.node.fd = .invalid → (∀ q, Whole c (s.fs q)) → Mid s
  | live (p : Nat) (ts : List Tag) : Live c s p ts → (c.append = false → ts.length ≤ count s) → Rest c s p → Mid s

omit hW in
theorem Mid.inv {s : S} (h : Mid c s) : Inv c s := by
  cases h with
  | idle a b => exact .idle a b
  | live p ts a b d => exact .live p ts a b d

theorem writeAac_inv {s : S} (h : Mid c s) (e : Av) (he : e.Ok) : ∃ s' ok, writeAac W c e s = some (s', ok) ∧ Mid c s' := by
  unfold writeAac
  cases hh : e.codec.bind Codec.aacHeader with
  | none => exact ⟨s, true, rfl, h⟩
  | some hd =>
    dsimp only
    by_cases hc : (!s.node.aacSent && c.audio) = true
    · rw [if_pos hc]
      have hns : s.node.aacSent = false := by simp at hc; exact hc.1
      cases h with
      | idle hf hw =>
        obtain ⟨s', ok, e1, h1, h2⟩ := writeFrame_idle c W hf hw 8 e.ts (hd.map List.length).sum hd 0
        rw [e1]
        cases ok with
        | true => exact ⟨_, _, rfl, .idle h1 h2⟩
        | false => exact ⟨_, _, rfl, .idle h1 h2⟩
      | live p ts hl hcnt hr =>
        obtain ⟨s', t, e1, h1⟩ := writeFrame_live hW c hl hr 8 e.ts hd (mlen := (hd.map List.length).sum) (by simp [List.length_flatten]) 0 (by omega) (.inl rfl)
          (he.hAac hd hh) (fun ha => by have h1 := hcnt ha; have := nat_le s.node.avcSent; simp only [count, hns, nat] at h1 this ⊢; simp at h1; omega)
        rw [e1]
        refine ⟨_, _, rfl, ?_⟩
        rcases h1 with ⟨a, b, hn, ha', hv'⟩ | ⟨a, b⟩
        · refine .live p (ts ++ [t]) ⟨a.fd, a.init, a.file, a.off, a.hOk, a.audio, a.video, a.size, a.frames⟩ (fun ha => ?_) b
          have := hcnt ha
          simp only [count, hn, hv', hns, List.length_append, List.length_cons, List.length_nil] at this ⊢
          simp [nat] at this ⊢
          omega
        · exact .idle a b
    · rw [if_neg hc]; exact ⟨s, true, rfl, h⟩

theorem writeAvc_inv {s : S} (h : Mid c s) (e : Av) (he : e.Ok) : ∃ s' ok, writeAvc W c e s = some (s', ok) ∧ Mid c s' := by
  unfold writeAvc
  cases hh : e.codec.bind Codec.avcHeader with
  | none => exact ⟨s, true, rfl, h⟩
  | some hd =>
    dsimp only
    by_cases hc : (!s.node.avcSent && (c.video || c.keyframes)) = true
    · rw [if_pos hc]
      have hns : s.node.avcSent = false := by simp at hc; exact hc.1
      cases h with
      | idle hf hw =>
        obtain ⟨s', ok, e1, h1, h2⟩ := writeFrame_idle c W hf hw 9 e.ts (hd.map List.length).sum hd 0
        rw [e1]
        cases ok with
        | true => exact ⟨_, _, rfl, .idle h1 h2⟩
        | false => exact ⟨_, _, rfl, .idle h1 h2⟩
      | live p ts hl hcnt hr =>
        obtain ⟨s', t, e1, h1⟩ := writeFrame_live hW c hl hr 9 e.ts hd (mlen := (hd.map List.length).sum) (by simp [List.length_flatten]) 0 (by omega) (.inr rfl)
          (he.hAvc hd hh) (fun ha => by have h1 := hcnt ha; have := nat_le s.node.aacSent; simp only [count, hns, nat] at h1 this ⊢; simp at h1; omega)
        rw [e1]
        refine ⟨_, _, rfl, ?_⟩
        rcases h1 with ⟨a, b, hn, ha', hv'⟩ | ⟨a, b⟩
        · refine .live p (ts ++ [t]) ⟨a.fd, a.init, a.file, a.off, a.hOk, a.audio, a.video, a.size, a.frames⟩ (fun ha => ?_) b
          have := hcnt ha
          simp only [count, hn, ha', hns, List.length_append, List.length_cons, List.length_nil] at this ⊢
          simp [nat] at this ⊢
          omega
        · exact .idle a b
    · rw [if_neg hc]; exact ⟨s, true, rfl, h⟩

theorem writeIt_inv {s : S} (h : Mid c s) (e : Av) (he : e.Ok) : ∃ s', (writeFrame W c s e.type e.ts e.mlen e.bufs 1).map Prod.fst = some s' ∧ Mid c s' := by
  cases h with
  | idle hf hw =>
    obtain ⟨s', ok, e1, h1, h2⟩ := writeFrame_idle c W hf hw e.type e.ts e.mlen e.bufs 1
    rw [e1]
    exact ⟨_, rfl, .idle h1 h2⟩
  | live p ts hl hcnt hr =>
    obtain ⟨s', t, e1, h1⟩ := writeFrame_live hW c hl hr e.type e.ts e.bufs he.hLen 1 (by omega) he.hType he.hMax
      (fun ha => by
        have h1 := hcnt ha; have := nat_le s.node.aacSent; have := nat_le s.node.avcSent; simp only [count] at h1; omega)
    rw [e1]
    refine ⟨_, rfl, ?_⟩
    rcases h1 with ⟨a, b, hn, ha', hv'⟩ | ⟨a, b⟩
    · refine .live p (ts ++ [t]) a (fun ha => ?_) b
      have := hcnt ha
      simp only [count, hn, ha', hv', List.length_append, List.length_cons, List.length_nil] at this ⊢
      omega
    · exact .idle a b

theorem writeAv_inv {s : S} (h : Mid c s) (e : Av) (he : e.Ok) : ∃ s', writeAv W c e s = some s' ∧ Mid c s' := by
  unfold writeAv
  by_cases h9 : e.type = 9
  · rw [if_pos h9]
    by_cases h1 : (h264 e && !s.node.avcSent) = true
    · rw [if_pos h1]; exact ⟨s, rfl, h⟩
    · rw [if_neg h1]
      have hk : ∀ s1 : S, (s1 = s ∨ s1 = { s with node := { s.node with keySent := true } }) → Mid c s1 := by
        rintro s1 (rfl | rfl)
        · exact h
        · cases h with
          | idle a b => exact .idle a b
          | live p ts a b d => exact .live p ts ⟨a.fd, a.init, a.file, a.off, a.hOk, a.audio, a.video, a.size, a.frames⟩ b d
      by_cases hkk : (decide (frameType e = 1) && (e.codec.isSome && !h264 e || !isCodecHeader e)) = true
      · simp only [if_pos hkk, Bool.not_true, Bool.false_eq_true, if_false]
        exact writeIt_inv hW c (hk _ (.inr rfl)) e he
      · simp only [if_neg hkk]
        by_cases h2 : (!s.node.keySent) = true
        · rw [if_pos h2]; exact ⟨s, rfl, h⟩
        · rw [if_neg h2]; exact writeIt_inv hW c h e he
  · rw [if_neg h9]
    by_cases h1 : (aac e && !s.node.aacSent) = true
    · rw [if_pos h1]; exact ⟨s, rfl, h⟩
    · rw [if_neg h1]; exact writeIt_inv hW c h e he

theorem begin_inv {s : S} (h : Inv c s) (hne : s.node.fd ≠ .invalid) (e : Av) : ∃ s', beginFile W e s = some (s', true) ∧ Mid c s' := by
  cases h with
  | idle hf _ => exact absurd hf hne
  | live p ts hl hc hr => exact ⟨s, by simp [beginFile, hl.init], .live p ts hl hc hr⟩
  | new p hn hr =>
    obtain ⟨s1, e1, hend, hfile, hoth, hfl, hsh, hla, hau, hvi⟩ := beginFile_plan hW e hn.fd (by rw [hn.init]; simpa using hn.fresh)
    refine ⟨s1, e1, ?_⟩
    rw [if_neg (by simp [hn.init])] at hfile
    have hst : start s.node.timeShift (flOf s.node) e = { flOf s.node with init := true, epoch := epochOf e.ts s.node.timeShift } := by
      have : (flOf s.node).init = false := hn.init
      simp [start, this]
    rw [hst] at hfl
    have hinit : s1.node.initialized = true := by
      have : (flOf s1.node).init = true := by rw [hfl]
      exact this
    have hnf : s1.node.nframes = 0 := by
      have : (flOf s1.node).cnt = (flOf s.node).cnt := by rw [hfl]
      simpa [flOf, hn.flags.2.2.1] using this
    have hbase : ∃ fl ts, base s p = fileHeader fl 9 ++ ts.flatMap Tag.bytes ∧ (∀ t ∈ ts, t.Ok) ∧ (c.append = false → ts = []) := by
      by_cases h0 : s.node.offset = 0
      · exact ⟨5, [], by simp [base, h0, flvHeader_eq], by simp, fun _ => rfl⟩
      · have hl : s.node.offset = (s.fs p).length := by
          rcases hn.fresh with h | h
          · exact h
          · exact absurd h.1 h0
        rcases hn.whole with hw | ⟨fl, ts, h1, h2, _⟩
        · rw [hw] at hl; exact absurd hl h0
        · exact ⟨fl, ts, by simp [base, h0, h1], h2, fun ha => absurd (hn.empty ha).1 h0⟩
    obtain ⟨fl, ts, hb, hok, hemp⟩ := hbase
    have hlen : c.append = false → s1.node.offset = 13 := by
      intro ha; rw [hend.off, hfile, hb, hemp ha]; rfl
    refine .live p ts ⟨hend.fd, hinit, ⟨fl, by rw [hfile, hb]⟩, hend.off, hok, fun ha => ?_, fun ha => ?_, fun ha hm => ?_, fun ha hm => ?_⟩ (fun ha => ?_) ?_
    · rw [hau, hn.flags.2.2.2.1, hemp ha]; rfl
    · rw [hvi, hn.flags.2.2.2.2, hemp ha]; rfl
    · rw [hlen ha]; omega
    · rw [hnf]; omega
    · rw [hemp ha]; simp
    · intro q hq; rw [hoth q hq]; exact hr q hq

theorem break_inv {s : S} (h : Inv c s) (e : Av) : ∃ s', breakFile W c e s = some s' ∧ Inv c s' := by
  unfold breakFile
  by_cases hb : ((if e.type = 9 then keyframe e else !c.video) && !c.manual) = true
  · simp only [if_pos hb]
    cases hi : c.interval with
    | none =>
      dsimp only
      by_cases hf : (!s.node.failed) = true
      · rw [if_pos hf]; exact ⟨_, rfl, open_inv c h _⟩
      · rw [if_neg hf]; exact ⟨s, rfl, h⟩
    | some i =>
      dsimp only
      by_cases he : elapsed s.node.last e.env.now i = true
      · rw [if_pos he]
        obtain ⟨s', e1, hf, hw⟩ := close_inv hW c h
        rw [e1]
        exact ⟨_, rfl, open_inv c (.idle hf hw) _⟩
      · rw [if_neg he]; exact ⟨s, rfl, h⟩
  · simp only [if_neg hb]; exact ⟨s, rfl, h⟩

theorem av_inv {s : S} (h : Inv c s) (e : Av) (he : e.Ok) : ∃ s', nodeAv W c e s = some s' ∧ Inv c s' := by
  unfold nodeAv
  by_cases hoff : c.off = true
  · rw [if_pos hoff]
    obtain ⟨s', e1, hf, hw⟩ := close_inv hW c h
    exact ⟨s', e1, .idle hf hw⟩
  · rw [if_neg hoff]
    obtain ⟨s1, e1, h1⟩ := break_inv hW c h e
    rw [e1, Option.bind_some]
    dsimp only
    refine ite_ex ⟨s1, rfl, h1⟩ (fun _ => ite_ex ⟨s1, rfl, h1⟩ fun hne => ite_ex ⟨s1, rfl, h1⟩ fun _ => ite_ex ⟨s1, rfl, h1⟩ fun _ => ?_)
    obtain ⟨s2, e2, h2⟩ := begin_inv hW c h1 hne e
    rw [e2, Option.bind_some]
    simp only [Bool.not_true, Bool.false_eq_true, if_false]
    obtain ⟨s3, ok3, e3, h3⟩ := writeAac_inv hW c h2 e he
    rw [e3, Option.bind_some]
    cases ok3 with
    | false => exact ⟨s3, rfl, h3.inv⟩
    | true =>
      simp only [Bool.not_true, Bool.false_eq_true, if_false]
      obtain ⟨s4, ok4, e4, h4⟩ := writeAvc_inv hW c h3 e he
      rw [e4, Option.bind_some]
      cases ok4 with
      | false => exact ⟨s4, rfl, h4.inv⟩
      | true =>
        simp only [Bool.not_true, Bool.false_eq_true, if_false]
        obtain ⟨s5, e5, h5⟩ := writeAv_inv hW c h4 e he
        exact ⟨s5, e5, h5.inv⟩

/-- Well-formed messages in a history. -/
theorem run_inv (os : List Op) (hos : ∀ e, Op.av e ∈ os → e.Ok) : ∀ {s : S}, Inv c s → ∃ s', run W c s os = some s' ∧ Inv c s' := by
  induction os with
  | nil => intro s h; exact ⟨s, rfl, h⟩
  | cons o os ih =>
    intro s h
    have hstep : ∃ s1, step W c s o = some s1 ∧ Inv c s1 := by
      cases o with
      | start e =>
        simp only [step]
        by_cases hc : (c.off || c.manual) = true
        · rw [if_pos hc]; exact ⟨s, rfl, h⟩
        · rw [if_neg hc]; exact ⟨_, rfl, open_inv c h _⟩
      | stop =>
        obtain ⟨s', e1, hf, hw⟩ := close_inv hW c h
        exact ⟨s', e1, .idle hf hw⟩
      | «open» e => exact ⟨_, rfl, open_inv c h _⟩
      | av e => exact av_inv hW c h e (hos e (by simp))
    obtain ⟨s1, e1, h1⟩ := hstep
    obtain ⟨s2, e2, h2⟩ := ih (fun e he => hos e (by simp [he])) h1
    exact ⟨s2, by simp only [run, e1, Option.bind_some, e2], h2⟩

end
end Verif.Rec
