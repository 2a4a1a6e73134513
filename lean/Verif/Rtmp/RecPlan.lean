import Verif.Rtmp.RecLemmas
/- What the recorder writes, as a machine on items; the bytes follow it. -/
namespace Verif.Rec
open Verif Verif.Flv

theorem frameType_eq {e : Av} (he : e.Ok) (h9 : e.type = 9) : decide (frameType e = 1) = isKey e := by
  obtain ⟨b, bs, hb, hne, _⟩ := he.hFirst h9
  cases b with
  | nil => exact absurd rfl hne
  | cons x xs => simp [frameType, isKey, hb]

theorem isCodecHeader_eq {e : Av} (he : e.Ok) (h9 : e.type = 9) : isCodecHeader e = isHeader e := by
  obtain ⟨b, bs, hb, hne, h1⟩ := he.hFirst h9
  match b, hne, h1 with
  | [x], _, h1 => simp [isCodecHeader, isHeader, hb, h1 rfl]
  | x :: y :: ys, _, _ => simp [isCodecHeader, isHeader, hb]

theorem isH264_eq (e : Av) : h264 e = isH264 e := by unfold h264 isH264; cases e.codec <;> rfl
theorem isAac_eq (e : Av) : aac e = isAac e := by unfold aac isAac; cases e.codec <;> rfl

theorem startsVideo_eq {e : Av} (he : e.Ok) (h9 : e.type = 9) :
    startsVideo e = (decide (frameType e = 1) && ((e.codec.isSome && !h264 e) || !isCodecHeader e)) := by
  simp only [startsVideo, h9, decide_true, Bool.true_and, frameType_eq he h9, isCodecHeader_eq he h9, isH264_eq]

theorem keyframe_eq {e : Av} (he : e.Ok) (h9 : e.type = 9) : keyframe e = isKey e := by
  simp only [keyframe, h9, decide_true, Bool.true_and, frameType_eq he h9]

/-- The flags that decide. -/
structure Fl where
  init : Bool
  aac : Bool
  avc : Bool
  key : Bool
  cnt : Bool
  epoch : Nat
deriving DecidableEq

def flOf (n : Node) : Fl := ⟨n.initialized, n.aacSent, n.avcSent, n.keySent, decide (n.nframes ≠ 0), n.epoch⟩

def brkOf (c : Conf) (e : Av) : Bool := if e.type = 9 then keyframe e else !c.video

def aacItems (c : Conf) (f : Fl) (e : Av) : List Item :=
  if !f.aac && c.audio then (e.codec.bind Codec.aacHeader).toList.map (Item.aacHdr e) else []

def avcItems (c : Conf) (f : Fl) (e : Av) : List Item :=
  if !f.avc && (c.video || c.keyframes) then (e.codec.bind Codec.avcHeader).toList.map (Item.avcHdr e) else []

def withHdrs (c : Conf) (f : Fl) (e : Av) : Fl :=
  { f with aac := f.aac || !(aacItems c f e).isEmpty, avc := f.avc || !(avcItems c f e).isEmpty }

/-- The message itself, flags with headers. -/
def planFrame (f : Fl) (e : Av) : Fl × List Item :=
  if e.type = 9 then
    if h264 e && !f.avc then (f, [])
    else if f.key || startsVideo e then ({ f with key := f.key || startsVideo e, cnt := true }, [.frame e])
    else (f, [])
  else if aac e && !f.aac then (f, [])
  else ({ f with cnt := true }, [.frame e])

def planBody (c : Conf) (f : Fl) (e : Av) : Fl × List Item :=
  ((planFrame (withHdrs c f e) e).1, aacItems c f e ++ avcItems c f e ++ (planFrame (withHdrs c f e) e).2)

def start (shift : Nat) (f : Fl) (e : Av) : Fl := if f.init then f else { f with init := true, epoch := epochOf e.ts shift }

def skips (c : Conf) (f : Fl) (e : Av) : Bool := (c.manual && !brkOf c e && !f.cnt) || !asked c e

def plan (c : Conf) (shift : Nat) (f : Fl) (e : Av) : Fl × List Item :=
  if skips c f e then (f, []) else planBody c (start shift f e) e

def Item.bytes (epoch : Nat) : Item → Bytes
  | .aacHdr e h => frameBytes epoch 8 e.ts h
  | .avcHdr e h => frameBytes epoch 9 e.ts h
  | .frame e => frameBytes epoch e.type e.ts e.bufs

def Item.type : Item → Nat
  | .aacHdr _ _ => 8
  | .avcHdr _ _ => 9
  | .frame e => e.type

/-- Writing at the end of a file. -/
structure AtEnd (s : S) (p : Nat) : Prop where
  fd : s.node.fd = .opened p
  off : s.node.offset = (s.fs p).length

/-- `s'` is `s` after items were written to `p`. -/
structure Wrote (s s' : S) (p : Nat) (is : List Item) : Prop where
  atEnd : AtEnd s' p
  file : s'.fs p = s.fs p ++ is.flatMap (Item.bytes s.node.epoch)
  others : ∀ q, q ≠ p → s'.fs q = s.fs q
  epoch : s'.node.epoch = s.node.epoch
  shift : s'.node.timeShift = s.node.timeShift
  failed : s'.node.failed = s.node.failed
  last : s'.node.last = s.node.last
  audio : s'.node.audio = (s.node.audio || is.any fun i => i.type != 9)
  video : s'.node.video = (s.node.video || is.any fun i => i.type == 9)

theorem Wrote.refl {s : S} {p : Nat} (h : AtEnd s p) : Wrote s s p [] :=
  ⟨h, by simp, fun _ _ => rfl, rfl, rfl, rfl, rfl, by simp, by simp⟩

theorem Wrote.trans {s s' s'' : S} {p : Nat} {is is' : List Item} (h : Wrote s s' p is) (h' : Wrote s' s'' p is') : Wrote s s'' p (is ++ is') :=
  ⟨h'.atEnd, by rw [h'.file, h.file, h.epoch]; simp, fun q hq => by rw [h'.others q hq, h.others q hq], by rw [h'.epoch, h.epoch], by rw [h'.shift, h.shift],
   by rw [h'.failed, h.failed], by rw [h'.last, h.last], by rw [h'.audio, h.audio]; simp [Bool.or_assoc], by rw [h'.video, h.video]; simp [Bool.or_assoc]⟩

theorem wrote_wrote {s : S} {p : Nat} (h : AtEnd s p) (type ts : Nat) (bufs : List Bytes) (inc k : Nat) (i : Item)
    (hb : i.bytes s.node.epoch = frameBytes s.node.epoch type ts bufs) (ht : i.type = type) :
    Wrote s (wrote s p type ts bufs inc k) p [i] := by
  refine ⟨⟨h.fd, ?_⟩, ?_, ?_, rfl, rfl, rfl, rfl, ?_, ?_⟩
  · simp [wrote, setFile_same, h.off]
  · simp [wrote, setFile_same, hb]
  · intro q hq; exact setFile_other _ hq _
  · show (s.node.audio || !decide (type = 9)) = _
    by_cases h9 : type = 9 <;> simp [h9, ht]
  · show (s.node.video || decide (type = 9)) = _
    by_cases h9 : type = 9 <;> simp [h9, ht]

section
variable {W : Disk} (hW : ∀ i, W i = none) (c : Conf) (hl : c.maxSize = 0 ∧ c.maxFrames = 0)
include hW hl

omit hW in
theorem no_limit (n : Node) : ¬ limit c n := by simp [limit, hl]

theorem writeFrame_plain {s : S} {p : Nat} (h : AtEnd s p) (type ts : Nat) {mlen : Nat} (bufs : List Bytes) (hm : mlen = bufs.flatten.length) (inc : Nat) :
    ∃ k, writeFrame W c s type ts mlen bufs inc = some (wrote s p type ts bufs inc k, true) := by
  obtain ⟨k, e⟩ := writeFrame_spec hW c h.fd h.off type ts bufs hm inc
  exact ⟨k, by rw [e, if_neg (no_limit c hl _)]⟩

theorem writeAac_plan {s : S} {p : Nat} (h : AtEnd s p) (e : Av) :
    ∃ s', writeAac W c e s = some (s', true) ∧ Wrote s s' p (aacItems c (flOf s.node) e) ∧
      flOf s'.node = { flOf s.node with aac := s.node.aacSent || !(aacItems c (flOf s.node) e).isEmpty } := by
  unfold writeAac aacItems
  cases hh : e.codec.bind Codec.aacHeader with
  | none =>
    refine ⟨s, rfl, ?_, ?_⟩
    · simpa using Wrote.refl h
    · simp [flOf]
  | some hd =>
    by_cases hc : (!s.node.aacSent && c.audio) = true
    · obtain ⟨k, ew⟩ := writeFrame_plain hW c hl h 8 e.ts hd (by simp [List.length_flatten]) 0 (mlen := (hd.map List.length).sum)
      refine ⟨{ wrote s p 8 e.ts hd 0 k with node := { (wrote s p 8 e.ts hd 0 k).node with aacSent := true } }, ?_, ?_, ?_⟩
      · simp only [if_pos hc, ew]; rfl
      · rw [if_pos (show (!(flOf s.node).aac && c.audio) = true from hc)]
        have := wrote_wrote h 8 e.ts hd 0 k (Item.aacHdr e hd) rfl rfl
        exact ⟨⟨this.atEnd.fd, this.atEnd.off⟩, this.file, this.others, this.epoch, this.shift, this.failed, this.last, this.audio, this.video⟩
      · rw [if_pos (show (!(flOf s.node).aac && c.audio) = true from hc)]
        simp [flOf, wrote]
    · refine ⟨s, by simp only [if_neg hc], ?_, ?_⟩
      · rw [if_neg (show ¬ (!(flOf s.node).aac && c.audio) = true from hc)]; exact Wrote.refl h
      · rw [if_neg (show ¬ (!(flOf s.node).aac && c.audio) = true from hc)]; simp [flOf]

theorem writeAvc_plan {s : S} {p : Nat} (h : AtEnd s p) (e : Av) :
    ∃ s', writeAvc W c e s = some (s', true) ∧ Wrote s s' p (avcItems c (flOf s.node) e) ∧
      flOf s'.node = { flOf s.node with avc := s.node.avcSent || !(avcItems c (flOf s.node) e).isEmpty } := by
  unfold writeAvc avcItems
  cases hh : e.codec.bind Codec.avcHeader with
  | none =>
    refine ⟨s, rfl, ?_, ?_⟩
    · simpa using Wrote.refl h
    · simp [flOf]
  | some hd =>
    by_cases hc : (!s.node.avcSent && (c.video || c.keyframes)) = true
    · obtain ⟨k, ew⟩ := writeFrame_plain hW c hl h 9 e.ts hd (by simp [List.length_flatten]) 0 (mlen := (hd.map List.length).sum)
      refine ⟨{ wrote s p 9 e.ts hd 0 k with node := { (wrote s p 9 e.ts hd 0 k).node with avcSent := true } }, ?_, ?_, ?_⟩
      · simp only [if_pos hc, ew]; rfl
      · rw [if_pos (show (!(flOf s.node).avc && (c.video || c.keyframes)) = true from hc)]
        have := wrote_wrote h 9 e.ts hd 0 k (Item.avcHdr e hd) rfl rfl
        exact ⟨⟨this.atEnd.fd, this.atEnd.off⟩, this.file, this.others, this.epoch, this.shift, this.failed, this.last, this.audio, this.video⟩
      · rw [if_pos (show (!(flOf s.node).avc && (c.video || c.keyframes)) = true from hc)]
        simp [flOf, wrote]
    · refine ⟨s, by simp only [if_neg hc], ?_, ?_⟩
      · rw [if_neg (show ¬ (!(flOf s.node).avc && (c.video || c.keyframes)) = true from hc)]; exact Wrote.refl h
      · rw [if_neg (show ¬ (!(flOf s.node).avc && (c.video || c.keyframes)) = true from hc)]; simp [flOf]

theorem writeAv_plan {s : S} {p : Nat} (h : AtEnd s p) (e : Av) (he : e.Ok) :
    ∃ s', writeAv W c e s = some s' ∧ Wrote s s' p (planFrame (flOf s.node) e).2 ∧ flOf s'.node = (planFrame (flOf s.node) e).1 := by
  unfold writeAv planFrame
  by_cases h9 : e.type = 9
  · rw [if_pos h9, if_pos h9]
    by_cases h1 : (h264 e && !s.node.avcSent) = true
    · rw [if_pos h1, if_pos (show (h264 e && !(flOf s.node).avc) = true from h1)]
      exact ⟨s, rfl, Wrote.refl h, rfl⟩
    · rw [if_neg h1, if_neg (show ¬ (h264 e && !(flOf s.node).avc) = true from h1)]
      have hsv := startsVideo_eq he h9
      let s1 : S := { s with node := { s.node with keySent := s.node.keySent || startsVideo e } }
      have hs1 : (if (frameType e = 1 && ((e.codec.isSome && !h264 e) || !isCodecHeader e)) = true then
          ({ s with node := { s.node with keySent := true } } : S) else s) = s1 := by
        by_cases hk : (frameType e = 1 && ((e.codec.isSome && !h264 e) || !isCodecHeader e)) = true
        · rw [if_pos hk]; simp [s1, hsv, hk]
        · rw [if_neg hk]
          have : startsVideo e = false := by rw [hsv]; simpa using hk
          simp [s1, this]
      simp only [hs1]
      have h' : AtEnd s1 p := ⟨h.fd, h.off⟩
      by_cases hk : (s.node.keySent || startsVideo e) = true
      · rw [if_neg (by simp [s1, hk]), if_pos (show ((flOf s.node).key || startsVideo e) = true from hk)]
        obtain ⟨k, ew⟩ := writeFrame_plain hW c hl h' e.type e.ts e.bufs he.hLen 1
        refine ⟨wrote s1 p e.type e.ts e.bufs 1 k, by rw [ew]; rfl, ?_, ?_⟩
        · have := wrote_wrote h' e.type e.ts e.bufs 1 k (Item.frame e) rfl rfl
          exact ⟨⟨this.atEnd.fd, this.atEnd.off⟩, this.file, this.others, this.epoch, this.shift, this.failed, this.last, this.audio, this.video⟩
        · simp [flOf, wrote, s1]
      · have hkf : startsVideo e = false ∧ s.node.keySent = false := by simp at hk; exact ⟨hk.2, hk.1⟩
        rw [if_pos (by simp [s1, hkf.1, hkf.2]), if_neg (show ¬ ((flOf s.node).key || startsVideo e) = true from hk)]
        have hse : s1 = s := by
          obtain ⟨node, fs, writes⟩ := s
          simp only [s1, hkf.1, Bool.or_false]
        refine ⟨s1, rfl, ?_, ?_⟩
        · rw [hse]; exact Wrote.refl h
        · rw [hse]
  · rw [if_neg h9, if_neg h9]
    by_cases h1 : (aac e && !s.node.aacSent) = true
    · rw [if_pos h1, if_pos (show (aac e && !(flOf s.node).aac) = true from h1)]
      exact ⟨s, rfl, Wrote.refl h, rfl⟩
    · rw [if_neg h1, if_neg (show ¬ (aac e && !(flOf s.node).aac) = true from h1)]
      obtain ⟨k, ew⟩ := writeFrame_plain hW c hl h e.type e.ts e.bufs he.hLen 1
      exact ⟨wrote s p e.type e.ts e.bufs 1 k, by rw [ew]; rfl, wrote_wrote h e.type e.ts e.bufs 1 k (Item.frame e) rfl rfl, by simp [flOf, wrote]⟩

/-- The part of `nodeAv` after the file header. -/
theorem body_plan {s : S} {p : Nat} (h : AtEnd s p) (e : Av) (he : e.Ok) :
    ∃ s', ((writeAac W c e s).bind fun (s, ok) => if !ok then some s else
        (writeAvc W c e s).bind fun (s, ok) => if !ok then some s else writeAv W c e s) = some s' ∧
      Wrote s s' p (planBody c (flOf s.node) e).2 ∧ flOf s'.node = (planBody c (flOf s.node) e).1 := by
  obtain ⟨s1, e1, w1, f1⟩ := writeAac_plan hW c hl h e
  obtain ⟨s2, e2, w2, f2⟩ := writeAvc_plan hW c hl w1.atEnd e
  have havc : avcItems c (flOf s1.node) e = avcItems c (flOf s.node) e := by rw [f1]; rfl
  have hfl : flOf s2.node = withHdrs c (flOf s.node) e := by
    rw [f2, havc, show s1.node.avcSent = (flOf s1.node).avc from rfl, f1]
    rfl
  obtain ⟨s3, e3, w3, f3⟩ := writeAv_plan hW c hl w2.atEnd e he
  refine ⟨s3, ?_, ?_, ?_⟩
  · rw [e1]; simp only [Option.bind_some, Bool.not_true, Bool.false_eq_true, if_false, e2, e3]
  · rw [havc] at w2
    rw [hfl] at w3
    exact (w1.trans w2).trans w3
  · rw [f3, hfl]; rfl

end

/-- Where a file stands before its first message. -/
def Fresh (s : S) (p : Nat) : Prop := s.node.offset = (s.fs p).length ∨ (s.node.offset = 0 ∧ (s.fs p).length ≤ 13)

/-- Contents on which the messages of a file are put. -/
def base (s : S) (p : Nat) : Bytes := if s.node.offset = 0 then flvHeader else s.fs p

theorem beginFile_plan {W : Disk} (hW : ∀ i, W i = none) (e : Av) {s : S} {p : Nat} (hfd : s.node.fd = .opened p)
    (hpos : if s.node.initialized then s.node.offset = (s.fs p).length else Fresh s p) :
    ∃ s1, beginFile W e s = some (s1, true) ∧
      AtEnd s1 p ∧ s1.fs p = (if s.node.initialized then s.fs p else base s p) ∧ (∀ q, q ≠ p → s1.fs q = s.fs q) ∧
      flOf s1.node = start s.node.timeShift (flOf s.node) e ∧ s1.node.timeShift = s.node.timeShift ∧ s1.node.last = s.node.last ∧ s1.node.audio = s.node.audio ∧ s1.node.video = s.node.video := by
  unfold beginFile start
  obtain ⟨ep, hep⟩ : ∃ ep, ep = epochOf e.ts s.node.timeShift := ⟨_, rfl⟩
  rw [← hep]
  cases hin : s.node.initialized with
  | true =>
    rw [hin] at hpos
    simp only [if_true] at hpos
    refine ⟨s, by simp, ⟨hfd, hpos⟩, by simp, fun _ _ => rfl, ?_, rfl, rfl, rfl, rfl⟩
    simp [flOf, hin]
  | false =>
    rw [hin] at hpos
    simp only [Bool.false_eq_true, if_false] at hpos ⊢
    by_cases h0 : s.node.offset = 0
    · have hlen : (s.fs p).length ≤ 13 := by
        rcases hpos with h | h
        · omega
        · exact h.2
      rw [if_pos h0]
      have hput : put (s.fs p) 0 flvHeader = flvHeader := by
        simp only [put, List.take_zero, Nat.zero_sub, List.replicate_zero, List.nil_append]
        rw [List.drop_eq_nil_of_le (by simpa [flvHeader] using hlen), List.append_nil]
      refine ⟨⟨{ s.node with initialized := true, epoch := ep, offset := s.node.offset + flvHeader.length }, setFile s.fs p flvHeader, s.writes + 1⟩,
        ?_, ⟨hfd, ?_⟩, ?_, ?_, ?_, rfl, rfl, rfl, rfl⟩
      · simp only [write, hfd, hW, hput]
      · simp [setFile_same, h0, flvHeader]
      · simp [setFile_same, base, h0]
      · intro q hq; exact setFile_other _ hq _
      · simp [flOf, hin]
    · rw [if_neg h0]
      have hlen : s.node.offset = (s.fs p).length := by
        rcases hpos with h | h
        · exact h
        · exact absurd h.1 h0
      refine ⟨_, rfl, ⟨hfd, hlen⟩, by simp [base, h0], fun _ _ => rfl, ?_, rfl, rfl, rfl, rfl⟩
      simp [flOf, hin]

theorem breakFile_plain {W : Disk} {c : Conf} (hint : c.interval = none) (e : Av) {s : S} {p : Nat} (hfd : s.node.fd = .opened p) : breakFile W c e s = some s := by
  unfold breakFile
  rw [hint]
  have : nodeOpen c e.env s = s := by simp [nodeOpen, hfd]
  by_cases hb : ((if e.type = 9 then keyframe e else !c.video) && !c.manual) = true
  · simp only [if_pos hb, this]; split <;> rfl
  · simp only [if_neg hb]

theorem nodeAv_plan {W : Disk} (hW : ∀ i, W i = none) (c : Conf) (hl : c.maxSize = 0 ∧ c.maxFrames = 0) (hoff : c.off = false)
    (e : Av) (he : e.Ok) {s : S} {p : Nat} (hbf : breakFile W c e s = some s) (hfd : s.node.fd = .opened p)
    (hpos : if s.node.initialized then s.node.offset = (s.fs p).length else Fresh s p) :
    ∃ s', nodeAv W c e s = some s' ∧ flOf s'.node = (plan c s.node.timeShift (flOf s.node) e).1 ∧ s'.node.timeShift = s.node.timeShift ∧ s'.node.last = s.node.last ∧
      if skips c (flOf s.node) e then s' = s else
        AtEnd s' p ∧ s'.node.initialized = true ∧
        s'.fs p = (if s.node.initialized then s.fs p else base s p) ++ (plan c s.node.timeShift (flOf s.node) e).2.flatMap (Item.bytes s'.node.epoch) ∧
        (∀ q, q ≠ p → s'.fs q = s.fs q) ∧
        s'.node.audio = (s.node.audio || (plan c s.node.timeShift (flOf s.node) e).2.any fun i => i.type != 9) ∧
        s'.node.video = (s.node.video || (plan c s.node.timeShift (flOf s.node) e).2.any fun i => i.type == 9) := by
  unfold nodeAv
  rw [if_neg (by simp [hoff]), hbf, Option.bind_some]
  have hbrk : (if e.type = 9 then keyframe e else !c.video) = brkOf c e := rfl
  simp only [hbrk]
  by_cases h1 : (c.manual && !brkOf c e && decide (s.node.nframes = 0)) = true
  · rw [if_pos h1]
    have hs : skips c (flOf s.node) e = true := by
      simp only [Bool.and_eq_true, decide_eq_true_eq] at h1
      simp [skips, flOf, h1]
    refine ⟨s, rfl, ?_, rfl, rfl, ?_⟩
    · simp [plan, hs]
    · rw [if_pos hs]
  · rw [if_neg h1, if_neg (by simp [hfd])]
    have hcases : (skips c (flOf s.node) e = true ∧ ((e.type = 8 && !c.audio) = true ∨ (e.type = 9 && !c.video && (!c.keyframes || !keyframe e)) = true)) ∨
        (skips c (flOf s.node) e = false ∧ ¬ (e.type = 8 && !c.audio) = true ∧ ¬ (e.type = 9 && !c.video && (!c.keyframes || !keyframe e)) = true) := by
      have hm : (c.manual && !brkOf c e && !(flOf s.node).cnt) = false := by simpa [flOf] using h1
      simp only [skips, hm, Bool.false_or]
      rcases he.hType with h8 | h9
      · cases ha : c.audio <;> simp [asked, h8, ha]
      · cases hv : c.video <;> cases hk : c.keyframes <;> cases hf : isKey e <;> simp [asked, h9, hv, hk, keyframe_eq he h9, hf]
    rcases hcases with ⟨hs, hc⟩ | ⟨hs, hc1, hc2⟩
    · have hres : (if (decide (e.type = 8) && !c.audio) = true then some s else
          if (decide (e.type = 9) && !c.video && (!c.keyframes || !keyframe e)) = true then some s else (none : Option S)) = some s := by
        by_cases hx : (decide (e.type = 8) && !c.audio) = true
        · rw [if_pos hx]
        · rw [if_neg hx]
          rcases hc with hc | hc
          · exact absurd hc hx
          · rw [if_pos hc]
      refine ⟨s, ?_, by simp [plan, hs], rfl, rfl, by rw [if_pos hs]⟩
      by_cases hx : (decide (e.type = 8) && !c.audio) = true
      · rw [if_pos hx]
      · rw [if_neg hx]
        rcases hc with hc | hc
        · exact absurd hc hx
        · rw [if_pos hc]
    · rw [if_neg hc1, if_neg hc2]
      -- the file header
      have hstart := beginFile_plan hW e hfd hpos
      obtain ⟨s1, es, hend, hfile, hother, hfl, hsh, hla, hau, hvi⟩ := hstart
      obtain ⟨s2, eb, hw, hfl2⟩ := body_plan hW c hl hend e he
      rw [hfl] at hw hfl2
      refine ⟨s2, ?_, ?_, ?_, ?_, ?_⟩
      · rw [es]
        simp only [Option.bind_some, Bool.not_true, Bool.false_eq_true, if_false]
        exact eb
      · rw [hfl2]; simp [plan, hs]
      · rw [hw.shift, hsh]
      · rw [hw.last, hla]
      · rw [if_neg (by simp [hs])]
        have hinit : s2.node.initialized = true := by
          have : (flOf s2.node).init = true := by
            rw [hfl2]
            have hin : (start s.node.timeShift (flOf s.node) e).init = true := by
              unfold start; split
              · assumption
              · rfl
            have hb : ∀ f : Fl, f.init = true → (planBody c f e).1.init = true := by
              intro f hf
              simp only [planBody, planFrame]
              have : (withHdrs c f e).init = true := hf
              repeat' split
              all_goals exact this
            exact hb _ hin
          exact this
        have hplan : plan c s.node.timeShift (flOf s.node) e = planBody c (start s.node.timeShift (flOf s.node) e) e := by simp [plan, hs]
        refine ⟨hw.atEnd, hinit, ?_, ?_, ?_, ?_⟩
        · rw [hw.file, hfile, hplan, hw.epoch]
        · intro q hq; rw [hw.others q hq, hother q hq]
        · rw [hw.audio, hau, hplan]
        · rw [hw.video, hvi, hplan]

end Verif.Rec
