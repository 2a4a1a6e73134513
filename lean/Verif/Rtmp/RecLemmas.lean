import Verif.Rtmp.RecSpec
/- The recorder on a disk without errors, and its plan. -/
namespace Verif.Rec
open Verif Verif.Flv

theorem put_end (c d : Bytes) : put c c.length d = c ++ d := by simp [put]

theorem setFile_same (fs : Nat → Bytes) (p : Nat) (c : Bytes) : setFile fs p c p = c := by simp [setFile]

theorem setFile_other (fs : Nat → Bytes) {p q : Nat} (h : q ≠ p) (c : Bytes) : setFile fs p c q = fs q := by simp [setFile, h]

theorem setFile_setFile (fs : Nat → Bytes) (p : Nat) (c d : Bytes) : setFile (setFile fs p c) p d = setFile fs p d := by
  funext q; simp only [setFile]; split <;> rfl

theorem write_end {W : Disk} (hW : ∀ i, W i = none) {s : S} {p : Nat} (hfd : s.node.fd = .opened p) (hoff : s.node.offset = (s.fs p).length) (d : Bytes) :
    write W s s.node.offset d = some (⟨{ s.node with offset := s.node.offset + d.length }, setFile s.fs p (s.fs p ++ d), s.writes + 1⟩, true) := by
  simp only [write, hfd, hW]
  rw [hoff, put_end]

theorem writeBody_spec {W : Disk} (hW : ∀ i, W i = none) (p : Nat) (bufs : List Bytes) : ∀ (s : S), s.node.fd = .opened p → s.node.offset = (s.fs p).length →
    ∃ k, writeBody W s bufs = some (⟨{ s.node with offset := s.node.offset + bufs.flatten.length }, setFile s.fs p (s.fs p ++ bufs.flatten), k⟩, true) := by
  induction bufs with
  | nil =>
    intro s _ _
    refine ⟨s.writes, ?_⟩
    have : setFile s.fs p (s.fs p ++ [].flatten) = s.fs := by
      funext q; simp only [setFile]; split <;> simp_all
    simp only [writeBody, this]
    simp
  | cons b bufs ih =>
    intro s hfd hoff
    by_cases hb : b = []
    · obtain ⟨k, h⟩ := ih s hfd hoff
      exact ⟨k, by simp only [writeBody, if_pos hb, h]; simp [hb]⟩
    · have hw := write_end hW hfd hoff b
      obtain ⟨k, h⟩ := ih ⟨{ s.node with offset := s.node.offset + b.length }, setFile s.fs p (s.fs p ++ b), s.writes + 1⟩ hfd
        (by simp [setFile_same, hoff])
      refine ⟨k, ?_⟩
      simp only [writeBody, if_neg hb, hw, Option.bind_some, if_true, h, setFile_same, setFile_setFile]
      simp [Nat.add_assoc]

/-- Bytes of one frame. -/
def frameBytes (epoch type ts : Nat) (bufs : List Bytes) : Bytes :=
  tagHeader type bufs.flatten.length (fileTime epoch ts) ++ bufs.flatten ++
    [byteAt ((11 + bufs.flatten.length) % 2 ^ 32) 3, byteAt ((11 + bufs.flatten.length) % 2 ^ 32) 2,
     byteAt ((11 + bufs.flatten.length) % 2 ^ 32) 1, byteAt ((11 + bufs.flatten.length) % 2 ^ 32) 0]

/-- State after a frame was written, before limits are looked at. -/
def wrote (s : S) (p type ts : Nat) (bufs : List Bytes) (inc k : Nat) : S :=
  ⟨{ s.node with
      audio := s.node.audio || !decide (type = 9)
      video := s.node.video || decide (type = 9)
      offset := s.node.offset + (frameBytes s.node.epoch type ts bufs).length
      nframes := s.node.nframes + inc },
   setFile s.fs p (s.fs p ++ frameBytes s.node.epoch type ts bufs), k⟩

def limit (c : Conf) (n : Node) : Prop := (c.maxSize ≠ 0 ∧ n.offset ≥ c.maxSize) ∨ (c.maxFrames ≠ 0 ∧ n.nframes ≥ c.maxFrames)

instance (c : Conf) (n : Node) : Decidable (limit c n) := by unfold limit; infer_instance

theorem writeFrame_spec {W : Disk} (hW : ∀ i, W i = none) (c : Conf) {s : S} {p : Nat} (hfd : s.node.fd = .opened p)
    (hoff : s.node.offset = (s.fs p).length) (type ts : Nat) {mlen : Nat} (bufs : List Bytes) (hm : mlen = bufs.flatten.length) (inc : Nat) :
    ∃ k, writeFrame W c s type ts mlen bufs inc =
      if limit c (wrote s p type ts bufs inc k).node then (nodeClose W (wrote s p type ts bufs inc k)).map fun s => (s, true)
      else some (wrote s p type ts bufs inc k, true) := by
  subst hm
  obtain ⟨node, fs, writes⟩ := s
  simp only at hfd hoff
  -- the kind of tag
  let n0 : Node := { node with audio := node.audio || !decide (type = 9), video := node.video || decide (type = 9) }
  have h0 : (if type = 9 then ({ node := { node with video := true }, fs := fs, writes := writes } : S)
      else { node := { node with audio := true }, fs := fs, writes := writes }) = ⟨n0, fs, writes⟩ := by
    by_cases h : type = 9 <;> simp [n0, h]
  have w1 := write_end hW (s := ⟨n0, fs, writes⟩) (p := p) hfd hoff (tagHeader type bufs.flatten.length (fileTime node.epoch ts))
  obtain ⟨k, w2⟩ := writeBody_spec hW p bufs (s := ⟨{ n0 with offset := n0.offset + (tagHeader type bufs.flatten.length (fileTime node.epoch ts)).length },
    setFile fs p (fs p ++ tagHeader type bufs.flatten.length (fileTime node.epoch ts)), writes + 1⟩) hfd (by simp [setFile_same, n0, hoff])
  simp only [setFile_same, setFile_setFile] at w2
  have w3 := write_end hW (s := ⟨{ n0 with offset := n0.offset + (tagHeader type bufs.flatten.length (fileTime node.epoch ts)).length + bufs.flatten.length },
    setFile fs p (fs p ++ tagHeader type bufs.flatten.length (fileTime node.epoch ts) ++ bufs.flatten), k⟩) (p := p) hfd
    (by simp [setFile_same, n0, hoff]; omega) [byteAt ((11 + bufs.flatten.length) % 2 ^ 32) 3, byteAt ((11 + bufs.flatten.length) % 2 ^ 32) 2,
     byteAt ((11 + bufs.flatten.length) % 2 ^ 32) 1, byteAt ((11 + bufs.flatten.length) % 2 ^ 32) 0]
  simp only [setFile_same, setFile_setFile] at w3
  refine ⟨k + 1, ?_⟩
  have hend : ∀ x y z : Nat, x + y + z = x + (y + z) := by omega
  have hfin : (⟨{ n0 with offset := n0.offset + (tagHeader type bufs.flatten.length (fileTime node.epoch ts)).length + bufs.flatten.length + 4,
                          nframes := n0.nframes + inc },
      setFile fs p (fs p ++ tagHeader type bufs.flatten.length (fileTime node.epoch ts) ++ bufs.flatten ++
        [byteAt ((11 + bufs.flatten.length) % 2 ^ 32) 3, byteAt ((11 + bufs.flatten.length) % 2 ^ 32) 2,
         byteAt ((11 + bufs.flatten.length) % 2 ^ 32) 1, byteAt ((11 + bufs.flatten.length) % 2 ^ 32) 0]), k + 1⟩ : S) =
      wrote ⟨node, fs, writes⟩ p type ts bufs inc (k + 1) := by
    simp [wrote, frameBytes, n0, Nat.add_assoc]
  unfold writeFrame
  simp only [h0]
  rw [show n0.epoch = node.epoch from rfl, w1]
  simp only [Option.bind_some, Bool.not_true, Bool.false_eq_true, if_false]
  rw [w2]
  simp only [Option.bind_some, Bool.not_true, Bool.false_eq_true, if_false]
  rw [w3]
  simp only [Option.bind_some, Bool.not_true, Bool.false_eq_true, if_false, List.length_cons, List.length_nil]
  rw [← hfin]
  rfl

end Verif.Rec
