import Verif.Rtmp.RecInv
/- Files cut by time. -/
namespace Verif.Rec
open Verif Verif.Flv

/-- A file just opened, without `append`. -/
structure Open0 (s : S) (p : Nat) : Prop where
  fd : s.node.fd = .opened p
  fl : flOf s.node = fl0
  audio : s.node.audio = false
  video : s.node.video = false
  off : s.node.offset = 0
  file : s.fs p = []
  shift : s.node.timeShift = 0

theorem open_open0 {c : Conf} (ha : c.append = false) {s : S} (hf : s.node.fd = .invalid) {e : Env} (he : e.ok = true) :
    Open0 (nodeOpen c e s) e.path ∧ (nodeOpen c e s).node.last = e.now ∧ ∀ q, q ≠ e.path → (nodeOpen c e s).fs q = s.fs q := by
  have : nodeOpen c e s = { s with node := { last := e.now, fd := .opened e.path }, fs := setFile s.fs e.path [] } := by
    simp [nodeOpen, hf, he, ha]
  rw [this]
  exact ⟨⟨rfl, rfl, rfl, rfl, rfl, setFile_same _ _ _, rfl⟩, rfl, fun q hq => setFile_other _ hq _⟩

theorem elapsed_now (now : Nat × Nat) (i : Nat) : elapsed now now i = false := by
  obtain ⟨a, b⟩ := now
  simp only [elapsed, Bool.or_eq_false_iff, decide_eq_false_iff_not, Bool.and_eq_false_iff]
  refine ⟨by omega, ?_⟩
  by_cases h : (b + i) / 1000 = 0
  · right; omega
  · left; omega

def breaks (c : Conf) (i : Nat) (last : Nat × Nat) (e : Av) : Bool := brkOf c e && elapsed last e.env.now i

section
variable {W : Disk} (hW : ∀ i, W i = none) {c : Conf} (hl : c.maxSize = 0 ∧ c.maxFrames = 0) (hoff : c.off = false) (hm : c.manual = false) (ha : c.append = false)
  {i : Nat} (hint : c.interval = some i)

include hm hint in
theorem breakFile_not {e : Av} {s : S} (h : breaks c i s.node.last e = false) : breakFile W c e s = some s := by
  unfold breakFile
  simp only [hint, hm, Bool.not_false, Bool.and_true]
  by_cases hb : brkOf c e = true
  · rw [if_pos (show (if e.type = 9 then keyframe e else !c.video) = true from hb), if_neg]
    simpa [breaks, hb] using h
  · rw [if_neg (show ¬ (if e.type = 9 then keyframe e else !c.video) = true from hb)]

include hm hint in
theorem breakFile_yes {e : Av} {s : S} (h : breaks c i s.node.last e = true) : breakFile W c e s = (nodeClose W s).map (nodeOpen c e.env) := by
  simp only [breaks, Bool.and_eq_true] at h
  unfold breakFile
  simp only [hint, hm, Bool.not_false, Bool.and_true]
  rw [if_pos (show (if e.type = 9 then keyframe e else !c.video) = true from h.1), if_pos h.2]

theorem breaks_due {e : Av} (he : e.Ok) {t : Nat × Nat} (ht : t.2 < 1000) (hn : e.env.now.2 < 1000) : breaks c i t e = true ↔ due c i t e := by
  have h1 : brkOf c e = mayCut c e := by
    unfold brkOf mayCut
    by_cases h9 : e.type = 9
    · rw [if_pos h9, if_pos h9, keyframe_eq he h9]
    · rw [if_neg h9, if_neg h9]
  simp only [breaks, due, h1, Bool.and_eq_true, elapsed, ms, Bool.or_eq_true, decide_eq_true_eq]
  constructor
  · rintro ⟨a, b⟩
    refine ⟨a, ?_⟩
    omega
  · rintro ⟨a, b⟩
    refine ⟨a, ?_⟩
    omega

/-- Files for `es`, the first one being `p`. -/
def Segs (W : Disk) (c : Conf) (i : Nat) (es : List Av) (s : S) (p : Nat) : Prop :=
  ∃ (a : List Av) (rest : List (Nat × List Av)) (s' : S), run W c s (es.map .av ++ [.stop]) = some s' ∧ s'.node.fd = .invalid ∧
    (∀ e b, es = e :: b → breaks c i s.node.last e = false → ∃ a', a = e :: a') ∧ es = a ++ rest.flatMap Prod.snd ∧ CutRight c i s.node.last a rest ∧
    (∀ q, q ∉ p :: rest.map Prod.fst → s'.fs q = s.fs q) ∧
    ((p :: rest.map Prod.fst).Nodup → ∀ x ∈ (p, a) :: rest, FileFor c x.2 0 [] [] (s'.fs x.1))

include hW hl hoff hm ha hint in
theorem round (n : Nat) (ih : ∀ e b s, (e :: b).length ≤ n → (∀ x ∈ e :: b, x.Ok ∧ x.env.ok = true ∧ x.env.now.2 < 1000) →
      (∀ x ∈ e :: b, ∀ y ∈ e :: b, x.ts < y.ts + 2 ^ 31 ∧ y.ts ≤ x.ts + 2 ^ 31) → Open0 s e.env.path → s.node.last = e.env.now → Segs W c i (e :: b) s e.env.path)
    (es : List Av) (s : S) (p : Nat) (hes : ∀ x ∈ es, x.Ok ∧ x.env.ok = true ∧ x.env.now.2 < 1000) (hnear : ∀ x ∈ es, ∀ y ∈ es, x.ts < y.ts + 2 ^ 31 ∧ y.ts ≤ x.ts + 2 ^ 31)
    (ho : Open0 s p) (hla : s.node.last.2 < 1000) (hn : (es.dropWhile fun e => !breaks c i s.node.last e).length ≤ n) : Segs W c i es s p := by
  have hsplit := List.takeWhile_append_dropWhile (p := fun e => !breaks c i s.node.last e) (l := es)
  have hmem1 : ∀ x ∈ es.takeWhile (fun e => !breaks c i s.node.last e), x ∈ es := fun x hx => (List.takeWhile_sublist _).subset hx
  have hmem2 : ∀ x ∈ es.dropWhile (fun e => !breaks c i s.node.last e), x ∈ es := fun x hx => (List.dropWhile_sublist _).subset hx
  have hnb : ∀ x ∈ es.takeWhile (fun e => !breaks c i s.node.last e), breaks c i s.node.last x = false := by
    intro x hx
    have := List.all_takeWhile (p := fun e => !breaks c i s.node.last e) (l := es)
    rw [List.all_eq_true] at this
    simpa using this x hx
  have hhead : ∀ e b, es.dropWhile (fun e => !breaks c i s.node.last e) = e :: b → breaks c i s.node.last e = true := by
    intro e b h
    have := List.head?_dropWhile_not (fun e => !breaks c i s.node.last e) es
    rw [h] at this
    simpa using this
  have hfirst : ∀ e b, es = e :: b → breaks c i s.node.last e = false → ∃ a', es.takeWhile (fun e => !breaks c i s.node.last e) = e :: a' := by
    intro e b h hb
    rw [h, List.takeWhile_cons_of_pos (by simp [hb])]
    exact ⟨_, rfl⟩
  have hnd : ∀ x ∈ es.takeWhile (fun e => !breaks c i s.node.last e), ¬ due c i s.node.last x := by
    intro x hx h
    have hh := hes x (hmem1 x hx)
    rw [← breaks_due hh.1 hla hh.2.2] at h
    rw [hnb x hx] at h
    cases h
  generalize hA : es.takeWhile (fun e => !breaks c i s.node.last e) = a at *
  generalize hB : es.dropWhile (fun e => !breaks c i s.node.last e) = b at *
  obtain ⟨s1, s2, e1, la1, fd1, e2, fd2, oth, hfor⟩ := session_file hW c hl hoff a (fun x hx => (hes x (hmem1 x hx)).1) (p := p) (s := s)
    (fun x hx s' hfd hlast => breakFile_not hm hint (by rw [hlast]; exact hnb x hx)) ho.fd ho.fl ho.audio ho.video (.inl (by rw [ho.off, ho.file]; rfl)) []
    (fun h => absurd ho.off h) (fun _ => rfl) (by rw [ho.shift]; omega)
    (fun x hx y hy => by rw [ho.shift]; exact hnear x (hmem1 x hx) y (hmem1 y hy))
  rw [ho.shift, ho.file] at hfor
  have hes' : es.map Op.av = a.map Op.av ++ b.map Op.av := by rw [← hsplit]; simp
  cases b with
  | nil =>
    refine ⟨a, [], s2, ?_, fd2, hfirst, ?_, hnd, ?_, ?_⟩
    · rw [hes', List.append_assoc, run_append, e1, Option.bind_some]
      simp [run, step, e2]
    · rw [← hsplit]; simp
    · intro q hq; exact oth q (by simpa using hq)
    · intro _ x hx
      rw [List.mem_singleton.1 hx]; exact hfor
  | cons e b =>
    have hbr := hhead e b rfl
    have hop := open_open0 ha fd2 (hes e (hmem2 e (by simp))).2.1
    have hav : nodeAv W c e s1 = nodeAv W c e (nodeOpen c e.env s2) := by
      have h1 : breakFile W c e s1 = some (nodeOpen c e.env s2) := by rw [breakFile_yes hm hint (by rw [la1]; exact hbr), e2]; rfl
      have h2 : breakFile W c e (nodeOpen c e.env s2) = some (nodeOpen c e.env s2) := by
        apply breakFile_not hm hint
        rw [hop.2.1]; simp [breaks, elapsed_now]
      unfold nodeAv
      rw [h1, h2]; simp [hoff]
    obtain ⟨a', rest, s', r1, r2, r0, r3, r4, r5, r6⟩ := ih e b (nodeOpen c e.env s2) hn (fun x hx => hes x (hmem2 x hx)) (fun x hx y hy => hnear x (hmem2 x hx) y (hmem2 y hy))
      hop.1 hop.2.1
    obtain ⟨a'', ha''⟩ := r0 e b rfl (by rw [hop.2.1]; simp [breaks, elapsed_now])
    have hfs : ∀ q, q ∉ e.env.path :: rest.map Prod.fst → s'.fs q = s2.fs q := fun q hq => by
      rw [r5 q hq, hop.2.2 q (fun h => hq (by simp [h]))]
    refine ⟨a, (e.env.path, a') :: rest, s', ?_, r2, hfirst, ?_, ?_, ?_, ?_⟩
    · rw [hes', List.append_assoc, run_append, e1, Option.bind_some, ← r1]
      simp only [List.map_cons, List.cons_append, run, step, hav]
    · rw [← hsplit, r3]; simp
    · have hh := hes e (hmem2 e (by simp))
      rw [hop.2.1] at r4
      subst ha''
      exact ⟨hnd, (breaks_due hh.1 hla hh.2.2).1 hbr, rfl, r4⟩
    · intro q hq
      simp only [List.map_cons, List.mem_cons, not_or] at hq
      rw [hfs q (by simp only [List.mem_cons, not_or]; exact hq.2), oth q hq.1]
    · intro hdis x hx
      have hnd' := List.nodup_cons.1 hdis
      rcases List.mem_cons.1 hx with hx | hx
      · rw [hx, hfs p hnd'.1]; exact hfor
      · exact r6 hnd'.2 x hx

include hW hl hoff hm ha hint in
theorem segments_aux (n : Nat) : ∀ e b s, (e :: b).length ≤ n → (∀ x ∈ e :: b, x.Ok ∧ x.env.ok = true ∧ x.env.now.2 < 1000) →
      (∀ x ∈ e :: b, ∀ y ∈ e :: b, x.ts < y.ts + 2 ^ 31 ∧ y.ts ≤ x.ts + 2 ^ 31) → Open0 s e.env.path → s.node.last = e.env.now → Segs W c i (e :: b) s e.env.path := by
  induction n with
  | zero => intro e b s h; simp at h
  | succ n ih =>
    intro e b s h hes hnear ho hla
    refine round hW hl hoff hm ha hint n ih (e :: b) s e.env.path hes hnear ho (by rw [hla]; exact (hes e (by simp)).2.2) ?_
    rw [List.dropWhile_cons_of_pos (by rw [hla]; simp [breaks, elapsed_now])]
    have := (List.dropWhile_sublist (l := b) (fun e => !breaks c i s.node.last e)).length_le
    simp at h
    omega

include hW hl hoff hm ha hint in
theorem segments (es : List Av) (s : S) (p : Nat) (hes : ∀ x ∈ es, x.Ok ∧ x.env.ok = true ∧ x.env.now.2 < 1000) (hnear : ∀ x ∈ es, ∀ y ∈ es, x.ts < y.ts + 2 ^ 31 ∧ y.ts ≤ x.ts + 2 ^ 31)
    (ho : Open0 s p) (hla : s.node.last.2 < 1000) : Segs W c i es s p :=
  round hW hl hoff hm ha hint _ (segments_aux hW hl hoff hm ha hint _) es s p hes hnear ho hla (Nat.le_refl _)

end
end Verif.Rec
