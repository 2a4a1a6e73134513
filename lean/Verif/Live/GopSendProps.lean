import Verif.Live.GopSendRun
/-
C62: what the players of a live stream get from the GOP cache.

The full claim is: a player that begins to play at any time gets the codec headers, then the frames from a key frame on, in order and none twice, every inter frame
with the frames it builds on, every frame with its codec headers, with the time stamps of the stream; and nothing goes wrong in memory. It is false of the code in several
ways (the theorems `_violation`). The theorems `_partial` have hypotheses that exclude these.
-/
namespace Verif.GopSend
open Verif Verif.Gop

/-! ### A stream for the examples -/

def ah : Fr := ⟨false, true, false⟩
def vh : Fr := ⟨true, true, true⟩
def au : Fr := ⟨false, false, false⟩
def ky : Fr := ⟨true, false, true⟩
def it : Fr := ⟨true, false, false⟩
def k8 : Conf := { c := ⟨8, 1000⟩, pq := 8 }
def kAll : Conf := { c := ⟨8, 1000⟩, pq := 8, sendAll := true }

/-- Before the player 0 begins to play. -/
def exA : List Op := [.pub ah 0, .pub vh 0, .data 0, .join 1, .pub ky 0, .pub au 20, .pub it 40]
/-- And from then on; the player 1 pauses. -/
def exC : List Op := [.join 0, .pub it 80, .drain 0 9, .pause 1, .pub au 100, .pub ky 1120, .pub it 1160, .drain 0 9, .resume 1, .pub it 1200]

/-! ### Safety and order -/

/-- Regular streams whose frames are all taken by the cache: no NULL pointer, no frame that was given back, no endless loop, whatever the players do. -/
theorem C62_safe_partial {k : Conf} {ops : List Op} (hq : 3 ≤ k.c.q) (hr : Regular (published ops)) (hg : Tagged (published ops)) (ht : AllTaken k {} ops) (ho : Once [] ops) :
    ∃ w, run k {} ops = some w := by
  obtain ⟨w, h, _⟩ := plain_run hq hr hg ht ho
  exact ⟨w, h⟩

/-- Every player gets the audio and video frames in order and none twice, whatever its queue does, with pauses, changes of metadata and low latency. -/
theorem C62_order_partial {k : Conf} {ops : List Op} {w : World} (hq : 3 ≤ k.c.q) (hr : Regular (published ops)) (hg : Tagged (published ops)) (ht : AllTaken k {} ops) (ho : Once [] ops)
    (h : run k {} ops = some w) (i : Nat) : Ordered (nth (published ops)) (w.pl i).log ∧ ∀ x ∈ avs (w.pl i).log, x < (published ops).length := by
  obtain ⟨w', h', hw⟩ := plain_run hq hr hg ht ho
  rw [h] at h'
  cases h'
  obtain ⟨D, m, _, hp⟩ := hw.pub
  refine ⟨?_, fun x hx => by have := (hp i).base.hlt x hx; rw [hw.hist.hn] at this; exact this⟩
  by_cases h2 : 2 ≤ (w.pl i).state
  · obtain ⟨J, _, j2, _⟩ := (hp i).high h2
    exact j2.hsort
  · have := ((hp i).low (by omega)).1
    unfold Ordered
    rw [List.filter_eq_nil_iff.2 (fun x hx => by unfold Media; rw [this x hx]; decide)]
    exact List.Pairwise.nil

theorem exTaken : AllTaken k8 {} (exA ++ exC) := takenB_spec (by decide +kernel)
theorem exHeaders : HeadersFirst (published (exA ++ exC)) := by
  have e : published (exA ++ exC) = [ah, vh, ky, au, it, it, au, ky, it, it] := rfl
  rw [e]
  unfold HeadersFirst
  decide +kernel
theorem exTagged : Tagged (published (exA ++ exC)) := by
  have e : published (exA ++ exC) = [ah, vh, ky, au, it, it, au, ky, it, it] := rfl
  rw [e]
  unfold Tagged
  decide +kernel
theorem exOnce : Once [] (exA ++ exC) := by
  simp [exA, exC, Once]

example : ∃ w, run k8 {} (exA ++ exC) = some w := C62_safe_partial (by decide) exHeaders.regular exTagged exTaken exOnce

/-- The hypotheses hold and the log is not empty. -/
example : (run k8 {} (exA ++ exC)).map (fun w => (avs (w.pl 0).log, avs (w.pl 1).log)) = some ([0, 1, 2, 3, 4, 5, 6, 7, 8, 9], [0, 1, 2, 3, 4, 5]) := by decide +kernel

/-! ### What can be decoded -/

/-- Codec headers first, no low latency, no change of the metadata while the player plays, and it does not pause: every inter frame follows the video frame before it, however often
the queue of the player is full. -/
theorem C62_decodable_partial {k : Conf} {a c : List Op} {i : Nat} {w : World} (hq : 3 ≤ k.c.q) (hlow : k.low = false) (hr : HeadersFirst (published (a ++ c))) (hg : Tagged (published (a ++ c)))
    (ht : AllTaken k {} (a ++ c)) (ho : Once [] (a ++ c)) (hsd : ∀ o ∈ a ++ c, Steady i o) (hj : Op.join i ∉ a) (hd : ∀ o ∈ c, NoData o) (h : run k {} (a ++ c) = some w) :
    Decodable (nth (published (a ++ c))) (w.pl i).log := by
  obtain ⟨w', h', hw⟩ := strict_run hq hlow hr hg ht ho hsd hj hd
  rw [h] at h'
  cases h'
  obtain ⟨D, m, _, hp⟩ := hw.pub
  by_cases h2 : 2 ≤ (w.pl i).state
  · obtain ⟨J, _, j2, _⟩ := (hp i).high h2
    exact (j2.hst rfl).2.2.2.1
  · have hh := ((hp i).low (by omega)).1
    intro a' x c' e hi
    unfold Inter at hi
    rw [hh x (mem_avs e)] at hi
    simp at hi

/-- Under the same hypotheses every frame comes with its codec headers. -/
theorem C62_config_partial {k : Conf} {a c : List Op} {i : Nat} {w : World} (hq : 3 ≤ k.c.q) (hlow : k.low = false) (hr : HeadersFirst (published (a ++ c))) (hg : Tagged (published (a ++ c)))
    (ht : AllTaken k {} (a ++ c)) (ho : Once [] (a ++ c)) (hsd : ∀ o ∈ a ++ c, Steady i o) (hj : Op.join i ∉ a) (hd : ∀ o ∈ c, NoData o) (h : run k {} (a ++ c) = some w) :
    Configured (nth (published (a ++ c))) (w.pl i).log := by
  obtain ⟨w', h', hw⟩ := strict_run hq hlow hr hg ht ho hsd hj hd
  rw [h] at h'
  cases h'
  obtain ⟨D, m, _, hp⟩ := hw.pub
  by_cases h2 : 2 ≤ (w.pl i).state
  · obtain ⟨J, _, j2, _⟩ := (hp i).high h2
    exact (j2.hst rfl).2.2.2.2
  · have hh := ((hp i).low (by omega)).1
    intro a' x c' e hi
    rw [hh x (mem_avs e)] at hi; cases hi

example {w : World} (h : run k8 {} (exA ++ exC) = some w) :
    Decodable (nth (published (exA ++ exC))) (w.pl 0).log ∧ Configured (nth (published (exA ++ exC))) (w.pl 0).log := by
  have hsd : ∀ o ∈ exA ++ exC, Steady 0 o := by simp [exA, exC, Steady]
  have hj : Op.join 0 ∉ exA := by simp [exA]
  have hd : ∀ o ∈ exC, NoData o := by simp [exC, NoData]
  exact ⟨C62_decodable_partial (by decide) rfl exHeaders exTagged exTaken exOnce hsd hj hd h, C62_config_partial (by decide) rfl exHeaders exTagged exTaken exOnce hsd hj hd h⟩

/-! ### What is complete -/

/-- A player that has sent all of the cache and has the newest frame gets every frame from then on, as long as nothing is refused; with new headers, metadata and low latency. -/
theorem C62_follow_partial {k : Conf} {a c : List Op} {i : Nat} {w w' : World} (hq : 3 ≤ k.c.q) (hr : Regular (published (a ++ c))) (hg : Tagged (published (a ++ c)))
    (ht : AllTaken k {} (a ++ c)) (ho : Once [] (a ++ c)) (hsd : ∀ o ∈ c, Steady i o) (h : run k {} a = some w) (h' : run k w c = some w')
    (hin : i ∈ w.subs) (hst : (w.pl i).state = 3) (hnew : (published a).length - 1 ∈ avs (w.pl i).log) (hmed : Media (nth (published (a ++ c))) ((published a).length - 1) = true)
    (hf : (w'.pl i).full = (w.pl i).full) :
    avs (w'.pl i).log = avs (w.pl i).log ++ List.range' (published a).length (published c).length := by
  have hL := published_append a c
  have hs : Stream k (published (a ++ c)) (fun _ => False) := ⟨hq, hr, hg.nth, ⟨fun _ h => h.elim, fun _ h => h.elim⟩⟩
  have hA := allTaken_append (w' := w) ht
  have hO := once_append ho
  obtain ⟨w1, e1, h1⟩ := run_inv hs (os := a) (rest := published c) (WI.init hs) (by rw [hL]; rfl) hA.1 (fun o _ => by cases o <;> simp [Allowed]) hO.1
  rw [h] at e1
  cases e1
  have hn : w.b.st.n = (published a).length := h1.hist.hn
  have hpos : (w.pl i).pos = w.b.st.n % k.c.q := by
    obtain ⟨D, m, _, hp⟩ := h1.pub
    obtain ⟨J, j1, j2, j3, _⟩ := (hp i).high (by omega)
    have := j2.hltJ _ hnew hmed
    rw [j1]
    congr 1
    omega
  have := (follow_run hs (i := i) (os := c) (rest := []) h1 (by rw [hL]; simp) (hA.2 h) (fun o _ => by cases o <;> simp [Allowed]) hO.2 hsd ⟨hin, hst, hpos⟩ h' hf).1
  rw [hn] at this
  exact this

example : ∃ w w', run k8 {} (exA ++ exC.take 3) = some w ∧ run k8 w (exC.drop 3) = some w' ∧ 0 ∈ w.subs ∧ (w.pl 0).state = 3 ∧ 5 ∈ avs (w.pl 0).log ∧ (w'.pl 0).full = (w.pl 0).full ∧
    avs (w'.pl 0).log = avs (w.pl 0).log ++ [6, 7, 8, 9] := by
  have e : (match run k8 {} (exA ++ exC.take 3) with
    | none => false
    | some w => match run k8 w (exC.drop 3) with
      | none => false
      | some w' => decide (0 ∈ w.subs ∧ (w.pl 0).state = 3 ∧ 5 ∈ avs (w.pl 0).log ∧ (w'.pl 0).full = (w.pl 0).full ∧ avs (w'.pl 0).log = avs (w.pl 0).log ++ [6, 7, 8, 9])) = true := by decide +kernel
  cases h : run k8 {} (exA ++ exC.take 3) with
  | none => rw [h] at e; cases e
  | some w =>
    rw [h] at e
    dsimp only at e
    cases h' : run k8 w (exC.drop 3) with
    | none => rw [h'] at e; cases e
    | some w' =>
      rw [h'] at e
      exact ⟨w, w', rfl, h', of_decide_eq_true e⟩

/-- `gop_cache_send_all`: the first turn with frames in the cache sends the headers of the cache and then its frames from the oldest, up to slot 0 of the ring. If the ring does not pass slot 0
(`E` is the number of frames), that is all of it. -/
theorem C62_burst_partial {k : Conf} {a : List Op} {fr : Fr} {t i : Nat} {w w' : World} (hq : 3 ≤ k.c.q) (hall : k.sendAll = true) (hr : Regular (published (a ++ [.pub fr t])))
    (hg : Tagged (published (a ++ [.pub fr t]))) (ht : AllTaken k {} (a ++ [.pub fr t])) (ho : Once [] (a ++ [.pub fr t])) (h : run k {} a = some w)
    (h' : GopSend.step k w (.pub fr t) = some w') (hin : i ∈ w.subs) (hst : (w.pl i).state = 1) (hf : (w'.pl i).full = (w.pl i).full) :
    ∃ D, Held k w'.b D ∧ (D < w'.b.st.n → ∃ E, D ≤ E ∧ E ≤ w'.b.st.n ∧
      avs (w'.pl i).log = avs (w.pl i).log ++ w'.b.st.aac.toList ++ w'.b.st.avc.toList ++ List.range' D (E - D) ∧ (w'.pl i).state = 3 ∧
      (∀ x, D ≤ x → x < E → x % k.c.q ≠ 0) ∧ (E = w'.b.st.n ∨ E % k.c.q = 0)) := by
  have hL := published_append a [.pub fr t]
  have hs : Stream k (published (a ++ [.pub fr t])) (fun _ => False) := ⟨hq, hr, hg.nth, ⟨fun _ h => h.elim, fun _ h => h.elim⟩⟩
  have hA := allTaken_append (w' := w) ht
  have hO := once_append ho
  obtain ⟨w1, e1, h1⟩ := run_inv hs (os := a) (rest := published [.pub fr t]) (WI.init hs) (by rw [hL]; rfl) hA.1 (fun o _ => by cases o <;> simp [Allowed]) hO.1
  rw [h] at e1
  cases e1
  obtain ⟨w2, e2, h2, hturn, _⟩ := h1.next hs (os := []) (rest := []) (by rw [hL]; simp) (hA.2 h) (by simp [Allowed]) hO.2
  rw [h'] at e2
  cases e2
  obtain ⟨D, m, b1, b2, c, g1, g2, g3, g4⟩ := hturn fr t rfl i hin
  have hb : w'.b.st = b1.st := by rw [g2]
  refine ⟨D, ⟨by rw [hb]; exact c.g.hDn, by rw [hb]; exact c.g.bound, by rw [hb]; exact c.g.hpos, fun x x1 x2 => by rw [hb] at x2 ⊢; exact c.g.ring x1 x2⟩, fun hD => ?_⟩
  rw [hb] at hD ⊢
  obtain ⟨E, f1, f2, f3, f4, _, f6, f7⟩ := first_turn hall c hD hst g4 hf
  exact ⟨E, f1, f2, f3, f4, f6, f7⟩

example : (run kAll {} (exA ++ [.join 0])).map (fun w => (decide (0 ∈ w.subs), (w.pl 0).state)) = some (true, 1) ∧
    (run kAll {} (exA ++ [.join 0, .pub it 80])).map (fun w => (avs (w.pl 0).log, (w.pl 0).full)) = some ([0, 1, 2, 3, 4, 5], 0) := by decide +kernel

/-- What is put in the queue is what the sender takes out, in the same order; in low latency mode some of it is lost. The queue never holds more than `out_queue - 1` messages. -/
theorem C62_queue {k : Conf} {ops : List Op} {w : World} (h : run k {} ops = some w) (i : Nat) :
    ((w.pl i).sent ++ ((w.pl i).lost ++ (w.pl i).queue)).Perm (w.pl i).log ∧ (k.low = false → (w.pl i).sent ++ (w.pl i).queue = (w.pl i).log) ∧ (w.pl i).queue.length ≤ k.pq - 1 := by
  have := run_kept (k := k) (fun j => ⟨List.Perm.refl _, fun _ => ⟨rfl, rfl⟩, Nat.zero_le _⟩) h i
  exact ⟨this.hperm, fun hl => (this.hlow hl).2, this.hlen⟩

example : (run k8 {} (exA ++ exC)).map (fun w => (avs (w.pl 0).sent, avs (w.pl 0).queue)) = some ([0, 1, 2, 3, 4, 5, 6, 7, 8], [9]) := by decide +kernel

/-! ### Metadata -/

/-- The number of metadata messages published. -/
def datas : List Op → Nat
  | [] => 0
  | .data _ :: os => datas os + 1
  | _ :: os => datas os

/-- No player gets metadata twice or out of order. A turn in which nothing is refused leaves a player in state 3 (all of the cache is sent) with the newest metadata as its last one. -/
theorem C62_meta {k : Conf} {ops : List Op} {w : World} (h : run k {} ops = some w) (i : Nat) : (mds (w.pl i).log).Pairwise (· < ·) ∧
    ∀ b p, gopSend k w.b (w.pl i) = some (b, p) → (w.pl i).state = 3 → p.full = (w.pl i).full → (mds p.log).getLast? = w.b.metaMsg := by
  obtain ⟨h1, h2⟩ := run_md (k := k) (w := {}) rfl (fun j => ⟨Nat.le_refl _, fun m hm => (by cases hm), List.Pairwise.nil, fun h => absurd h (Nat.lt_irrefl 0)⟩) h
  refine ⟨(h2 i).hsort, fun b p e hst hf => ?_⟩
  obtain ⟨a1, a2, a3, _⟩ := gopSend_md e
  have hi := (h2 i).turn h1 a1
  have hv := a3 hst hf
  unfold MdPub at h1
  rw [h1]
  split
  · rename_i h0
    cases hm : mds p.log with
    | nil => rfl
    | cons m l =>
      have := hi.hlt m (by rw [hm]; exact List.mem_cons_self)
      omega
  · rename_i h0
    rw [hi.hlast (by omega), hv]

/-- The newest metadata is the last one published. -/
theorem C62_newest {k : Conf} : ∀ {ops : List Op} {w w' : World}, run k w ops = some w' → w'.b.ver = w.b.ver + datas ops ∧ (0 < datas ops → w'.b.metaMsg = some (w.b.ver + datas ops - 1)) := by
  have keep : ∀ {is : List Nat} {b b' : Pub} {pl pl' : Nat → Player}, fan k is b pl = some (b', pl') → b'.ver = b.ver ∧ b'.metaMsg = b.metaMsg := by
    intro is
    induction is with
    | nil => intro b b' pl pl' e; cases e; exact ⟨rfl, rfl⟩
    | cons i is ih =>
      intro b b' pl pl' e
      unfold fan at e
      split at e
      · cases e
      · rename_i e1
        obtain ⟨_, a, _⟩ := gopSend_md e1
        have := ih e
        exact ⟨this.1.trans a.1, this.2.trans a.2⟩
  have one : ∀ {o : Op} {w w' : World}, GopSend.step k w o = some w' → (∀ t, o ≠ .data t) → w'.b.ver = w.b.ver ∧ w'.b.metaMsg = w.b.metaMsg := by
    intro o w w' e hd
    cases o with
    | pub fr t =>
      unfold GopSend.step at e
      dsimp only at e
      split at e
      · cases e
      · rename_i e1
        obtain ⟨rc, _, ev, em, _⟩ := cachePub_some e1
        split at e
        · cases e
        · rename_i e2
          cases e
          have := keep e2
          exact ⟨this.1.trans ev, this.2.trans em⟩
    | data t => exact absurd rfl (hd t)
    | join i =>
      unfold GopSend.step at e
      dsimp only at e
      split at e
      · cases e; exact ⟨rfl, rfl⟩
      · split at e
        · cases e; exact ⟨rfl, rfl⟩
        · split at e
          · cases e
          · rename_i e1
            cases e
            exact (gopSend_md e1).2.1
    | pause i => cases e; exact ⟨rfl, rfl⟩
    | resume i =>
      unfold GopSend.step at e
      dsimp only at e
      split at e <;> (cases e; exact ⟨rfl, rfl⟩)
    | drain i n => cases e; exact ⟨rfl, rfl⟩
  have noData : ∀ {os : List Op} {w w' : World}, datas os = 0 → run k w os = some w' → w'.b.metaMsg = w.b.metaMsg := by
    intro os
    induction os with
    | nil => intro w w' _ e; cases e; rfl
    | cons o os ih =>
      intro w w' hd e
      unfold run at e
      split at e
      · cases e
      · rename_i e1
        cases o with
        | data t => simp [datas] at hd
        | _ => exact (ih hd e).trans (one e1 (fun t h => by cases h)).2
  intro ops
  induction ops with
  | nil => intro w w' e; cases e; exact ⟨rfl, fun h => absurd h (by decide)⟩
  | cons o os ih =>
    intro w w' e
    unfold run at e
    split at e
    · cases e
    · rename_i w1 e1
      obtain ⟨h1, h2⟩ := ih e
      cases o with
      | data t =>
        cases e1
        dsimp only at h1 h2
        refine ⟨by rw [h1]; simp only [datas]; omega, fun _ => ?_⟩
        by_cases hd : 0 < datas os
        · rw [h2 hd]; simp only [datas]; congr 1; omega
        · have := noData (by omega) e
          rw [this]
          simp only [datas]
          congr 1
          omega
      | _ =>
        have a := one e1 (fun t h => by cases h)
        refine ⟨by rw [h1, a.1]; rfl, fun hd => ?_⟩
        rw [h2 hd, a.1]; rfl

example : (run k8 {} (exA ++ [.join 0, .pub it 80, .data 0, .data 0, .drain 0 9, .pub it 120])).map (fun w => (mds (w.pl 0).log, (w.pl 0).state, w.b.metaMsg)) = some ([0, 2], 3, some 2) := by decide +kernel

/-! ### Time stamps -/

/-- The time stamps that a channel gives to messages with the time stamps `l`. -/
def outTimes (k : Conf) : Chan → List Nat → List Nat
  | _, [] => []
  | ch, t :: l => (fixTime k ch t).ts :: outTimes k (fixTime k ch t) l

/-- Steps forward of at most `g`. -/
def Smooth (g : Nat) : Nat → List Nat → Prop
  | _, [] => True
  | t, u :: l => t ≤ u ∧ u - t ≤ g ∧ u < 4294967296 ∧ Smooth g u l

theorem outTimes_same {k : Conf} : ∀ {l : List Nat} {t : Nat}, Smooth k.fix t l → outTimes k ⟨t, t⟩ l = l
  | [], _, _ => rfl
  | u :: l, t, h => by
    obtain ⟨h1, h2, h3, h4⟩ := h
    have e : fixTime k ⟨t, t⟩ u = ⟨u, u⟩ := by
      unfold fixTime
      dsimp only
      by_cases hu : u > t
      · rw [if_pos hu, if_pos hu, if_neg (show ¬ u - t > k.fix by omega)]
        split
        · rfl
        · rw [show t + (u - t) = u by omega, Nat.mod_eq_of_lt h3]
      · have : u = t := by omega
        subst this
        simp
    show (fixTime k ⟨t, t⟩ u).ts :: outTimes k (fixTime k ⟨t, t⟩ u) l = _
    rw [e, outTimes_same h4]

/-- A stream that goes forward in steps of at most `fix_timestamp` keeps its time stamps, on the channel of one player. -/
theorem C62_time_partial {k : Conf} {t : Nat} {l : List Nat} (hz : k.zero = false) (h : Smooth k.fix t l) : outTimes k {} (t :: l) = t :: l := by
  have e : fixTime k {} t = ⟨t, t⟩ := by unfold fixTime; rw [hz]; simp
  show (fixTime k {} t).ts :: outTimes k (fixTime k {} t) l = _
  rw [e, outTimes_same h]

example : Smooth k8.fix 90000 [90040, 90040, 99000] := by simp [Smooth, k8]

/-- Steps of at most `g`, forward or back. -/
def Near (g : Nat) : Nat → List Nat → Prop
  | _, [] => True
  | t, u :: l => (u ≤ t + g ∧ t ≤ u + g) ∧ Near g u l

/-- Distances of at most `fix_timestamp` are kept: the time stamps of a channel are those of the stream, shifted, as long as they stay between 0 and 2^32. -/
theorem C62_time_shift {k : Conf} : ∀ {l : List Nat} {ch : Chan}, ch.ts ≠ 0 → Near k.fix ch.last l → (∀ t ∈ l, ch.last < ch.ts + t ∧ ch.ts + t < ch.last + 4294967296) →
    outTimes k ch l = l.map (fun t => ch.ts + t - ch.last)
  | [], _, _, _, _ => rfl
  | t :: l, ch, h0, hn, hr => by
    obtain ⟨⟨n1, n2⟩, n3⟩ := hn
    obtain ⟨r1, r2⟩ := hr t List.mem_cons_self
    have e : fixTime k ch t = ⟨ch.ts + t - ch.last, t⟩ := by
      unfold fixTime
      dsimp only
      rw [if_neg (fun e => h0 e.2)]
      by_cases hu : t > ch.last
      · rw [if_pos hu, if_pos hu, if_neg (show ¬ t - ch.last > k.fix by omega), show ch.ts + (t - ch.last) = ch.ts + t - ch.last by omega, Nat.mod_eq_of_lt (by omega)]
      · rw [if_neg hu, if_neg hu, if_neg (show ¬ ch.last - t > k.fix by omega), if_pos (show ch.ts ≥ ch.last - t by omega), show ch.ts - (ch.last - t) = ch.ts + t - ch.last by omega]
    show (fixTime k ch t).ts :: outTimes k (fixTime k ch t) l = _
    rw [e, C62_time_shift (ch := ⟨ch.ts + t - ch.last, t⟩) (by dsimp only; omega) n3 (fun u hu => by have := hr u (List.mem_cons_of_mem _ hu); dsimp only; omega)]
    rw [List.map_cons]
    congr 1
    refine List.map_congr_left (fun u hu => ?_)
    have := hr u (List.mem_cons_of_mem _ hu)
    dsimp only
    omega

example : Near k8.fix 90000 [90040, 90020, 99000] ∧ outTimes k8 ⟨500, 90000⟩ [90040, 90020, 99000] = [540, 520, 9500] := by
  constructor
  · simp [Near, k8]
  · decide

/-- Whatever the stream does, after the first frame the time stamps of a channel move by at most `fix_timestamp`. -/
theorem C62_time_step {k : Conf} {ch : Chan} {t : Nat} (h0 : ch.ts ≠ 0) (h1 : ch.ts + k.fix < 4294967296) : (fixTime k ch t).ts ≤ ch.ts + k.fix ∧ ch.ts ≤ (fixTime k ch t).ts + k.fix := by
  unfold fixTime
  dsimp only
  rw [if_neg (fun e => h0 e.2)]
  generalize hd : (if (if t > ch.last then t - ch.last else ch.last - t) > k.fix then 0 else if t > ch.last then t - ch.last else ch.last - t) = d
  have hle : d ≤ k.fix := by
    rw [← hd]
    split <;> split <;> omega
  split
  · rw [Nat.mod_eq_of_lt (by omega)]; omega
  · split <;> omega

example : (fixTime k8 ⟨500, 700⟩ 90000).ts = 500 ∧ (fixTime k8 ⟨500, 700⟩ 740).ts = 540 := by decide

/-! ### Where the claim fails -/

/-- The cache begins at slot 0: the player gets nothing of it when its turn comes, and then one old frame for every new one. All is in order, nothing is refused. -/
theorem C62_burst_violation :
    (run kAll {} [.pub ky 0, .pub it 40, .join 0, .pub it 80]).map (fun w => ((w.pl 0).log, (w.pl 0).full)) = some ([], 0) ∧
    (run kAll {} [.pub ky 0, .pub it 40, .join 0, .pub it 80, .pub it 120, .pub it 160]).map (fun w => (avs (w.pl 0).log, (w.pl 0).full)) = some ([0, 1], 0) := by decide +kernel

/-- The cache wraps around: the player gets the frames before slot 0 only, and stays behind. -/
theorem C62_wrap_violation :
    (run kAll {} [.pub ah 0, .pub vh 0, .pub ky 0, .pub it 40, .pub it 80, .pub ky 1160, .pub it 1200, .pub it 1240, .pub it 1280, .pub it 1320, .join 0, .pub it 1360]).map
      (fun w => (avs (w.pl 0).log, (w.pl 0).full, w.b.st.n)) = some ([0, 1, 5, 6, 7], 0, 11) := by decide +kernel

/-- A frame that the cache does not take still gives the players a turn: frames are sent twice. -/
theorem C62_order_violation :
    (run k8 {} [.pub ah 0, .pub au 0, .pub au 20, .join 0, .pub au 40, .drain 0 9, .pub it 120, .drain 0 9, .pub it 160]).map (fun w => avs (w.pl 0).log) = some [0, 1, 2, 3, 1, 2] := by
  decide +kernel

/-- Three audio headers in a row after an audio frame, all taken by the cache: without players nothing happens, with a player a header that was given back is used. -/
theorem C62_safe_violation :
    AllTaken { c := ⟨8, 40⟩, pq := 8, sendAll := true } {} [.join 0, .pub au 0, .pub ah 20, .pub ah 40, .pub ah 60, .pub au 80] ∧
    (run { c := ⟨8, 40⟩, pq := 8, sendAll := true } {} [.pub au 0, .pub ah 20, .pub ah 40, .pub ah 60, .pub au 80]).isSome = true ∧
    run { c := ⟨8, 40⟩, pq := 8, sendAll := true } {} [.join 0, .pub au 0, .pub ah 20, .pub ah 40, .pub ah 60, .pub au 80] = none := by
  have e : (run { c := ⟨8, 40⟩, pq := 8, sendAll := true } {} [.join 0, .pub au 0, .pub ah 20, .pub ah 40, .pub ah 60, .pub au 80]).isNone = true := by decide +kernel
  exact ⟨takenB_spec (by decide +kernel), by decide +kernel, Option.isNone_iff_eq_none.1 e⟩

/-- A player that has sent all of the cache, and a publisher that comes back and begins with an inter frame: its cache is empty, the last slot is NULL. -/
theorem C62_republish_violation : ∃ w b, run k8 {} [.pub vh 0, .pub ky 0, .join 0, .pub it 40] = some w ∧ (w.pl 0).state = 3 ∧ cachePub k8 {} it 0 = some b ∧ gopSend k8 b (w.pl 0) = none := by
  have e : (match run k8 {} [.pub vh 0, .pub ky 0, .join 0, .pub it 40], cachePub k8 {} it 0 with
    | some w, some b => decide ((w.pl 0).state = 3) && (gopSend k8 b (w.pl 0)).isNone
    | _, _ => false) = true := by decide +kernel
  cases h : run k8 {} [.pub vh 0, .pub ky 0, .join 0, .pub it 40] with
  | none => rw [h] at e; cases e
  | some w =>
    cases h' : cachePub k8 {} it 0 with
    | none => rw [h, h'] at e; cases e
    | some b =>
      rw [h, h'] at e
      dsimp only at e
      rw [Bool.and_eq_true] at e
      exact ⟨w, b, rfl, of_decide_eq_true e.1, rfl, Option.isNone_iff_eq_none.1 e.2⟩

/-- An inter frame without the frame it builds on, in a log. -/
theorem not_decodable {I : Nat → Fr} {log : List Item} (a : List Item) (x : Nat) (c : List Item) (e : log = a ++ .av x :: c) (hi : Inter I x = true) (y : Nat)
    (hy : ((avs a).filter (Video I)).getLast? = some y) (z : Nat) (h1 : y < z) (h2 : z < x) (hz : Video I z = true) : ¬ Decodable I log := by
  intro h
  obtain ⟨y', a1, a2, a3⟩ := h a x c e hi
  rw [hy] at a1
  cases a1
  rw [a3 z h1 h2] at hz; cases hz

/-- After a pause the player may go on with an inter frame whose predecessors it has not seen: the ring has come around. -/
theorem C62_pause_violation : ∃ w, run k8 {} [.pub vh 0, .pub ky 0, .join 0, .pub it 40, .pub it 80, .drain 0 9, .pause 0, .pub it 120, .pub it 160, .pub ky 200, .pub it 240, .pub it 280,
      .pub it 320, .pub it 360, .pub ky 400, .pub it 440, .pub it 480, .resume 0, .pub it 500] = some w ∧
    ¬ Decodable (nth [vh, ky, it, it, it, it, ky, it, it, it, it, ky, it, it, it]) (w.pl 0).log := by
  have e : (run k8 {} [.pub vh 0, .pub ky 0, .join 0, .pub it 40, .pub it 80, .drain 0 9, .pause 0, .pub it 120, .pub it 160, .pub ky 200, .pub it 240, .pub it 280,
      .pub it 320, .pub it 360, .pub ky 400, .pub it 440, .pub it 480, .resume 0, .pub it 500]).map (fun w => (w.pl 0).log) = some [.av 0, .av 1, .av 2, .av 3, .av 12] := by decide +kernel
  obtain ⟨w, h1, h2⟩ := Option.map_eq_some_iff.1 e
  refine ⟨w, h1, ?_⟩
  rw [h2]
  exact not_decodable [.av 0, .av 1, .av 2, .av 3] 12 [] rfl rfl 3 (by decide) 4 (by decide) (by decide) rfl

/-- So it may when its queue was full while the metadata changed: the metadata comes first, and meanwhile the position is not moved. -/
theorem C62_data_violation : ∃ w, run { c := ⟨8, 100⟩, pq := 4 } {} [.pub vh 0, .pub ky 0, .join 0, .pub it 40, .data 0, .pub it 80, .pub it 120, .pub it 160, .pub ky 200, .pub it 240, .pub it 280,
      .pub ky 360, .pub it 400, .pub it 440, .drain 0 9, .pub it 480] = some w ∧
    ¬ Decodable (nth [vh, ky, it, it, it, it, ky, it, it, ky, it, it, it]) (w.pl 0).log := by
  have e : (run { c := ⟨8, 100⟩, pq := 4 } {} [.pub vh 0, .pub ky 0, .join 0, .pub it 40, .data 0, .pub it 80, .pub it 120, .pub it 160, .pub ky 200, .pub it 240, .pub it 280,
      .pub ky 360, .pub it 400, .pub it 440, .drain 0 9, .pub it 480]).map (fun w => (w.pl 0).log) = some [.av 0, .av 1, .av 2, .md 0, .av 11] := by decide +kernel
  obtain ⟨w, h1, h2⟩ := Option.map_eq_some_iff.1 e
  refine ⟨w, h1, ?_⟩
  rw [h2]
  exact not_decodable [.av 0, .av 1, .av 2, .md 0] 11 [] rfl rfl 2 (by decide) 3 (by decide) (by decide) rfl

/-- Low latency: the queue is thrown away with its references, and the codec header in it is never sent again. The player gets the key frame 8 without a header. -/
theorem C62_low_violation :
    (run { c := ⟨8, 1000⟩, pq := 8, low := true } {} [.pub vh 0, .pub ky 0, .join 0, .pub it 40, .pub it 80, .pub it 120, .pub it 160, .pub it 200, .pub ky 240, .pub ky 280, .drain 0 9]).map
      (fun w => (avs (w.pl 0).sent, avs (w.pl 0).lost)) = some ([8], [0, 1, 2, 3, 4, 5, 6]) := by decide +kernel

/-- The second header is refused: the first one is sent again. -/
theorem C62_header_violation :
    (run { c := ⟨8, 1000⟩, pq := 3 } {} [.pub ah 0, .pub vh 0, .pub ky 0, .data 0, .join 0, .pub it 40, .drain 0 9, .pub it 80]).map (fun w => avs (w.pl 0).log) = some [0, 0, 1] := by
  decide +kernel

/-- Time stamps are written into messages that all players share. The player 1 goes on after a pause of 24 s; the key frame 6, still in the queue of player 0, which has seen a
stream without jumps, now has a time stamp 24 s too early. -/
theorem C62_time_violation :
    (run k8 {} [.pub vh 0, .pub ky 40, .join 0, .join 1, .pub it 80, .pub it 120, .pause 1, .drain 0 9, .pub it 8000, .pub it 16000, .pub ky 24000]).map
      (fun w => (decide (Item.av 6 ∈ (w.pl 0).queue), w.b.ts (.av 6))) = some (true, 24000) ∧
    (run k8 {} [.pub vh 0, .pub ky 40, .join 0, .join 1, .pub it 80, .pub it 120, .pause 1, .drain 0 9, .pub it 8000, .pub it 16000, .pub ky 24000, .resume 1, .pub it 24040]).map
      (fun w => (decide (Item.av 6 ∈ (w.pl 0).queue), w.b.ts (.av 6))) = some (true, 120) := by decide +kernel

end Verif.GopSend
