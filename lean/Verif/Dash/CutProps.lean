import Verif.Dash.CutKeys
import Verif.Dash.Mp4Props
/-
C68: the fragments of a DASH stream hold every frame once and the playlist says where.
-/
namespace Verif.Dash
open Verif Verif.Mp4

theorem any_of (v : Bool) (l : List Item) (h : track v l ≠ []) : l.any (·.1 == v) = true := by
  rw [List.any_eq_true]
  cases e : l.filter (·.1 == v) with
  | nil => exact absurd (by unfold track; rw [e]; rfl) h
  | cons x m =>
    have : x ∈ l.filter (·.1 == v) := by rw [e]; simp
    exact ⟨x, (List.mem_filter.1 this).1, (List.mem_filter.1 this).2⟩

/-- Whatever comes: the stream is cut into parts that are not empty and hold every frame once, in order. For each part that is closed the files are written
once, one for each track, named by the time of its first frame and holding its frames of the track, and then a playlist of the last parts that lists the
tracks there are. After the end of the stream nothing is left over. -/
theorem C68_files (cfg : Cfg) (frags : Nat → Slot) (ops : List Op) :
    ∃ gs rest, (run cfg (init frags) ops).out = files cfg.winfrags [] gs ∧ gs.flatMap (·.items) ++ rest = items ops ∧
      (∀ p ∈ gs, p.items ≠ [] ∧ (track true p.items ≠ [] → p.hasVideo = true) ∧ (track false p.items ≠ [] → p.hasAudio = true)) ∧
      ∀ l, ops = l ++ [.close] → rest = [] := by
  have hflags : ∀ p : Part, ((p.items.any (·.1) = true → p.hasVideo = true) ∧ (p.items.any (fun x => !x.1) = true → p.hasAudio = true)) →
      (track true p.items ≠ [] → p.hasVideo = true) ∧ (track false p.items ≠ [] → p.hasAudio = true) := by
    intro p h
    exact ⟨fun e => h.1 (by simpa using any_of true _ e), fun e => h.2 (by simpa using any_of false _ e)⟩
  rcases List.eq_nil_or_concat ops with rfl | ⟨l, op, rfl⟩
  · obtain ⟨gs, cur, hr, hg⟩ := run_gen cfg frags []
    exact ⟨gs, cur, hr.hOut, hg.all, fun p hp => ⟨hg.ne p hp, hflags p (hg.listed p hp)⟩, by simp⟩
  · rw [List.concat_eq_append]
    obtain ⟨gs, cur, hr, hg⟩ := run_gen cfg frags l
    rw [run_concat, items_append]
    rcases ops_cases op with rfl | ⟨x, rfl⟩
    · have h1 := hr.stop
      have h2 := hg.stop (cfg := cfg)
      refine ⟨_, _, h1.hOut, ?_, fun p hp => ⟨h2.ne p hp, hflags p (h2.listed p hp)⟩, fun _ _ => rfl⟩
      rw [h2.all]
      simp [items]
    · obtain ⟨gs', cur', h1, h2⟩ := hr.item x
      have h3 := hg.item h2
      refine ⟨gs', cur', h1.hOut, ?_, fun p hp => ⟨h3.ne p hp, hflags p (h3.listed p hp)⟩, ?_⟩
      · rw [h3.all, items_opOf]
      · intro m e
        have := (List.append_inj' e rfl).2
        simp at this
        unfold opOf at this
        split at this <;> cases this

theorem part_times {cfg : Cfg} {s : St} {gs : List Part} {cur xs : List Item} (hg : Gen xs s gs cur) (hO : Ord cfg s gs cur) (ho : Ordered xs)
    (hn : xs ≠ [] → cur ≠ []) : ∀ p ∈ gs, ∀ x ∈ p.items, start p.items ≤ x.2.timestamp ∧ x.2.timestamp ≤ start p.items + p.dur := by
  intro p hp x hx
  obtain ⟨pre, post, e⟩ := List.append_of_mem hp
  have hxs : xs ≠ [] := by
    intro e0
    have := (part_sublist hg.all hp).subset hx
    rw [e0] at this
    cases this
  constructor
  · obtain ⟨y, m, ey, hy⟩ := start_cons (hg.ne p hp)
    rw [ey] at hx
    rcases List.mem_cons.1 hx with rfl | hx
    · rw [hy]; exact Nat.le_refl _
    · exact (hO.parts p hp x (by rw [ey]; exact hx)).1
  · have key : ∀ (q : List Item) (rest : List Item), xs = pre.flatMap (·.items) ++ p.items ++ (q ++ rest) → q ≠ [] → x.2.timestamp ≤ start q := by
      intro q rest ex hq
      obtain ⟨y, m, ey, hy⟩ := start_cons hq
      rw [hy]
      exact order_le ho ex (List.mem_append_right _ hx) (by rw [ey]; simp)
    cases post with
    | nil =>
      rw [(hO.last p (by rw [e]; simp)).1]
      exact key cur [] (by rw [← hg.all, e]; simp) (hn hxs)
    | cons q post =>
      rw [(hO.join pre p q post e).1]
      exact key q.items (post.flatMap (·.items) ++ cur) (by rw [← hg.all, e]; simp) (hg.ne q (by rw [e]; simp))

/-- Frames in order: every part lasts until the next one starts, and its frames come within that time. -/
theorem C68_times_partial (cfg : Cfg) (frags : Nat → Slot) (xs : List Item) (ho : Ordered xs) :
    ∃ gs rest, (run cfg (init frags) (xs.map opOf)).out = files cfg.winfrags [] gs ∧ gs.flatMap (·.items) ++ rest = xs ∧
      Adjacent (fun a b => start a.items + a.dur = start b.items) gs ∧ (∀ p, gs.getLast? = some p → start p.items + p.dur = start rest) ∧
      ∀ p ∈ gs, ∀ x ∈ p.items, start p.items ≤ x.2.timestamp ∧ x.2.timestamp ≤ start p.items + p.dur := by
  obtain ⟨gs, cur, hr, hg, hO, hn⟩ := run_ord cfg frags xs ho
  refine ⟨gs, cur, hr.hOut, hg.all, fun pre a b post e => (hO.join pre a b post e).1, fun p hp => (hO.last p hp).1, part_times hg hO ho hn⟩

/-- Frames in order: where the stream is cut. A part ends before a frame at least a fragment after its start that is a key frame, or two fragments after its start, or when no
video came yet; or because a track of it has 10 MiB. And it ends before the first such frame: the frames of a part are less than two fragments, key frames
less than one, after its start. -/
theorem C68_cuts_partial (cfg : Cfg) (frags : Nat → Slot) (xs : List Item) (ho : Ordered xs) :
    ∃ gs rest, (run cfg (init frags) (xs.map opOf)).out = files cfg.winfrags [] gs ∧ gs.flatMap (·.items) ++ rest = xs ∧
      (∀ pre a x post, gs.flatMap (·.items) ++ rest = pre ++ a.items ++ x :: post → (∃ g1 g2, gs = g1 ++ a :: g2 ∧ pre = g1.flatMap (·.items)) →
        (start a.items + cfg.fraglen ≤ x.2.timestamp ∧ (isKey x = true ∨ start a.items + cfg.fraglen * 2 ≤ x.2.timestamp ∨ a.hasVideo = false)) ∨
          10485760 ≤ size true a.items ∨ 10485760 ≤ size false a.items) ∧
      (∀ l ∈ gs.map (·.items) ++ [rest], ∀ x ∈ l.tail, x.2.timestamp < start l + cfg.fraglen * 2 ∧ (isKey x = true → x.2.timestamp < start l + cfg.fraglen)) := by
  obtain ⟨gs, cur, hr, hg, hO, hn⟩ := run_ord cfg frags xs ho
  refine ⟨gs, cur, hr.hOut, hg.all, ?_, ?_⟩
  · rintro pre a x post e ⟨g1, g2, eg, rfl⟩
    cases g2 with
    | nil =>
      have e1 : cur = x :: post := by
        rw [eg] at e
        simp only [List.flatMap_append, List.flatMap_cons, List.flatMap_nil, List.append_nil, List.append_assoc] at e
        exact List.append_cancel_left (List.append_cancel_left e)
      exact (hO.last a (by rw [eg]; simp)).2 x post e1
    | cons b g2 =>
      obtain ⟨y, m, ey, -⟩ := start_cons (hg.ne b (by rw [eg]; simp))
      have e1 : b.items ++ (g2.flatMap (·.items) ++ cur) = x :: post := by
        rw [eg] at e
        simp only [List.flatMap_append, List.flatMap_cons, List.append_assoc] at e
        exact List.append_cancel_left (List.append_cancel_left e)
      rw [ey] at e1
      simp at e1
      rw [← e1.1]
      exact (hO.join g1 a b g2 eg).2 y m ey
  · have key : ∀ b l x, Inner cfg (start l) b x → x.2.timestamp < start l + cfg.fraglen * 2 ∧ (isKey x = true → x.2.timestamp < start l + cfg.fraglen) := by
      intro b l x h
      unfold Inner at h
      refine ⟨by omega, fun hk => ?_⟩
      rw [hk] at h
      simp at h
      exact h.2
    intro l hl x hx
    rcases List.mem_append.1 hl with hl | hl
    · obtain ⟨p, hp, rfl⟩ := List.mem_map.1 hl
      exact key _ _ _ (hO.parts p hp x hx)
    · rw [List.mem_singleton.1 hl] at hx ⊢
      exact key _ _ _ (hO.inner x hx)

/-- Frames in order, key frames less than a fragment apart, and less than 10 MiB in two fragments: every part begins with a key frame. -/
theorem C68_keys_partial (cfg : Cfg) (frags : Nat → Slot) (xs : List Item) (ho : Ordered xs) (hF : 0 < cfg.fraglen) (hl : Light cfg xs)
    (hk : keyed cfg.fraglen none xs = true) :
    ∃ gs rest, (run cfg (init frags) (xs.map opOf)).out = files cfg.winfrags [] gs ∧ gs.flatMap (·.items) ++ rest = xs ∧
      ∀ p ∈ gs, ∃ x m, p.items = x :: m ∧ isKey x = true := by
  obtain ⟨gs, cur, hr, hg, hO, hn⟩ := run_ord cfg frags xs ho
  refine ⟨gs, cur, hr.hOut, hg.all, ?_⟩
  intro p hp
  obtain ⟨pre, post, e⟩ := List.append_of_mem hp
  exact next_key hg hO ho hF hl hk ⟨p :: post, e⟩ (next_part hg hO e)

/-- The times of a row of fragments that the playlist lists join up. -/
def Joined : List Slot → Prop
  | a :: b :: l => a.timestamp + a.duration = b.timestamp ∧ Joined (b :: l)
  | _ => True

theorem lastN_suffix {α : Type} (n : Nat) (l : List α) : ∃ pre, l = pre ++ lastN n l := ⟨l.take (l.length - n), by simp [lastN]⟩

theorem joined_of {l : List Part} (h : Adjacent (fun a b => start a.items + a.dur = start b.items) l) : Joined (l.map Part.slot) := by
  induction l with
  | nil => trivial
  | cons a l ih =>
    have hl : Adjacent (fun a b => start a.items + a.dur = start b.items) l := fun pre x y post e => h (a :: pre) x y post (by rw [e]; rfl)
    cases l with
    | nil => trivial
    | cons b l => exact ⟨h [] a b l rfl, ih hl⟩

theorem length_parts {gs : List Part} (hne : ∀ p ∈ gs, p.items ≠ []) : gs.length ≤ (gs.flatMap (·.items)).length := by
  induction gs with
  | nil => simp
  | cons p l ih =>
    have h1 := ih fun q hq => hne q (List.mem_cons_of_mem _ hq)
    have h2 := List.length_pos_iff.2 (hne p List.mem_cons_self)
    simp only [List.flatMap_cons, List.length_append, List.length_cons]
    omega

/-- What a player gets. Frames in order and less than 10 MiB in two fragments: at any time after the first cut there is a playlist. The fragments it lists are
as many as the window or all there are; their times join up, to the start of the open fragment; and for each there are two files, from which a reader gets
the frames of that part of the stream (1024 of each track, and 1 MiB of each frame). The parts are the last ones before the open fragment. -/
theorem C68_player_partial (cfg : Cfg) (frags : Nat → Slot) (xs : List Item) (ho : Ordered xs) (hF : 0 < cfg.fraglen) (hl : Light cfg xs)
    (hd : ∀ x ∈ xs, x.2.delay < 2 ^ 32) (hn : xs.length < 2 ^ 32) (hcut : (run cfg (init frags) (xs.map opOf)).out ≠ []) :
    ∃ (before listed : List Part) (rest : List Item) (hv ha : Bool), xs = before.flatMap (·.items) ++ listed.flatMap (·.items) ++ rest ∧
      lastMpd (run cfg (init frags) (xs.map opOf)).out = some (hv, ha, listed.map Part.slot) ∧
      listed.length = min cfg.winfrags (before.length + listed.length) ∧ Joined (listed.map Part.slot ++ [⟨start rest, 0⟩]) ∧
      (track true (before.flatMap (·.items) ++ listed.flatMap (·.items)) ≠ [] → hv = true) ∧
      (track false (before.flatMap (·.items) ++ listed.flatMap (·.items)) ≠ [] → ha = true) ∧
      ∀ p ∈ listed, p.items ≠ [] ∧ (∀ x ∈ p.items, start p.items ≤ x.2.timestamp ∧ x.2.timestamp ≤ start p.items + p.dur) ∧
        ∀ v : Bool, ∀ junk : Bytes, junk.length = 44 → ∃ trk file id, onDisk v (start p.items) (run cfg (init frags) (xs.map opOf)).out = some trk ∧
          segment trk junk = some file ∧ readSegment file = some ⟨id, firstTime (kept (track v p.items)), wanted v (kept (track v p.items))⟩ := by
  obtain ⟨gs, cur, hr, hg, hO, hne⟩ := run_ord cfg frags xs ho
  rw [hr.hOut] at hcut ⊢
  have hgs : gs ≠ [] := by intro e; rw [e] at hcut; exact hcut rfl
  obtain ⟨before, hb⟩ := lastN_suffix cfg.winfrags gs
  have hup := starts_up hg hO hF hl
  have hpw : gs.Pairwise fun a b => start a.items ≠ start b.items := by
    refine (adjacent_pairwise (R := fun a b : Part => start a.items + cfg.fraglen ≤ start b.items) ?_ hup).imp ?_
    · intro a b c h1 h2; omega
    · intro a b h; omega
  obtain ⟨q, z, eq⟩ : ∃ q z, gs = q ++ [z] := by
    rcases List.eq_nil_or_concat gs with e | ⟨q, z, e⟩
    · exact absurd e hgs
    · exact ⟨q, z, by rw [e, List.concat_eq_append]⟩
  have hk := hg.known q z [] eq
  have hqz : q.flatMap (·.items) ++ z.items = before.flatMap (·.items) ++ (lastN cfg.winfrags gs).flatMap (·.items) := by
    rw [← List.flatMap_append, ← hb, eq]
    simp
  rw [hqz] at hk
  refine ⟨before, lastN cfg.winfrags gs, cur, z.hasVideo, z.hasAudio, ?_, ?_, ?_, ?_, fun e => hk.1 (by simpa using any_of true _ e),
    fun e => hk.2 (by simpa using any_of false _ e), ?_⟩
  · rw [← hg.all]
    conv => lhs; rw [hb]
    simp
  · conv => lhs; rw [eq, lastMpd_files, ← eq]
  · have h1 : gs.length = before.length + (lastN cfg.winfrags gs).length := by
      conv => lhs; rw [hb]
      simp
    rw [← h1]
    simp only [lastN, List.length_drop]
    omega
  · have hj : Adjacent (fun a b => start a.items + a.dur = start b.items) (gs ++ [⟨cur, 0, false, false⟩]) :=
      adjacent_concat (fun pre a b post e => (hO.join pre a b post e).1) (fun p hp => (hO.last p hp).1)
    have hj2 : Adjacent (fun a b => start a.items + a.dur = start b.items) (lastN cfg.winfrags gs ++ [⟨cur, 0, false, false⟩]) := by
      intro pre a b post e
      refine hj (before ++ pre) a b post ?_
      rw [List.append_assoc, ← e]
      conv => lhs; rw [hb]
      simp
    have := joined_of hj2
    rw [List.map_append] at this
    exact this
  · intro p hp
    obtain ⟨l1, l2, el⟩ := List.append_of_mem hp
    have eg : gs = (before ++ l1) ++ p :: l2 := by rw [hb, el]; simp
    have hpg : p ∈ gs := by rw [eg]; simp
    refine ⟨hg.ne p hpg, part_times hg hO ho hne p hpg, ?_⟩
    intro v junk hj
    have hid : (before ++ l1).length < 2 ^ 32 := by
      have h1 := length_parts hg.ne
      have h2 : (gs.flatMap (·.items)).length ≤ xs.length := by rw [← hg.all]; simp
      have h3 : (before ++ l1).length ≤ gs.length := by rw [eg]; simp
      omega
    have ht : Timed (track v p.items) := by
      intro f hf
      unfold track at hf
      obtain ⟨x, hx, rfl⟩ := List.mem_map.1 hf
      have hx1 := (part_sublist hg.all hpg).subset (List.mem_filter.1 hx).1
      exact ⟨Nat.lt_trans (ho.1 x hx1) pow31_lt, hd x hx1⟩
    obtain ⟨file, h1, h2, -⟩ := C67_segment (before ++ l1).length v (track v p.items) junk hj hid ht
    exact ⟨_, file, _, onDisk_files hpw eg v, h1, h2⟩

/-! ### How large files get -/

/-- No file written so far, nor the tracks of the open fragment, have 11 MiB. -/
structure Small (s : St) : Prop where
  video : s.video.mdatSize < 11 * 1024 * 1024
  audio : s.audio.mdatSize < 11 * 1024 * 1024
  out : ∀ v t trk, Out.media v t trk ∈ s.out → trk.mdatSize < 11 * 1024 * 1024

theorem Small.nextFrag {cfg : Cfg} {s : St} (h : Small s) : Small (nextFrag cfg s) := by
  unfold Dash.nextFrag
  split <;> exact ⟨h.video, h.audio, h.out⟩

theorem Small.write {s : St} (h : Small s) (t : Nat) : Small { s with out := s.out ++ [.media true t s.video, .media false t s.audio] } := by
  refine ⟨h.video, h.audio, ?_⟩
  intro v t' trk hm
  simp only [List.mem_append, List.mem_cons, List.not_mem_nil, or_false] at hm
  rcases hm with hm | hm | hm
  · exact h.out v t' trk hm
  · injection hm with _ _ e; rw [e]; exact h.video
  · injection hm with _ _ e; rw [e]; exact h.audio

theorem Small.playlist {cfg : Cfg} {s : St} (h : Small s) : Small (writePlaylist cfg s) := by
  refine ⟨h.video, h.audio, ?_⟩
  intro v t trk hm
  unfold writePlaylist at hm
  dsimp only at hm
  rcases List.mem_append.1 hm with hm | hm
  · rcases List.mem_append.1 hm with hm | hm
    · exact h.out v t trk hm
    · split at hm
      · cases List.mem_singleton.1 hm
      · cases hm
  · cases List.mem_singleton.1 hm

theorem Small.shut {s : St} (h : Small s) : Small { s with id := s.id + 1, opened := false } := ⟨h.video, h.audio, h.out⟩

theorem Small.close {cfg : Cfg} {s : St} (h : Small s) : Small (closeFragments cfg s) ∧ (closeFragments cfg s).opened = false := by
  unfold closeFragments
  cases e : s.opened with
  | false => rw [if_neg (by simp)]; exact ⟨h, e⟩
  | true =>
    rw [if_pos rfl]
    have h1 := (((h.write (getFrag cfg s s.nfrags).timestamp).nextFrag (cfg := cfg)).playlist (cfg := cfg)).shut
    rw [e] at h1
    exact ⟨h1, rfl⟩

theorem Small.open {s : St} (h : Small s) (ho : s.opened = false) (f : Nat → Slot) : Small { openFragments s with frags := f } ∧ (openFragments s).video.mdatSize = 0 ∧
    (openFragments s).audio.mdatSize = 0 := by
  unfold openFragments
  rw [ho, if_neg (by simp)]
  refine ⟨⟨?_, ?_, h.out⟩, rfl, rfl⟩
  · show 0 < _; omega
  · show 0 < _; omega

theorem append_size (t : Track) (f : Frame) (n : Option Nat) : (append t f n).mdatSize ≤ t.mdatSize + 1048576 := by
  have hc : cap = 1048576 := rfl
  unfold append
  dsimp only
  split
  · split
    · exact Nat.le_add_right _ _
    · dsimp only
      rw [hc, List.length_take]
      omega
  · exact Nat.le_add_right _ _

theorem measure_same (cfg : Cfg) (s : St) (ts : Nat) : (measure cfg s ts).video = s.video ∧ (measure cfg s ts).audio = s.audio ∧ (measure cfg s ts).out = s.out := by
  unfold measure
  split <;> exact ⟨rfl, rfl, rfl⟩

theorem inside_size {cfg : Cfg} {s : St} {key : Bool} {ts : Nat} (h : inside cfg s key ts = false) : s.audio.mdatSize < maxMdat ∧ s.video.mdatSize < maxMdat := by
  unfold inside at h
  generalize hit cfg s ts = b at h
  generalize (2 : Nat) ^ 31 = lim at h
  dsimp only at h
  constructor
  · refine Nat.lt_of_not_le fun h1 => ?_
    rw [if_pos h1] at h
    split at h <;> cases h
  · refine Nat.lt_of_not_le fun h1 => ?_
    rw [if_pos h1] at h
    cases h

theorem cutAt_small {cfg : Cfg} {s : St} (h : Small s) (ts : Nat) :
    Small (cutAt cfg s ts) ∧ (cutAt cfg s ts).video.mdatSize < maxMdat ∧ (cutAt cfg s ts).audio.mdatSize < maxMdat := by
  obtain ⟨h1, h2⟩ := h.close (cfg := cfg)
  unfold cutAt
  generalize closeFragments cfg s = s2 at h1 h2
  dsimp only [setFrag]
  obtain ⟨a, b, c⟩ := h1.open h2 (fun i => if i = Dash.index cfg (openFragments s2) (openFragments s2).nfrags then
    ⟨ts, (getFrag cfg (openFragments s2) (openFragments s2).nfrags).duration⟩ else (openFragments s2).frags i)
  refine ⟨a, ?_, ?_⟩
  · rw [b, maxMdat]; omega
  · rw [c, maxMdat]; omega

theorem boundary_size {cfg : Cfg} {s : St} {key : Bool} {ts : Nat} (hb : boundary cfg s key ts = false) :
    s.audio.mdatSize < maxMdat ∧ s.video.mdatSize < maxMdat := by
  cases e : s.opened with
  | false => exact absurd ((boundary_closed cfg s key ts e).symm.trans hb) (by decide)
  | true => exact inside_size ((boundary_open cfg s key ts e).symm.trans hb)

theorem update_small {cfg : Cfg} {s : St} {key : Bool} {ts : Nat} (h : Small s) :
    Small (updateFragments cfg s key ts) ∧ (updateFragments cfg s key ts).video.mdatSize < maxMdat ∧ (updateFragments cfg s key ts).audio.mdatSize < maxMdat := by
  rw [update_eq]
  have hm := measure_same cfg s ts
  have hm1 : Small (measure cfg s ts) := ⟨by rw [hm.1]; exact h.video, by rw [hm.2.1]; exact h.audio, by rw [hm.2.2]; exact h.out⟩
  have hs := boundary_size (cfg := cfg) (s := s) (key := key) (ts := ts)
  generalize boundary cfg s key ts = b at hs
  generalize measure cfg s ts = s1 at hm hm1
  cases b with
  | true =>
    rw [if_pos rfl]
    exact cutAt_small hm1 ts
  | false =>
    rw [if_neg (by simp)]
    obtain ⟨a, b⟩ := hs rfl
    refine ⟨hm1, ?_, ?_⟩
    · rw [hm.1]; exact b
    · rw [hm.2.1]; exact a

/-- Whatever comes: the frames of no file take 11 MiB. -/
theorem C68_bounded (cfg : Cfg) (frags : Nat → Slot) (ops : List Op) :
    ∀ v t trk, Out.media v t trk ∈ (run cfg (init frags) ops).out → trk.mdatSize < 11 * 1024 * 1024 := by
  have key : Small (run cfg (init frags) ops) := by
    induction ops using snocInd with
    | nil =>
      refine ⟨?_, ?_, by intro v t trk hm; cases hm⟩
      · show 0 < _; omega
      · show 0 < _; omega
    | snoc ops op ih =>
      rw [run_concat]
      rcases ops_cases op with rfl | ⟨x, rfl⟩
      · exact ih.close.1
      · rw [step_item]
        have hf : Small (flagged (run cfg (init frags) ops) x) := by
          obtain ⟨b, f⟩ := x
          cases b <;> exact ⟨ih.video, ih.audio, ih.out⟩
        obtain ⟨h1, h2, h3⟩ := update_small (cfg := cfg) (key := isKey x) (ts := x.2.timestamp) hf
        generalize updateFragments cfg _ _ _ = s1 at h1 h2 h3
        rw [maxMdat] at h2 h3
        unfold added
        split
        · have := append_size s1.video x.2 (some x.2.bytes.length)
          exact ⟨by dsimp only; omega, h1.audio, h1.out⟩
        · have := append_size s1.audio x.2 (some x.2.bytes.length)
          exact ⟨h1.video, by dsimp only; omega, h1.out⟩
  exact key.out

/-- The end of a stream in order: every frame is in a part, parts last to the next, and the last one to its last frame if it has more than one. -/
theorem C68_end_partial (cfg : Cfg) (frags : Nat → Slot) (xs : List Item) (ho : Ordered xs) :
    ∃ gs, (run cfg (init frags) (xs.map opOf ++ [.close])).out = files cfg.winfrags [] gs ∧ gs.flatMap (·.items) = xs ∧
      Adjacent (fun a b => start a.items + a.dur = start b.items) gs ∧
      ∀ p x, gs.getLast? = some p → p.items.getLast? = some x → 2 ≤ p.items.length → start p.items + p.dur = x.2.timestamp := by
  obtain ⟨gs, cur, hr, hg, hO, hn⟩ := run_ord cfg frags xs ho
  rw [run_concat]
  have h1 := hr.stop
  have h2 := hg.stop (cfg := cfg)
  by_cases hc : cur = []
  · rw [if_pos hc] at h1 h2
    have : xs = [] := by
      cases xs with
      | nil => rfl
      | cons a l => exact absurd hc (hn (by simp))
    have hgs : gs = [] := by
      have ha := h2.all
      rw [this, List.append_nil] at ha
      cases gs with
      | nil => rfl
      | cons p l =>
        have := hg.ne p List.mem_cons_self
        simp at ha
        exact absurd ha.1 this
    subst hgs
    exact ⟨[], h1.hOut, by rw [this]; rfl, by intro pre a b post e; simp at e, by simp⟩
  · rw [if_neg hc] at h1 h2
    refine ⟨_, h1.hOut, by simpa using h2.all, adjacent_concat (fun pre a b post e => (hO.join pre a b post e).1) (fun p hp => (hO.last p hp).1), ?_⟩
    intro p x hp hx hlen
    simp at hp
    subst hp
    exact hO.dur hlen x hx

/-! ### A stream -/

/-- Fragments of 2 seconds, a playlist of two. -/
def exCfg : Cfg := ⟨2000, 2⟩

def vid (key : Bool) (ts : Nat) : Item := (true, ⟨[1, 2], key, ts, 40⟩)
def aud (ts : Nat) : Item := (false, ⟨[3], false, ts, 0⟩)

def exStream : List Item := [vid true 100, aud 110, vid false 900, vid true 1900, aud 1950, vid false 2100, vid true 3700, aud 3710, vid true 5500, vid true 7300, vid true 9200, vid false 9300, vid true 10900]

def blank : Nat → Slot := fun _ => ⟨0, 0⟩

/-- Three fragments were closed; the playlist lists the last two. -/
example : lastMpd (run exCfg (init blank) (exStream.map opOf)).out = some (true, true, [⟨3700, 3600⟩, ⟨7300, 3600⟩]) := by decide +kernel

example : Ordered exStream ∧ Light exCfg exStream ∧ keyed exCfg.fraglen none exStream = true ∧ (∀ x ∈ exStream, x.2.delay < 2 ^ 32) ∧
    (run exCfg (init blank) (exStream.map opOf)).out ≠ [] := by decide +kernel

example : ∃ gs rest, (run exCfg (init blank) (exStream.map opOf)).out = files exCfg.winfrags [] gs ∧ gs.flatMap (·.items) ++ rest = exStream ∧
    ∀ p ∈ gs, ∃ x m, p.items = x :: m ∧ isKey x = true :=
  C68_keys_partial exCfg blank exStream (by decide +kernel) (by decide) (by decide +kernel) (by decide +kernel)

/-! ### What goes wrong -/

/-- Without key frames for two fragments, a segment of video begins with another frame; the playlist says `startWithSAP="1"` of all. -/
theorem C68_keyless_violation : ∃ xs : List Item, Ordered xs ∧ Light exCfg xs ∧ (onDisk true 4000 (run exCfg (init blank) (xs.map opOf ++ [.close])).out).bind (fun trk => trk.samples.head?.map (·.key)) = some false :=
  ⟨[vid true 0, vid false 2000, vid false 4000, vid false 4040], by decide +kernel, by decide +kernel, by decide +kernel⟩

/-- A fragment of one frame is said to be as long as one before it in the ring was; the first one as long as its time. -/
theorem C68_single_violation : ∃ t, lastMpd (run exCfg (init blank) ([vid true t].map opOf ++ [.close])).out = some (true, false, [⟨t, t⟩]) ∧ t = 86400000 :=
  ⟨86400000, by decide +kernel, rfl⟩

/-- The last frame of a stream has no time in the playlist. -/
theorem C68_last_violation : ∃ xs : List Item, Ordered xs ∧ (∃ x ∈ xs, x.2.timestamp = 40) ∧
    lastMpd (run exCfg (init blank) (xs.map opOf ++ [.close])).out = some (true, false, [⟨0, 40⟩]) :=
  ⟨[vid true 0, vid false 40], by decide +kernel, ⟨vid false 40, by decide +kernel, rfl⟩, by decide +kernel⟩

/-- When times go back, the file of a fragment that is listed is written again: it is listed twice, and the frames it had are gone. -/
theorem C68_back_violation : ∃ (xs : List Item) (a b c : Slot), lastMpd (run ⟨2000, 3⟩ (init blank) (xs.map opOf ++ [.close])).out = some (true, false, [a, b, c]) ∧
    a.timestamp = c.timestamp ∧ a.duration ≠ c.duration ∧
    (onDisk true a.timestamp (run ⟨2000, 3⟩ (init blank) ((xs.take 3).map opOf)).out).map (·.samples.length) = some 2 ∧
    (onDisk true a.timestamp (run ⟨2000, 3⟩ (init blank) (xs.map opOf ++ [.close])).out).map (·.samples.length) = some 3 :=
  ⟨[vid true 0, vid false 40, vid true 2000, vid false 2040, vid true 0, vid false 40, vid false 80], ⟨0, 2000⟩, ⟨2000, 40⟩, ⟨0, 80⟩,
    by decide +kernel, rfl, by decide, by decide +kernel, by decide +kernel⟩

/-- A fragment without audio has a file for it all the same, with the time 0. -/
theorem C68_silent_violation : ∃ xs : List Item, Ordered xs ∧
    lastMpd (run exCfg (init blank) (xs.map opOf ++ [.close])).out = some (true, true, [⟨0, 2000⟩, ⟨2000, 40⟩]) ∧
    (onDisk false 2000 (run exCfg (init blank) (xs.map opOf ++ [.close])).out).map (fun trk => (trk.samples.length, trk.earliest)) = some (0, 0) :=
  ⟨[vid true 0, aud 20, vid true 2000, vid false 2040], by decide +kernel, by decide +kernel, by decide +kernel⟩

/-- With fragments longer than the playlist nothing is ever listed. -/
theorem C68_window_violation (fraglen : Nat) (frags : Nat → Slot) (ops : List Op) (hv ha : Bool) (l : List Slot)
    (h : lastMpd (run ⟨fraglen, 0⟩ (init frags) ops).out = some (hv, ha, l)) : l = [] := by
  obtain ⟨gs, rest, h1, -⟩ := C68_files ⟨fraglen, 0⟩ frags ops
  rw [h1] at h
  rcases List.eq_nil_or_concat gs with rfl | ⟨q, z, rfl⟩
  · cases h
  · rw [List.concat_eq_append, lastMpd_files] at h
    injection h with h
    injection h with _ h
    injection h with _ h
    rw [← h]
    simp [lastN]

example : lastMpd (run ⟨5000, 0⟩ (init blank) (exStream.map opOf ++ [.close])).out = some (true, true, []) := by decide +kernel

end Verif.Dash
