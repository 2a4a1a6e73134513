import Verif.Hls2.HeapWorld
/-
Lemmas for C75: responses.
-/
namespace Verif.Hls2.Mem
open Verif Verif.Hls2 Spec

/-! ### Contents of fragments -/

structure Sound (q : Nat) (g : Frag) : Prop where
  hLen : g.last ≤ g.content.length
  hLast : g.last < q

def SoundSt (c : Conf) (s : St) : Prop := ∀ g, some g ∈ s.ring → Sound c.queue g

theorem put_sound {q : Nat} {g : Frag} (h : Sound q g) (f : Frame) : Sound q (g.put q f) := by
  have h1 := h.hLen
  have h2 := h.hLast
  have hm : (g.last + 1) % q ≤ g.last + 1 := Nat.mod_le _ _
  refine ⟨?_, Nat.mod_lt _ (by omega)⟩
  show (g.last + 1) % q ≤ (g.content.take g.last ++ f :: g.content.drop (g.last + 1)).length
  simp only [List.length_append, List.length_take, List.length_cons, List.length_drop]
  omega

theorem soundSt_set {c : Conf} {s : St} (h : SoundSt c s) (n : Nat) {g : Frag} (hg : Sound c.queue g) : SoundSt c (setFrag c s n g) := by
  intro x hx
  rcases List.mem_or_eq_of_mem_set hx with hx | hx
  · exact h x hx
  · injection hx with hx; rw [hx]; exact hg

theorem soundSt_get {c : Conf} {s : St} (h : SoundSt c s) {n : Nat} {g : Frag} (hg : getFrag c s n = some g) : Sound c.queue g := by
  unfold getFrag at hg
  exact h g (List.mem_of_getElem? (join_some hg))

theorem sound_write {c : Conf} {s s' : St} (h : SoundSt c s) (f : Frame) (e : writeFrame c s f = some s') : SoundSt c s' := by
  unfold writeFrame at e
  split at e
  · simp at e
  · rename_i g hg
    split at e
    · simp at e
    · injection e with e
      rw [← e]
      exact soundSt_set h _ (put_sound (soundSt_get h hg) f)

theorem sound_close {c : Conf} {s : St} (h : SoundSt c s) : SoundSt c (closeFragment c s) := by
  have : (closeFragment c s).ring = s.ring := by
    unfold closeFragment nextFrag
    split
    · rfl
    · dsimp only
      split <;> (dsimp only; split <;> rfl)
  unfold SoundSt
  rw [this]
  exact h

theorem sound_open {c : Conf} {s s' : St} (hq : c.queue ≠ 0) (h : SoundSt c s) (k : Codec) (ts : Nat) (d : Bool) (e : openFragment c k ts d s = some s') : SoundSt c s' := by
  unfold openFragment at e
  split at e
  · injection e with e; rw [← e]; exact h
  · dsimp only at e
    split at e
    · simp at e
    · rename_i s1 h1
      have k1 : SoundSt c s1 := by
        refine sound_write ?_ _ h1
        intro x hx
        rcases List.mem_or_eq_of_mem_set hx with hx | hx
        · exact h x hx
        · injection hx with hx; rw [hx]; exact ⟨by simp, by show 0 < c.queue; omega⟩
      split at e
      · simp at e
      · rename_i g hg
        injection e with e
        rw [← e]
        have := soundSt_get k1 hg
        exact soundSt_set k1 _ ⟨this.hLen, this.hLast⟩

theorem sound_updateFragment {c : Conf} (hp : Plain c) {s s' : St} (h : SoundSt c s) (k : Codec) (ts : Nat) (b : Bool) (e : updateFragment c k ts b s = some s') : SoundSt c s' := by
  cases ho : s.opened with
  | false =>
    rw [updateFragment_shut hp.hPlain ho] at e
    split at e
    · exact sound_open hp.hQueue (sound_close h) _ _ _ e
    · injection e with e; rw [← e]; exact h
  | true =>
    cases hg : getFrag c s s.nfrags with
    | none =>
      unfold updateFragment at e
      rw [ho, hg] at e
      simp at e
    | some g =>
      obtain ⟨d, hd⟩ : ∃ d, diff ts s.fragTs = d := ⟨_, rfl⟩
      rw [updateFragment_eq hp.hPlain ho hg rfl hd] at e
      have hs := soundSt_get h hg
      have hs' : Sound c.queue { g with ticks := d } := ⟨hs.hLen, hs.hLast⟩
      split at e
      · exact sound_open hp.hQueue (sound_close (soundSt_set h _ hs)) _ _ _ e
      · split at e
        · exact sound_open hp.hQueue (sound_close (soundSt_set h _ hs')) _ _ _ e
        · injection e with e; rw [← e]; exact soundSt_set h _ hs'

theorem sound_update {c : Conf} (hp : Plain c) (k : Codec) : ∀ (fs : List Frame) (s : St), SoundSt c s → ∀ r, update c k fs s = some r → SoundSt c r.1 := by
  intro fs
  induction fs with
  | nil => intro s h r e; rw [update] at e; injection e with e; rw [← e]; exact h
  | cons f fs ih =>
    intro s h r e
    rw [update] at e
    split at e
    · simp at e
    · rename_i s1 h1
      have k1 := sound_updateFragment hp h k _ _ h1
      split at e
      · injection e with e; rw [← e]; exact k1
      · split at e
        · simp at e
        · rename_i s2 h2
          exact ih s2 (sound_write k1 f h2) r e

theorem sound_feeds {c : Conf} (hp : Plain c) : ∀ (l : List (Codec × List Frame)) (s : Sess), SoundSt c s.st → ∀ s', feeds c l s = some s' → SoundSt c s'.st := by
  intro l
  induction l with
  | nil => intro s h s' e; rw [feeds] at e; injection e with e; rw [← e]; exact h
  | cons z l ih =>
    intro s h s' e
    obtain ⟨k, fs⟩ := z
    rw [feeds] at e
    cases hf : feed c k fs s with
    | none => rw [hf] at e; simp at e
    | some s1 =>
      rw [hf, Option.bind_some] at e
      refine ih s1 ?_ s' e
      unfold feed at hf
      cases hu : update c k (s.queue ++ fs) s.st with
      | none => rw [hu] at hf; simp at hf
      | some r =>
        rw [hu, Option.map_some] at hf
        injection hf with hf
        rw [← hf]
        exact sound_update hp k _ _ h r hu

theorem now_sound {x : ISess} (hp : Plain x.conf) {s : Sess} (h : x.now = some s) : SoundSt x.conf s.st := by
  refine sound_feeds hp x.fed ⟨init x.conf, []⟩ ?_ s h
  intro g hg
  simp [init] at hg

/-! ### Sending -/

theorem sendGo_eq {q : Nat} {g : Frag} (h : Sound q g) : ∀ n pos, pos ≤ g.last → sendGo q g n pos = some ((((g.content.take g.last).drop pos).take n).flatMap (·.data), min (pos + n) g.last) := by
  intro n
  induction n with
  | zero =>
    intro pos hp
    rw [sendGo]
    simp
    omega
  | succ n ih =>
    intro pos hp
    have h1 := h.hLen
    have h2 := h.hLast
    rw [sendGo]
    by_cases he : pos = g.last
    · rw [if_pos he, List.drop_eq_nil_of_le (by rw [List.length_take]; omega)]
      simp
      omega
    · have hlt : pos < g.content.length := by omega
      rw [if_neg he, List.getElem?_eq_getElem hlt, Option.bind_some, if_neg (by omega), Nat.mod_eq_of_lt (by omega), ih (pos + 1) (by omega), Option.map_some]
      have hd : (g.content.take g.last).drop pos = g.content[pos] :: (g.content.take g.last).drop (pos + 1) := by
        rw [List.drop_eq_getElem_cons (by rw [List.length_take]; omega), List.getElem_take]
      rw [hd, List.take_succ_cons, List.flatMap_cons]
      have : min (pos + 1 + n) g.last = min (pos + (n + 1)) g.last := by omega
      rw [this]

theorem send_same {q : Nat} {w : World} {i : IWorld} (h : Same q w i) (rid : Nat) : ∃ w', step w (.send rid) = some w' ∧ Same q w' (istep i (.send rid)) := by
  cases hr : w.request rid with
  | none =>
    refine ⟨w, by unfold step; dsimp only; rw [hr], ?_⟩
    unfold istep
    dsimp only
    rw [h.req_none hr]
    exact h
  | some r =>
    obtain ⟨y, hy⟩ := h.req_some hr
    obtain ⟨a1, a2, a3, a4, a5, a6, a7, a8, a9⟩ := h.hReq rid r y hr hy
    cases hx : w.session r.sess with
    | none => exact absurd hx a8
    | some x =>
      obtain ⟨z, hz⟩ := h.sess_some hx
      obtain ⟨b1, _, _, _, b5, _⟩ := h.hSess _ x z hx hz
      have hsend := sendGo_eq ⟨a6, a7⟩ 4 r.pos (by rw [a4]; omega)
      have hqq : x.conf.queue = q := by rw [b1]; exact b5
      have hn : rid < w.reqs.length := join_lt hr
      obtain ⟨r', hr'⟩ : ∃ r' : HReq, r' = { r with pos := min (r.pos + 4) y.frag.last, sent := r.sent ++ (((y.frag.content.take y.frag.last).drop r.pos).take 4).flatMap (·.data) } := ⟨_, rfl⟩
      have hw : ∀ m, (World.mk w.heap w.sess (w.reqs.set rid (some r'))).request m = if m = rid then some r' else w.request m := fun m => join_set hn _ m
      have hi : ∀ m, (IWorld.mk i.sess (i.reqs.set rid (some { y with sends := y.sends + 1 }))).request m = if m = rid then some { y with sends := y.sends + 1 } else i.request m :=
        fun m => join_set (by rw [← h.hLenR]; exact hn) _ m
      have hheld : (World.mk w.heap w.sess (w.reqs.set rid (some r'))).held = w.held := by
        obtain ⟨A, B, k1, k2⟩ := held_at hr
        have e1 : (World.mk w.heap w.sess (w.reqs.set rid (some r'))).held = A ++ rheld (some r') ++ B := k1 _
        rw [e1, k2, hr']
        rfl
      refine ⟨⟨w.heap, w.sess, w.reqs.set rid (some r')⟩, ?_, ?_⟩
      · unfold step
        dsimp only
        rw [hr]
        dsimp only
        rw [hx, Option.bind_some, a2, Option.bind_some, hqq, hsend, Option.map_some, hr']
      · unfold istep
        dsimp only
        rw [hy]
        dsimp only
        refine ⟨h.ok, ?_, h.hNodup, h.hLenS, by simp [h.hLenR], h.hSessN, h.hSess, ?_, ?_, ?_⟩
        · intro a
          rw [hheld]
          exact h.hRef a
        · intro m
          rw [hw, hi]
          split
          · simp
          · exact h.hReqN m
        · intro m r1 y1 hm hm'
          rw [hw] at hm
          rw [hi] at hm'
          by_cases he : m = rid
          · rw [if_pos he] at hm hm'
            injection hm with hm
            injection hm' with hm'
            subst hm hm'
            rw [hr']
            refine ⟨a1, a2, a3, ?_, ?_, a6, a7, a8, a9⟩
            · show min (r.pos + 4) y.frag.last = min (4 * (y.sends + 1)) y.frag.last
              rw [a4]; omega
            · show r.sent ++ _ = _
              rw [a5]
              unfold IReq.sent
              dsimp only
              rw [show 4 * (y.sends + 1) = 4 * y.sends + 4 by omega, List.take_add, List.flatMap_append]
              congr 3
              rw [a4]
              by_cases hmin : 4 * y.sends ≤ y.frag.last
              · rw [Nat.min_eq_left hmin]
              · rw [List.drop_eq_nil_of_le (by rw [List.length_take]; omega), List.drop_eq_nil_of_le (by rw [List.length_take]; omega)]
          · rw [if_neg he] at hm hm'
            exact h.hReq m r1 y1 hm hm'
        · intro n x' rid' hx' hl
          obtain ⟨r2, g1, g2⟩ := h.hLast n x' rid' hx' hl
          rw [hw]
          split
          · rename_i he
            refine ⟨r', rfl, ?_⟩
            rw [he, hr] at g1
            injection g1 with g1
            rw [hr', ← g2, ← g1]
          · exact ⟨r2, g1, g2⟩

/-! ### Asking -/

theorem find_view {x : HSess} {h : Heap} (name : HlsRestore.Text) (after : Char) (hl : ∀ a ∈ addrs x.st.ring, ∃ g, h.get a = some g) :
    (hfind x name after = none → findFrag x.conf (view h x.st) name after = none) ∧
    ∀ a, hfind x name after = some a → a ∈ addrs x.st.ring ∧ findFrag x.conf (view h x.st) name after = h.get a ∧ (∃ i, findSlot x.conf x.st.nfrag x.st.nfrags name after = some i ∧ x.st.ring[i]? = some (some a)) := by
  unfold hfind findFrag
  have hn : (view h x.st).nfrag = x.st.nfrag := rfl
  have hn' : (view h x.st).nfrags = x.st.nfrags := rfl
  rw [hn, hn']
  cases hs : findSlot x.conf x.st.nfrag x.st.nfrags name after with
  | none => exact ⟨fun _ => rfl, fun a h => by simp at h⟩
  | some i =>
    simp only [Option.bind_some]
    have hr : ((view h x.st).ring[i]?).join = ((x.st.ring[i]?).join).bind h.get := by
      unfold view
      dsimp only
      rw [List.getElem?_map]
      cases x.st.ring[i]? with
      | none => rfl
      | some o => rfl
    rw [hr]
    refine ⟨fun e => by rw [e]; rfl, ?_⟩
    intro a ha
    rw [ha]
    exact ⟨mem_addrs (join_some ha), rfl, i, rfl, join_some ha⟩

theorem Same.live {q : Nat} {w : World} {i : IWorld} (h : Same q w i) {n : Nat} {x : HSess} (hx : w.session n = some x) : ∀ a ∈ addrs x.st.ring, ∃ g, w.heap.get a = some g := by
  intro a ha
  have hp := List.count_pos_iff.2 (mem_rings hx ha)
  have := h.hRef a
  obtain ⟨c, _, _, e, _⟩ := ref_cell (h := w.heap) (a := a) (by omega)
  exact ⟨_, e⟩

theorem forget_same {q : Nat} {w : World} {i : IWorld} (h : Same q w i) {sid : Nat} {x : HSess} {y : ISess} (hx : w.session sid = some x) (hy : i.session sid = some y) : Same q (w.forget sid x) (i.forget sid y) := by
  have hn : sid < w.sess.length := join_lt hx
  have hw : ∀ m, (w.forget sid x).session m = if m = sid then some { x with last := none } else w.session m := fun m => join_set hn _ m
  have hi : ∀ m, (i.forget sid y).session m = if m = sid then some { y with last := none } else i.session m := fun m => join_set (by rw [← h.hLenS]; exact hn) _ m
  have hrings : (w.forget sid x).rings = w.rings := by
    obtain ⟨A, B, r1, r2, _⟩ := rings_at hx
    rw [r2]
    exact r1 _
  refine ⟨h.ok, ?_, by rw [hrings]; exact h.hNodup, by simp [World.forget, IWorld.forget, h.hLenS], h.hLenR, ?_, ?_, h.hReqN, ?_, ?_⟩
  · intro a
    rw [hrings]
    exact h.hRef a
  · intro m
    rw [hw, hi]
    split
    · simp
    · exact h.hSessN m
  · intro m x' y' hx' hy'
    rw [hw] at hx'
    rw [hi] at hy'
    by_cases hm : m = sid
    · rw [if_pos hm] at hx' hy'
      injection hx' with hx'
      injection hy' with hy'
      subst hx' hy'
      obtain ⟨b1, b2, b3, b4⟩ := h.hSess sid x y hx hy
      exact ⟨b1, rfl, b3, b4⟩
    · rw [if_neg hm] at hx' hy'
      exact h.hSess m x' y' hx' hy'
  · intro m r y' hm hm'
    obtain ⟨c1, c2, c3, c4, c5, c6, c7, c8, c9⟩ := h.hReq m r y' hm hm'
    refine ⟨c1, c2, c3, c4, c5, c6, c7, ?_, ?_⟩
    · rw [hw]
      split
      · simp
      · exact c8
    · intro m' x' hx'
      rw [hw] at hx'
      split at hx'
      · injection hx' with hx'
        subst hx'
        exact c9 sid x hx
      · exact c9 m' x' hx'
  · intro m x' rid hx' hl
    rw [hw] at hx'
    split at hx'
    · injection hx' with hx'
      subst hx'
      simp at hl
    · exact h.hLast m x' rid hx' hl

theorem ask_same {q : Nat} {w : World} {i : IWorld} (h : Same q w i) (sid : Nat) (name : HlsRestore.Text) (after : Char) (ho : Orderly q i (.ask sid name after)) :
    ∃ w', step w (.ask sid name after) = some w' ∧ Same q w' (istep i (.ask sid name after)) := by
  cases hs : w.session sid with
  | none =>
    refine ⟨w, by unfold step; dsimp only; rw [hs], ?_⟩
    unfold istep
    dsimp only
    rw [h.sess_none hs]
    exact h
  | some x =>
    obtain ⟨y, hy⟩ := h.sess_some hs
    obtain ⟨b1, b2, b3, b4, b5, b6, b7⟩ := h.hSess sid x y hs hy
    obtain ⟨f1, f2⟩ := find_view name after (h.live hs)
    have hfind' : y.find name after = findFrag x.conf (view w.heap x.st) name after := by
      unfold ISess.find
      rw [b3, Option.bind_some, b1]
    cases hf : hfind x name after with
    | none =>
      refine ⟨w.forget sid x, by unfold step; dsimp only; rw [hs]; dsimp only; rw [hf], ?_⟩
      unfold istep
      dsimp only
      rw [hy]
      dsimp only
      rw [hfind', f1 hf]
      exact forget_same h hs hy
    | some a =>
      obtain ⟨g1, g2, j, g3, g4⟩ := f2 a hf
      obtain ⟨g, hg⟩ := h.live hs a g1
      have hp : 0 < w.heap.ref a := get_ref hg
      obtain ⟨h', e1, e2, e3, e4⟩ := acquire_ok h.ok hp
      -- it is not open
      have hnot : ∀ m x', w.session m = some x' → cur x'.conf x'.st ≠ some a := by
        intro m x' hx' hc
        obtain ⟨c1, c2, c3⟩ := cur_mem hc
        by_cases hm : m = sid
        · subst hm
          rw [hs] at hx'
          injection hx' with hx'
          subst hx'
          have nd : (addrs x.st.ring).Nodup := by
            obtain ⟨A, B, _, r2, _⟩ := rings_at hs
            have := h.hNodup
            rw [r2] at this
            exact (List.nodup_append.1 (List.nodup_append.1 this).1).2.1
          have := slot_inj nd g4 c3
          have hord := ho y _ j hy b3 (by rw [← b1]; exact g3) c2
          rw [← b1] at hord
          exact hord this
        · obtain ⟨A, B, _, r2, r3⟩ := rings_at hs
          have nd := h.hNodup
          rw [r2] at nd
          have nd1 := List.nodup_append.1 nd
          have nd2 := List.nodup_append.1 nd1.1
          rcases List.mem_append.1 (r3 m x' hm hx' a c1) with hab | hab
          · exact nd2.2.2 a hab a g1 rfl
          · exact nd1.2.2 a (List.mem_append_right _ g1) a hab rfl
      have hsound : Sound q g := by
        have hmem : some g ∈ (view w.heap x.st).ring := by
          have : (view w.heap x.st).ring[j]? = some (some g) := by
            unfold view
            dsimp only
            rw [List.getElem?_map, g4]
            simp [hg]
          exact List.mem_of_getElem? this
        have := now_sound b4 b3 g hmem
        rw [b5] at this
        exact this
      have hn : sid < w.sess.length := join_lt hs
      have hw : ∀ m, (World.mk h' (w.sess.set sid (some { x with last := some w.reqs.length })) (w.reqs ++ [some { sess := sid, frag := a, length := g.length }])).session m =
        if m = sid then some { x with last := some w.reqs.length } else w.session m := fun m => join_set hn _ m
      have hi : ∀ m, (IWorld.mk (i.sess.set sid (some { y with last := some i.reqs.length })) (i.reqs ++ [some { sess := sid, frag := g }])).session m =
        if m = sid then some { y with last := some i.reqs.length } else i.session m := fun m => join_set (by rw [← h.hLenS]; exact hn) _ m
      have hwr : ∀ m, (World.mk h' (w.sess.set sid (some { x with last := some w.reqs.length })) (w.reqs ++ [some { sess := sid, frag := a, length := g.length }])).request m =
        if m = w.reqs.length then some { sess := sid, frag := a, length := g.length } else w.request m := fun m => join_snoc _ _ m
      have hir : ∀ m, (IWorld.mk (i.sess.set sid (some { y with last := some i.reqs.length })) (i.reqs ++ [some { sess := sid, frag := g }])).request m =
        if m = w.reqs.length then some { sess := sid, frag := g } else i.request m := fun m => by rw [h.hLenR]; exact join_snoc _ _ m
      refine ⟨⟨h', w.sess.set sid (some { x with last := some w.reqs.length }), w.reqs ++ [some { sess := sid, frag := a, length := g.length }]⟩, ?_, ?_⟩
      · unfold step
        dsimp only
        rw [hs]
        dsimp only
        rw [hf]
        dsimp only
        rw [hg, Option.bind_some, e1]
        rfl
      · unfold istep
        dsimp only
        rw [hy]
        dsimp only
        rw [hfind', g2, hg]
        dsimp only
        have hrings : (World.mk h' (w.sess.set sid (some { x with last := some w.reqs.length })) (w.reqs ++ [some { sess := sid, frag := a, length := g.length }])).rings = w.rings := by
          obtain ⟨A, B, r1, r2, _⟩ := rings_at hs
          rw [r2]
          exact r1 _
        have hheld : (World.mk h' (w.sess.set sid (some { x with last := some w.reqs.length })) (w.reqs ++ [some { sess := sid, frag := a, length := g.length }])).held = w.held ++ [a] := by
          unfold World.held
          simp [rheld]
        refine ⟨e2, ?_, by rw [hrings]; exact h.hNodup, by simp [h.hLenS], by simp [h.hLenR], ?_, ?_, ?_, ?_, ?_⟩
        · intro b
          rw [hrings, hheld]
          show h'.ref b = _
          rw [e3 b, h.hRef b, List.count_append, List.count_singleton]
          by_cases hb : b = a
          · subst hb; simp; omega
          · have : (a == b) = false := by simp; exact fun e => hb e.symm
            rw [if_neg hb, this]
            simp
        · intro m
          rw [hw, hi]
          split
          · simp
          · exact h.hSessN m
        · intro m x' y' hx' hy'
          rw [hw] at hx'
          rw [hi] at hy'
          have hv : ∀ s : HSt, view h' s = view w.heap s := fun s => view_congr (fun b _ => e4 b)
          by_cases hm : m = sid
          · rw [if_pos hm] at hx' hy'
            injection hx' with hx'
            injection hy' with hy'
            subst hx' hy'
            refine ⟨b1, by show some w.reqs.length = some i.reqs.length; rw [h.hLenR], ?_, b4, b5, b6, b7⟩
            show y.now = some ⟨view h' x.st, x.queue⟩
            rw [hv, b3]
          · rw [if_neg hm] at hx' hy'
            obtain ⟨d1, d2, d3, d4⟩ := h.hSess m x' y' hx' hy'
            refine ⟨d1, d2, ?_, d4⟩
            show y'.now = some ⟨view h' x'.st, x'.queue⟩
            rw [hv, d3]
        · intro m
          rw [hwr, hir]
          split
          · simp
          · exact h.hReqN m
        · intro m r' y' hm hm'
          rw [hwr] at hm
          rw [hir] at hm'
          have hkeep : ∀ r : HReq, (∀ m x, w.session m = some x → cur x.conf x.st ≠ some r.frag) → ∀ m x', (World.mk h' (w.sess.set sid (some { x with last := some w.reqs.length })) (w.reqs ++ [some { sess := sid, frag := a, length := g.length }])).session m = some x' → cur x'.conf x'.st ≠ some r.frag := by
            intro r hr m x' hx'
            rw [hw] at hx'
            split at hx'
            · injection hx' with hx'
              subst hx'
              exact hr sid x hs
            · exact hr m x' hx'
          by_cases he : m = w.reqs.length
          · rw [if_pos he] at hm hm'
            injection hm with hm
            injection hm' with hm'
            subst hm hm'
            refine ⟨rfl, by rw [← hg]; exact e4 a, rfl, by simp, by simp [IReq.sent], hsound.hLen, hsound.hLast, ?_, hkeep _ hnot⟩
            rw [hw]
            simp
          · rw [if_neg he] at hm hm'
            obtain ⟨a1, a2, a3, a4, a5, a6, a7, a8, a9⟩ := h.hReq m r' y' hm hm'
            refine ⟨a1, by rw [← a2]; exact e4 _, a3, a4, a5, a6, a7, ?_, hkeep _ a9⟩
            rw [hw]
            split
            · simp
            · exact a8
        · intro m x' rid hx' hl
          rw [hw] at hx'
          rw [hwr]
          split at hx'
          · rename_i hm
            injection hx' with hx'
            subst hx'
            have hl : some w.reqs.length = some rid := hl
            injection hl with hl
            rw [if_pos hl.symm]
            exact ⟨_, rfl, hm.symm⟩
          · obtain ⟨r2, k1, k2⟩ := h.hLast m x' rid hx' hl
            have hne : rid ≠ w.reqs.length := by
              have := join_lt k1
              omega
            rw [if_neg hne]
            exact ⟨r2, k1, k2⟩

/-! ### Ends -/

theorem finish_same {q : Nat} {w : World} {i : IWorld} (h : Same q w i) {rid : Nat} {r : HReq} {y : IReq} (hr : w.request rid = some r) (hy : i.request rid = some y) :
    ∃ w', finish w rid r = some w' ∧ Same q w' (i.finish rid y) ∧ w'.reqs = w.reqs.set rid none ∧ (i.finish rid y).reqs = i.reqs.set rid none ∧
      (∀ m x, w.session m = some x → ∃ l, w'.session m = some { x with last := l } ∧ (m = r.sess → l = none)) := by
  obtain ⟨a1, a2, a3, a4, a5, a6, a7, a8, a9⟩ := h.hReq rid r y hr hy
  cases hs : w.session r.sess with
  | none => exact absurd hs a8
  | some x =>
    obtain ⟨z, hz⟩ := h.sess_some hs
    obtain ⟨h', e1, e2, e3, e4⟩ := release_ok h.ok (get_ref a2)
    have hn : r.sess < w.sess.length := join_lt hs
    have hnr : rid < w.reqs.length := join_lt hr
    obtain ⟨A, B, k1, k2⟩ := held_at hr
    have hw : ∀ m, (World.mk h' (w.sess.set r.sess (some { x with last := none })) (w.reqs.set rid none)).session m = if m = r.sess then some { x with last := none } else w.session m := fun m => join_set hn _ m
    have hi : ∀ m, (IWorld.mk (i.sess.set r.sess (some { z with last := none })) (i.reqs.set rid none)).session m = if m = r.sess then some { z with last := none } else i.session m :=
      fun m => join_set (by rw [← h.hLenS]; exact hn) _ m
    have hwr : ∀ m, (World.mk h' (w.sess.set r.sess (some { x with last := none })) (w.reqs.set rid none)).request m = if m = rid then none else w.request m := fun m => join_set hnr _ m
    have hir : ∀ m, (IWorld.mk (i.sess.set r.sess (some { z with last := none })) (i.reqs.set rid none)).request m = if m = rid then none else i.request m :=
      fun m => join_set (by rw [← h.hLenR]; exact hnr) _ m
    have hrings : (World.mk h' (w.sess.set r.sess (some { x with last := none })) (w.reqs.set rid none)).rings = w.rings := by
      obtain ⟨A, B, r1, r2, _⟩ := rings_at hs
      rw [r2]
      exact r1 _
    have hheld : (World.mk h' (w.sess.set r.sess (some { x with last := none })) (w.reqs.set rid none)).held = A ++ B := by
      have : (World.mk h' (w.sess.set r.sess (some { x with last := none })) (w.reqs.set rid none)).held = A ++ rheld none ++ B := k1 _
      rw [this]
      simp [rheld]
    have href : ∀ b, h'.ref b = w.rings.count b + (A ++ B).count b := by
      intro b
      rw [e3 b, h.hRef b, k2]
      simp only [List.count_append, List.count_singleton]
      by_cases hb : b = r.frag
      · rw [hb]; simp; omega
      · have : (r.frag == b) = false := by simp; exact fun e => hb e.symm
        rw [if_neg hb, this]
        simp
    have hfin : i.finish rid y = ⟨i.sess.set r.sess (some { z with last := none }), i.reqs.set rid none⟩ := by
      unfold IWorld.finish
      rw [← a1, hz]
    refine ⟨⟨h', w.sess.set r.sess (some { x with last := none }), w.reqs.set rid none⟩, ?_, ?_, rfl, by rw [hfin], ?_⟩
    · unfold finish
      rw [hs, Option.bind_some, e1]
      rfl
    · rw [hfin]
      have hgr : ∀ b ∈ w.rings, h'.get b = w.heap.get b := by
        intro b hb
        have := List.count_pos_iff.2 hb
        exact e4 b (by rw [href b]; omega)
      refine ⟨e2, ?_, by rw [hrings]; exact h.hNodup, by simp [h.hLenS], by simp [h.hLenR], ?_, ?_, ?_, ?_, ?_⟩
      · intro b
        rw [hrings, hheld]
        exact href b
      · intro m
        rw [hw, hi]
        split
        · simp
        · exact h.hSessN m
      · intro m x' y' hx' hy'
        rw [hw] at hx'
        rw [hi] at hy'
        have hv : ∀ x'' : HSess, w.session m = some x'' → view h' x''.st = view w.heap x''.st := fun x'' hx'' => view_congr (fun b hb => hgr b (mem_rings hx'' hb))
        by_cases hm : m = r.sess
        · rw [if_pos hm] at hx' hy'
          injection hx' with hx'
          injection hy' with hy'
          subst hx' hy'
          obtain ⟨b1, b2, b3, b4⟩ := h.hSess r.sess x z hs hz
          refine ⟨b1, rfl, ?_, b4⟩
          show z.now = some ⟨view h' x.st, x.queue⟩
          rw [hv x (by rw [hm]; exact hs), b3]
        · rw [if_neg hm] at hx' hy'
          obtain ⟨d1, d2, d3, d4⟩ := h.hSess m x' y' hx' hy'
          refine ⟨d1, d2, ?_, d4⟩
          show y'.now = some ⟨view h' x'.st, x'.queue⟩
          rw [hv x' hx', d3]
      · intro m
        rw [hwr, hir]
        split
        · simp
        · exact h.hReqN m
      · intro m r' y' hm hm'
        rw [hwr] at hm
        rw [hir] at hm'
        by_cases he : m = rid
        · rw [if_pos he] at hm
          simp at hm
        · rw [if_neg he] at hm hm'
          obtain ⟨c1, c2, c3, c4, c5, c6, c7, c8, c9⟩ := h.hReq m r' y' hm hm'
          have hmem : r'.frag ∈ A ++ B := by
            have : r'.frag ∈ (World.mk h' (w.sess.set r.sess (some { x with last := none })) (w.reqs.set rid none)).held := mem_held (n := m) (by rw [hwr, if_neg he]; exact hm)
            rw [hheld] at this
            exact this
          have := List.count_pos_iff.2 hmem
          refine ⟨c1, by rw [← c2]; exact e4 _ (by rw [href]; omega), c3, c4, c5, c6, c7, ?_, ?_⟩
          · rw [hw]
            split
            · simp
            · exact c8
          · intro m' x' hx'
            rw [hw] at hx'
            split at hx'
            · injection hx' with hx'
              subst hx'
              exact c9 r.sess x hs
            · exact c9 m' x' hx'
      · intro m x' rid' hx' hl
        rw [hw] at hx'
        split at hx'
        · injection hx' with hx'
          subst hx'
          simp at hl
        · rename_i hm
          obtain ⟨r2, g1, g2⟩ := h.hLast m x' rid' hx' hl
          rw [hwr]
          have hne : rid' ≠ rid := by
            intro e
            rw [e, hr] at g1
            injection g1 with g1
            rw [← g1] at g2
            exact hm g2.symm
          rw [if_neg hne]
          exact ⟨r2, g1, g2⟩
    · intro m x' hx'
      rw [hw]
      by_cases hm : m = r.sess
      · rw [if_pos hm]
        rw [hm, hs] at hx'
        injection hx' with hx'
        subst hx'
        exact ⟨none, rfl, fun _ => rfl⟩
      · rw [if_neg hm]
        exact ⟨x'.last, by rw [hx'], fun e => absurd e hm⟩

theorem releaseAll_ok {q : Nat} : ∀ (l : List (Option Nat)) (h : Heap), HeapOk q h → (addrs l).Nodup → (∀ a ∈ addrs l, 0 < h.ref a) →
    ∃ h', releaseAll l h = some h' ∧ HeapOk q h' ∧ (∀ b, h'.ref b = h.ref b - (addrs l).count b) ∧ (∀ b, 0 < h'.ref b → h'.get b = h.get b) := by
  intro l
  induction l with
  | nil => intro h ok _ _; exact ⟨h, rfl, ok, by simp [addrs], fun _ _ => rfl⟩
  | cons o l ih =>
    intro h ok nd hp
    cases o with
    | none =>
      obtain ⟨h', e, r⟩ := ih h ok (by simpa [addrs] using nd) (by simpa [addrs] using hp)
      exact ⟨h', by rw [releaseAll]; exact e, by simpa [addrs] using r⟩
    | some a =>
      have ea : addrs (some a :: l) = a :: addrs l := by simp [addrs]
      rw [ea] at nd hp ⊢
      obtain ⟨n1, n2⟩ := List.nodup_cons.1 nd
      obtain ⟨h1, e1, k1, k2, k3⟩ := release_ok ok (hp a (by simp))
      have hp1 : ∀ b ∈ addrs l, 0 < h1.ref b := by
        intro b hb
        have hne : b ≠ a := fun e => n1 (e ▸ hb)
        rw [k2 b, if_neg hne]
        exact hp b (by simp [hb])
      obtain ⟨h', e2, j1, j2, j3⟩ := ih h1 k1 n2 hp1
      refine ⟨h', by rw [releaseAll, e1]; exact e2, j1, ?_, ?_⟩
      · intro b
        rw [j2 b, k2 b, List.count_cons]
        by_cases hb : b = a
        · subst hb; simp; omega
        · have : (a == b) = false := by simp; exact fun e => hb e.symm
          rw [if_neg hb, this]
          simp
      · intro b hb
        rw [j3 b hb]
        exact k3 b (by rw [j2 b] at hb; omega)

/-- A session of which no request is left is closed. -/
theorem shut_same {q : Nat} {w : World} {i : IWorld} (h : Same q w i) {sid : Nat} {x : HSess} (hx : w.session sid = some x) (hno : ∀ n r, w.request n = some r → r.sess ≠ sid) :
    ∃ h', releaseAll x.st.ring w.heap = some h' ∧ Same q ⟨h', w.sess.set sid none, w.reqs⟩ ⟨i.sess.set sid none, i.reqs⟩ := by
  obtain ⟨A, B, r1, r2, r3⟩ := rings_at hx
  have nd := h.hNodup
  rw [r2] at nd
  have nd1 := List.nodup_append.1 nd
  have nd2 := List.nodup_append.1 nd1.1
  obtain ⟨h', e1, e2, e3, e4⟩ := releaseAll_ok x.st.ring w.heap h.ok nd2.2.1 (fun a ha => by obtain ⟨g, hg⟩ := h.live hx a ha; exact get_ref hg)
  have hn : sid < w.sess.length := join_lt hx
  have hw : ∀ m, (World.mk h' (w.sess.set sid none) w.reqs).session m = if m = sid then none else w.session m := fun m => join_set hn _ m
  have hi : ∀ m, (IWorld.mk (i.sess.set sid none) i.reqs).session m = if m = sid then none else i.session m := fun m => join_set (by rw [← h.hLenS]; exact hn) _ m
  have hrings : (World.mk h' (w.sess.set sid none) w.reqs).rings = A ++ B := by
    have : (World.mk h' (w.sess.set sid none) w.reqs).rings = A ++ sring none ++ B := r1 _
    rw [this]
    simp [sring]
  have href : ∀ b, h'.ref b = (A ++ B).count b + w.held.count b := by
    intro b
    rw [e3 b, h.hRef b, r2]
    simp only [List.count_append]
    omega
  refine ⟨h', e1, ⟨e2, ?_, ?_, by simp [h.hLenS], h.hLenR, ?_, ?_, h.hReqN, ?_, ?_⟩⟩
  · intro b
    rw [hrings]
    exact href b
  · rw [hrings]
    refine List.nodup_append.2 ⟨nd2.1, nd1.2.1, ?_⟩
    intro a ha b hb
    exact nd1.2.2 a (List.mem_append_left _ ha) b hb
  · intro m
    rw [hw, hi]
    split
    · simp
    · exact h.hSessN m
  · intro m x' y' hx' hy'
    rw [hw] at hx'
    rw [hi] at hy'
    by_cases hm : m = sid
    · rw [if_pos hm] at hx'
      simp at hx'
    · rw [if_neg hm] at hx' hy'
      obtain ⟨d1, d2, d3, d4⟩ := h.hSess m x' y' hx' hy'
      refine ⟨d1, d2, ?_, d4⟩
      show y'.now = some ⟨view h' x'.st, x'.queue⟩
      have hv : view h' x'.st = view w.heap x'.st := by
        refine view_congr fun b hb => e4 b ?_
        have := List.count_pos_iff.2 (r3 m x' hm hx' b hb)
        rw [href b]
        omega
      rw [hv, d3]
  · intro m r y hm hm'
    obtain ⟨c1, c2, c3, c4, c5, c6, c7, c8, c9⟩ := h.hReq m r y hm hm'
    have hpos : 0 < w.held.count r.frag := List.count_pos_iff.2 (mem_held hm)
    have hlive : 0 < h'.ref r.frag := by rw [href]; omega
    refine ⟨c1, by rw [← c2]; exact e4 _ hlive, c3, c4, c5, c6, c7, ?_, ?_⟩
    · rw [hw, if_neg (hno m r hm)]
      exact c8
    · intro m' x' hx'
      rw [hw] at hx'
      split at hx'
      · simp at hx'
      · exact c9 m' x' hx'
  · intro m x' rid hx' hl
    rw [hw] at hx'
    split at hx'
    · simp at hx'
    · exact h.hLast m x' rid hx' hl

theorem close_same {q : Nat} {w : World} {i : IWorld} (h : Same q w i) (sid : Nat) (ho : Orderly q i (.close sid)) : ∃ w', step w (.close sid) = some w' ∧ Same q w' (istep i (.close sid)) := by
  cases hs : w.session sid with
  | none =>
    refine ⟨w, by unfold step; dsimp only; rw [hs], ?_⟩
    unfold istep
    dsimp only
    rw [h.sess_none hs]
    exact h
  | some x =>
    obtain ⟨y, hy⟩ := h.sess_some hs
    obtain ⟨b1, b2, _⟩ := h.hSess sid x y hs hy
    have ho : ∀ rid r, i.request rid = some r → r.sess = sid → y.last = some rid := ho y hy
    have hdrop : ∀ (l : List (Option IReq)), (∀ (n : Nat) (r : IReq), (l[n]?).join = some r → r.sess ≠ sid) → l.map (dropOf sid) = l := by
      intro l hl
      apply List.ext_getElem?
      intro n
      rw [List.getElem?_map]
      cases e : l[n]? with
      | none => rfl
      | some o =>
        cases o with
        | none => rfl
        | some r =>
          have := hl n r (by rw [e]; rfl)
          simp [dropOf, this]
    unfold step istep
    dsimp only
    rw [hs, hy]
    dsimp only
    cases hl : x.last with
    | none =>
      dsimp only
      rw [Option.bind_some]
      have hno : ∀ n r, i.request n = some r → r.sess ≠ sid := by
        intro n r hn e
        have := ho n r hn e
        rw [← b2, hl] at this
        simp at this
      have hno' : ∀ n r, w.request n = some r → r.sess ≠ sid := by
        intro n r hn e
        obtain ⟨r2, hr2⟩ := h.req_some hn
        have := (h.hReq n r r2 hn hr2).1
        exact hno n r2 hr2 (by rw [← this]; exact e)
      obtain ⟨h', e1, e2⟩ := shut_same h hs hno'
      refine ⟨_, by rw [e1]; rfl, ?_⟩
      rw [hdrop i.reqs hno]
      exact e2
    | some rid =>
      obtain ⟨r, hr, hrs⟩ := h.hLast sid x rid hs hl
      obtain ⟨r2, hr2⟩ := h.req_some hr
      obtain ⟨w1, f1, f2, f3, f4, f5⟩ := finish_same h hr hr2
      dsimp only
      rw [hr]
      dsimp only
      rw [f1, Option.bind_some]
      obtain ⟨l1, hx1, _⟩ := f5 sid x hs
      have hnr : rid < i.reqs.length := join_lt hr2
      have hreq1 : ∀ n, (i.finish rid r2).request n = if n = rid then none else i.request n := by
        intro n
        unfold IWorld.request
        rw [f4]
        exact join_set hnr _ n
      have hno : ∀ n r, (i.finish rid r2).request n = some r → r.sess ≠ sid := by
        intro n r hn e
        rw [hreq1] at hn
        split at hn
        · simp at hn
        · rename_i hne
          have := ho n r hn e
          rw [← b2, hl] at this
          injection this with this
          exact hne this.symm
      have hno' : ∀ n r, w1.request n = some r → r.sess ≠ sid := by
        intro n r hn e
        obtain ⟨r3, hr3⟩ := f2.req_some hn
        have := (f2.hReq n r r3 hn hr3).1
        exact hno n r3 hr3 (by rw [← this]; exact e)
      obtain ⟨h', e1, e2⟩ := shut_same f2 hx1 hno'
      refine ⟨_, by rw [e1]; rfl, ?_⟩
      have hfs : (i.finish rid r2).sess.set sid none = i.sess.set sid none := by
        have hq2 : r2.sess = sid := by rw [← (h.hReq rid r r2 hr hr2).1]; exact hrs
        unfold IWorld.finish
        rw [hq2, hy]
        simp
      have hfr : (i.finish rid r2).reqs = i.reqs.map (dropOf sid) := by
        have hq2 : r2.sess = sid := by rw [← (h.hReq rid r r2 hr hr2).1]; exact hrs
        rw [f4]
        apply List.ext_getElem?
        intro n
        rw [List.getElem?_map]
        by_cases hn : n = rid
        · rw [hn, List.getElem?_set_self hnr, join_some hr2]
          simp [dropOf, hq2]
        · rw [List.getElem?_set_ne (by omega)]
          cases e : i.reqs[n]? with
          | none => rfl
          | some o =>
            cases o with
            | none => rfl
            | some r3 =>
              have hne : r3.sess ≠ sid := by
                intro e3
                have := ho n r3 (by unfold IWorld.request; rw [e]; rfl) e3
                rw [← b2, hl] at this
                injection this with this
                exact hn this.symm
              simp [dropOf, hne]
      rw [hfs, hfr] at e2
      exact e2

theorem step_same {q : Nat} {w : World} {i : IWorld} (h : Same q w i) (o : Op) (ho : Orderly q i o) : ∃ w', step w o = some w' ∧ Same q w' (istep i o) := by
  cases o with
  | join c => exact join_same h c ho.1 ho.2
  | feed sid k fs => exact feed_same h sid k fs ho
  | ask sid name after => exact ask_same h sid name after ho
  | askFails sid name after =>
    cases hs : w.session sid with
    | none =>
      refine ⟨w, by unfold step; dsimp only; rw [hs], ?_⟩
      unfold istep
      dsimp only
      rw [h.sess_none hs]
      exact h
    | some x =>
      obtain ⟨y, hy⟩ := h.sess_some hs
      obtain ⟨b1, b2, b3, _⟩ := h.hSess sid x y hs hy
      have hf : y.find name after = none := ho y hy
      obtain ⟨f1, f2⟩ := find_view name after (h.live hs)
      have hfind' : y.find name after = findFrag x.conf (view w.heap x.st) name after := by
        unfold ISess.find
        rw [b3, Option.bind_some, b1]
      have hh : hfind x name after = none := by
        cases hh : hfind x name after with
        | none => rfl
        | some a =>
          exfalso
          obtain ⟨g1, g2, _⟩ := f2 a hh
          obtain ⟨g, hg⟩ := h.live hs a g1
          rw [hfind', g2, hg] at hf
          simp at hf
      refine ⟨w.forget sid x, by unfold step; dsimp only; rw [hs]; dsimp only; rw [hh], ?_⟩
      unfold istep
      dsimp only
      rw [hy]
      exact forget_same h hs hy
  | playlist sid =>
    cases hs : w.session sid with
    | none =>
      refine ⟨w, by unfold step; dsimp only; rw [hs], ?_⟩
      unfold istep
      dsimp only
      rw [h.sess_none hs]
      exact h
    | some x =>
      obtain ⟨y, hy⟩ := h.sess_some hs
      refine ⟨w.forget sid x, by unfold step; dsimp only; rw [hs], ?_⟩
      unfold istep
      dsimp only
      rw [hy]
      exact forget_same h hs hy
  | send rid => exact send_same h rid
  | finish rid =>
    cases hr : w.request rid with
    | none =>
      refine ⟨w, by unfold step; dsimp only; rw [hr], ?_⟩
      unfold istep
      dsimp only
      rw [h.req_none hr]
      exact h
    | some r =>
      obtain ⟨y, hy⟩ := h.req_some hr
      obtain ⟨w', e1, e2, _⟩ := finish_same h hr hy
      refine ⟨w', by unfold step; dsimp only; rw [hr]; exact e1, ?_⟩
      unfold istep
      dsimp only
      rw [hy]
      exact e2
  | close sid => exact close_same h sid ho

theorem run_same {q : Nat} : ∀ (l : List Op) (w : World) (i i' : IWorld), Same q w i → Runs q l i i' → ∃ w', run l w = some w' ∧ Same q w' i' := by
  intro l
  induction l with
  | nil => intro w i i' h hr; exact ⟨w, rfl, by rw [hr]; exact h⟩
  | cons o l ih =>
    intro w i i' h hr
    obtain ⟨w1, e1, e2⟩ := step_same h o hr.1
    obtain ⟨w2, e3, e4⟩ := ih w1 _ i' e2 hr.2
    exact ⟨w2, by rw [run, e1]; exact e3, e4⟩

end Verif.Hls2.Mem
