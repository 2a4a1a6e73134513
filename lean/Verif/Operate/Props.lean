import Verif.Operate.Lemmas
import Verif.Rtmp.LiveCtxProps
/-
C84: what control requests do.
-/
namespace Verif.Operate
open Verif

/-- The word of a section. -/
def actText : Act → Bytes
  | .record => tRecord
  | .drop => tDrop
  | .redirect => tRedirect
  | .pause => tPause
  | .resume => tResume

theorem sectionOf_act (enabled : Act → Bool) (a : Act) (h : enabled a = true) : sectionOf enabled (actText a) = some a := by
  cases a <;> simp [sectionOf, actText, h, tRecord, tDrop, tRedirect, tPause, tResume]

theorem sectionOf_some {enabled : Act → Bool} {t : Bytes} {a : Act} (h : sectionOf enabled t = some a) : enabled a = true ∧ t = actText a := by
  unfold sectionOf at h
  split at h
  · cases h; assumption
  · split at h
    · cases h; assumption
    · split at h
      · cases h; assumption
      · split at h
        · cases h; assumption
        · split at h
          · cases h; assumption
          · cases h

theorem roleOf_text (f : Role) : roleOf (roleText f) = some f := by cases f <;> decide

theorem roleOf_some {m : Bytes} {f : Role} (h : roleOf m = some f) : m = roleText f := by
  unfold roleOf at h
  split at h
  · rename_i e; cases h; exact e.2
  · split at h
    · rename_i e; cases h; exact e.2
    · split at h
      · rename_i e; cases h; exact e.2
      · cases h

theorem actText_ne (a : Act) : actText a ≠ [] := by cases a <;> decide

/-- The requests whose arguments mean what they say: a name comes with its application, and the text `srv/app/` fits the array it is
compared with. -/
structure Good (r : Req) (id : Bytes) : Prop where
  srv : r.arg .srv = some id
  name : (r.arg .app).getD [] = [] → (r.arg .name).getD [] = []
  len : (r.arg .app).getD [] ≠ [] → id.length + ((r.arg .app).getD []).length + 2 ≤ streamLen
  zero : 0 ∉ id ∧ 0 ∉ (r.arg .app).getD []

theorem walk_eq {w : World} (h : WF w) {r : Req} {id : Bytes} (g : Good r id) (ro rd : Sess → Bool) (f : Role) (a : Act) (st : St) :
    walk w r ro rd f a st = some (handleAll r ro rd a (hits w.servers.flatten (asked r id f)) st 0) := by
  unfold walk hits
  rw [g.srv]
  dsimp only
  have hf := findServer_filter h id
  rw [show (asked r id f).srv = id from rfl, hf]
  cases e : findServer w id with
  | none => rfl
  | some srv =>
    have hid := (findServer_some e).2
    subst hid
    dsimp only
    rw [walkServer_eq h r f e g.name g.len g.zero, Option.map_some]
    simp

theorem handler_eq {w : World} (h : WF w) {r : Req} {id : Bytes} (g : Good r id) (enabled : Act → Bool) (ro rd : Sess → Bool) (f : Role) (a : Act)
    (ha : a ≠ .record) (he : enabled a = true) (hu : Names r.uri (actText a) (roleText f)) (st : St) :
    handler w enabled r ro rd st = some
      (if (handleAll r ro rd a (hits w.servers.flatten (asked r id f)) st 0).2.2 then
        .count (handleAll r ro rd a (hits w.servers.flatten (asked r id f)) st 0).2.1 else .error,
       (handleAll r ro rd a (hits w.servers.flatten (asked r id f)) st 0).1) := by
  unfold handler
  rw [split_names hu]
  dsimp only
  rw [sectionOf_act enabled a he]
  dsimp only
  unfold section'
  rw [if_neg ha, roleOf_text]
  dsimp only
  rw [walk_eq h g, Option.map_some]

/-! ### Which sessions -/

/-- C84: a request to drop finalizes the sessions that it asks for and no others, and answers how many they are. -/
theorem C84_drop_partial {w : World} (h : WF w) {r : Req} {id : Bytes} (g : Good r id) (enabled : Act → Bool) (ro rd : Sess → Bool) (f : Role)
    (he : enabled .drop = true) (hu : Names r.uri tDrop (roleText f)) (st : St) :
    ∃ st', handler w enabled r ro rd st = some (.count (hits w.servers.flatten (asked r id f)).length, st') ∧
      (∀ n, st'.dropped n = true ↔ st.dropped n = true ∨ ∃ s ∈ hits w.servers.flatten (asked r id f), s.ref = n) ∧
      st'.pause = st.pause ∧ st'.told = st.told := by
  refine ⟨(handleAll r ro rd .drop (hits w.servers.flatten (asked r id f)) st 0).1, ?_, ?_, ?_, ?_⟩
  rotate_left 1
  · exact fun n => by
      show (handleAll r ro rd .drop (hits w.servers.flatten (asked r id f)) st 0).1.dropped n = true ↔ _
      rw [handleAll_drop]; simp
  · rw [handleAll_drop]
  · rw [handleAll_drop]
  · rw [handler_eq h g enabled ro rd f .drop (by decide) he hu, handleAll_drop]; simp

/-- C84: a request to pause pauses those sessions and no others. -/
theorem C84_pause_partial {w : World} (h : WF w) {r : Req} {id : Bytes} (g : Good r id) (enabled : Act → Bool) (ro rd : Sess → Bool) (f : Role)
    (he : enabled .pause = true) (hu : Names r.uri tPause (roleText f)) (st : St) :
    ∃ st', handler w enabled r ro rd st = some (.count (hits w.servers.flatten (asked r id f)).length, st') ∧
      (∀ s ∈ hits w.servers.flatten (asked r id f), st'.pause s.ref = 1) ∧
      (∀ n, (∀ s ∈ hits w.servers.flatten (asked r id f), s.ref ≠ n) → st'.pause n = st.pause n) ∧
      st'.dropped = st.dropped ∧ st'.told = st.told := by
  refine ⟨(handleAll r ro rd .pause (hits w.servers.flatten (asked r id f)) st 0).1, ?_, ?_, ?_, ?_, ?_⟩
  rotate_left 1
  · exact fun s hs => by
      show (handleAll r ro rd .pause (hits w.servers.flatten (asked r id f)) st 0).1.pause s.ref = 1
      rw [handleAll_pause]
      exact if_pos (List.any_eq_true.2 ⟨s, hs, by simp⟩)
  · exact fun n hn => by
      rw [handleAll_pause]
      refine if_neg fun e => ?_
      obtain ⟨s, hs, e⟩ := List.any_eq_true.1 e
      exact hn s hs (by simpa using e)
  · rw [handleAll_pause]
  · rw [handleAll_pause]
  · rw [handler_eq h g enabled ro rd f .pause (by decide) he hu, handleAll_pause]; simp

/-- C84: a request to resume lets those sessions that are paused wait for a key frame, and changes no others. -/
theorem C84_resume_partial {w : World} (h : WF w) {r : Req} {id : Bytes} (g : Good r id) (enabled : Act → Bool) (ro rd : Sess → Bool) (f : Role)
    (he : enabled .resume = true) (hu : Names r.uri tResume (roleText f)) (st : St) :
    ∃ st', handler w enabled r ro rd st = some (.count (hits w.servers.flatten (asked r id f)).length, st') ∧
      (∀ s ∈ hits w.servers.flatten (asked r id f), st.pause s.ref = 1 → st'.pause s.ref = 2) ∧
      (∀ n, ((∀ s ∈ hits w.servers.flatten (asked r id f), s.ref ≠ n) ∨ st.pause n ≠ 1) → st'.pause n = st.pause n) ∧
      st'.dropped = st.dropped ∧ st'.told = st.told := by
  refine ⟨(handleAll r ro rd .resume (hits w.servers.flatten (asked r id f)) st 0).1, ?_, ?_, ?_, ?_, ?_⟩
  rotate_left 1
  · exact fun s hs hp => by
      show (handleAll r ro rd .resume (hits w.servers.flatten (asked r id f)) st 0).1.pause s.ref = 2
      rw [handleAll_resume]
      exact if_pos ⟨List.any_eq_true.2 ⟨s, hs, by simp⟩, hp⟩
  · exact fun n hn => by
      rw [handleAll_resume]
      refine if_neg fun e => ?_
      obtain ⟨s, hs, e'⟩ := List.any_eq_true.1 e.1
      exact hn.elim (fun hn => hn s hs (by simpa using e')) (fun hn => hn e.2)
  · rw [handleAll_resume]
  · rw [handleAll_resume]
  · rw [handler_eq h g enabled ro rd f .resume (by decide) he hu, handleAll_resume]; simp

/-- C84: a request to redirect takes up those sessions in order, and no others; without a new name and with somebody to redirect it
fails and does nothing. -/
theorem C84_redirect_partial {w : World} (h : WF w) {r : Req} {id : Bytes} (g : Good r id) (enabled : Act → Bool) (ro : Sess → Bool) (f : Role)
    (he : enabled .redirect = true) (hu : Names r.uri tRedirect (roleText f)) (st : St) :
    ((r.arg .newname).isSome → ∃ st', handler w enabled r ro (fun _ => true) st = some (.count (hits w.servers.flatten (asked r id f)).length, st') ∧
      st'.told = st.told ++ (hits w.servers.flatten (asked r id f)).map Sess.ref ∧ st'.dropped = st.dropped ∧ st'.pause = st.pause) ∧
    (r.arg .newname = none → hits w.servers.flatten (asked r id f) ≠ [] → handler w enabled r ro (fun _ => true) st = some (.error, st)) := by
  rw [handler_eq h g enabled ro _ f .redirect (by decide) he hu]
  constructor
  · intro hn
    obtain ⟨nn, hn⟩ := Option.isSome_iff_exists.1 hn
    rw [handleAll_redirect r ro _ nn hn _ (fun _ _ => rfl)]
    exact ⟨{ st with told := st.told ++ (hits w.servers.flatten (asked r id f)).map Sess.ref }, by simp, rfl, rfl, rfl⟩
  · intro hn hne
    cases hh : hits w.servers.flatten (asked r id f) with
    | nil => exact absurd hh hne
    | cons s l => simp [handleAll, handle, hn]

/-- C84: a request to record hands the publishers that it asks for to the recorders, one after another. -/
theorem C84_record_partial {w : World} (h : WF w) {r : Req} {id : Bytes} (g : Good r id) (enabled : Act → Bool) (rd : Sess → Bool) (met : Bytes)
    (he : enabled .record = true) (hu : Names r.uri tRecord met) (st : St) :
    ∃ st', handler w enabled r (fun _ => true) rd st = some (.ok, st') ∧
      st'.told = st.told ++ (hits w.servers.flatten (asked r id .publisher)).map Sess.ref ∧ st'.dropped = st.dropped ∧ st'.pause = st.pause := by
  unfold handler
  rw [split_names hu]
  dsimp only
  rw [show tRecord = actText .record from rfl, sectionOf_act enabled .record he]
  dsimp only
  unfold section'
  rw [if_pos rfl, walk_eq h g, Option.map_some, handleAll_record r _ rd _ (fun _ _ => rfl)]
  exact ⟨{ st with told := st.told ++ (hits w.servers.flatten (asked r id .publisher)).map Sess.ref }, by simp, rfl, rfl, rfl⟩

/-! ### Nothing else -/

/-- C84: a request changes something only if it names a section that is enabled here, says whom it is about, and names a server there is. -/
theorem C84_only {w : World} {enabled : Act → Bool} {r : Req} {ro rd : Sess → Bool} {st st' : St} {ans : Answer}
    (hh : handler w enabled r ro rd st = some (ans, st')) (hne : st' ≠ st) :
    ∃ a met id, Names r.uri (actText a) met ∧ enabled a = true ∧ (a = .record ∨ ∃ f, met = roleText f) ∧ r.arg .srv = some id ∧
      ∃ s ∈ w.servers.flatten, s.id = id := by
  unfold handler at hh
  cases hs : sectionOf enabled (split r.uri).1 with
  | none => rw [hs] at hh; cases hh; exact absurd rfl hne
  | some a =>
    rw [hs] at hh
    dsimp only at hh
    obtain ⟨he, ht⟩ := sectionOf_some hs
    have hN : ∃ met, Names r.uri (actText a) met ∧ (split r.uri).2 = met := by
      by_cases hex : ∃ sec met, Names r.uri sec met
      · obtain ⟨sec, met, hn⟩ := hex
        have e := split_names hn
        rw [e] at ht
        dsimp only at ht
        subst ht
        exact ⟨met, hn, by rw [e]⟩
      · rw [no_names (fun sec met hn => hex ⟨sec, met, hn⟩)] at ht
        exact absurd ht.symm (actText_ne a)
    obtain ⟨met, hN, hm⟩ := hN
    rw [hm] at hh
    have hwalk : ∀ f p, walk w r ro rd f a st = some p → p.1 ≠ st → ∃ id, r.arg .srv = some id ∧ ∃ s ∈ w.servers.flatten, s.id = id := by
      intro f p hp hpne
      unfold walk at hp
      cases hsrv : r.arg .srv with
      | none => rw [hsrv] at hp; cases hp; exact absurd rfl hpne
      | some id =>
        rw [hsrv] at hp
        dsimp only at hp
        cases hf : findServer w id with
        | none => rw [hf] at hp; cases hp; exact absurd rfl hpne
        | some srv => exact ⟨id, rfl, srv, findServer_some hf⟩
    unfold section' at hh
    by_cases har : a = .record
    · rw [if_pos har] at hh
      obtain ⟨p, hp, e⟩ := Option.map_eq_some_iff.1 hh
      cases e
      obtain ⟨id, h1, h2⟩ := hwalk _ _ hp hne
      exact ⟨a, met, id, hN, he, .inl har, h1, h2⟩
    · rw [if_neg har] at hh
      cases hr : roleOf met with
      | none => rw [hr] at hh; cases hh; exact absurd rfl hne
      | some f =>
        rw [hr] at hh
        obtain ⟨p, hp, e⟩ := Option.map_eq_some_iff.1 hh
        cases e
        obtain ⟨id, h1, h2⟩ := hwalk _ _ hp hne
        exact ⟨a, met, id, hN, he, .inr ⟨f, roleOf_some hr⟩, h1, h2⟩

/-- C84: a location without control leaves every request to others. -/
theorem C84_off (w : World) (r : Req) (ro rd : Sess → Bool) (st : St) : handler w (fun _ => false) r ro rd st = some (.declined, st) := by
  unfold handler
  rw [show sectionOf (fun _ => false) (split r.uri).1 = none by simp [sectionOf]]

/-! ### What pausing is -/

/-- A frame that a waiting session may start again with. -/
def starts (f : Frame) : Bool := f.codec == some 0 || (f.video && f.key)

/-- C84: nothing of a paused publisher goes on; after it is resumed, everything from the first key frame on does (from the first frame,
where there is no video); a publisher that is not paused is not held up. -/
theorem C84_frames (l : List Frame) :
    frames 1 l = (1, []) ∧ (frames 2 l).2 = l.dropWhile (fun f => !starts f) ∧ frames 0 l = (0, l) := by
  have h0 : ∀ l, frames 0 l = (0, l) := by
    intro l
    induction l with
    | nil => rfl
    | cons f l ih => simp [frames, gate, ih]
  refine ⟨?_, ?_, h0 l⟩
  · induction l with
    | nil => rfl
    | cons f l ih => simp [frames, gate, ih]
  · induction l with
    | nil => rfl
    | cons f l ih =>
      by_cases hs : starts f = true
      · have hp : f.codec = some 0 ∨ (f.video ∧ f.key) := by simpa [starts] using hs
        have hg : gate 2 f = (0, true) := by unfold gate; rw [if_neg (by decide), if_pos rfl, if_pos hp]
        rw [List.dropWhile_cons_of_neg (by simp [hs])]
        simp [frames, hg, h0]
      · have hp : ¬ (f.codec = some 0 ∨ (f.video ∧ f.key)) := by simpa [starts] using hs
        have hg : gate 2 f = (2, false) := by unfold gate; rw [if_neg (by decide), if_pos rfl, if_neg hp]
        rw [List.dropWhile_cons_of_pos (by simp [hs])]
        simp [frames, hg, ih]

/-! ### Where it fails -/

/-- C84 fails where a stream is named without its application: the name is not looked at, whatever it is. -/
theorem C84_name_violation (w : World) (enabled : Act → Bool) (r : Req) (ro rd : Sess → Bool) (st : St) (x : Option Bytes)
    (ha : (r.arg .app).getD [] = []) :
    handler w enabled { r with arg := fun a => if a = .name then x else r.arg a } ro rd st = handler w enabled r ro rd st := by
  have hws : ∀ f c, walkSession { r with arg := fun a => if a = .name then x else r.arg a } f c = walkSession r f c := by
    intro f c; unfold walkSession; simp
  have hst : ∀ f s, walkStream { r with arg := fun a => if a = .name then x else r.arg a } f s = walkStream r f s := by
    intro f s; unfold walkStream
    rw [funext (hws f)]
  have hsv : ∀ f s, walkServer w { r with arg := fun a => if a = .name then x else r.arg a } f s = walkServer w r f s := by
    intro f s; unfold walkServer
    simp only [show (Arg.app = Arg.name) = False from by simp, if_false]
    rw [if_pos (by rw [ha]; rfl), if_pos (by rw [ha]; rfl), funext (hst f)]
  have hh : ∀ a l st n, handleAll { r with arg := fun a => if a = .name then x else r.arg a } ro rd a l st n = handleAll r ro rd a l st n := by
    intro a l
    have h1 : ∀ s st n, handle { r with arg := fun a => if a = .name then x else r.arg a } ro rd a s st n = handle r ro rd a s st n := by
      intro s st n; unfold handle; simp
    induction l with
    | nil => intros; rfl
    | cons s l ih => intro st n; rw [handleAll, handleAll, h1]; simp only [ih]
  have hw : ∀ f a, walk w { r with arg := fun a => if a = .name then x else r.arg a } ro rd f a st = walk w r ro rd f a st := by
    intro f a; unfold walk
    simp only [show (Arg.srv = Arg.name) = False from by simp, if_false, hsv, hh]
  unfold handler section'
  simp only [hw]

/-- C84 fails for a long application: the text that is compared is longer than the names it is compared with. -/
theorem C84_bound_violation (w : World) (enabled : Act → Bool) (r : Req) (ro rd : Sess → Bool) (st : St) (f : Role) (id : Bytes) (srv : Server)
    (he : enabled .drop = true) (hu : Names r.uri tDrop (roleText f)) (hs : r.arg .srv = some id) (hf : findServer w id = some srv)
    (hne : srv.streams.flatten ≠ []) (app : Bytes) (ha : r.arg .app = some app) (happ : app ≠ []) (hn : r.arg .name = none) (hl : id.length + app.length + 2 > streamLen) :
    handler w enabled r ro rd st = none := by
  unfold handler
  rw [split_names hu]
  dsimp only
  rw [show tDrop = actText .drop from rfl, sectionOf_act enabled .drop he]
  dsimp only
  unfold section'
  rw [if_neg (by decide), roleOf_text]
  dsimp only
  unfold walk
  rw [hs]
  dsimp only
  rw [hf]
  dsimp only
  have hid := (findServer_some hf).2
  unfold walkServer
  rw [ha, hn]
  dsimp only [Option.getD_some, Option.getD_none]
  rw [if_neg (fun e => happ (List.eq_nil_of_length_eq_zero e)), if_pos List.length_nil]
  cases e : srv.streams.flatten with
  | nil => exact absurd e hne
  | cons s l =>
    rw [prefixLoop, if_pos]
    · rfl
    · rw [hid]; simp only [List.length_append, List.length_cons, List.length_nil]; omega

/-- C84 fails for players: to pause them changes nothing of what they get. -/
theorem C84_subscriber_violation {w : World} (h : WF w) {r : Req} {id : Bytes} (g : Good r id) (enabled : Act → Bool) (ro rd : Sess → Bool)
    (he : enabled .pause = true) (hu : Names r.uri tPause tSubscriber) (st : St) (p : Nat)
    (hp : ∀ s ∈ hits w.servers.flatten (asked r id .subscriber), s.ref ≠ p) :
    ∃ st', handler w enabled r ro rd st = some (.count (hits w.servers.flatten (asked r id .subscriber)).length, st') ∧
      ∀ l fr, deliver st'.pause p l fr = deliver st.pause p l fr := by
  obtain ⟨st', h1, _, h3, _⟩ := C84_pause_partial h g enabled ro rd .subscriber he hu st
  exact ⟨st', h1, fun l fr => by unfold deliver; rw [h3 p hp]⟩

/-! ### Redirecting -/

/-- `ngx_rtmp_control_redirect_handler` (ngx_rtmp_control_module.c:170-228) over the lists of Rtmp/LiveCtxModel: `k` is the stream of the
new name, `pub` is `lctx->publishing`. -/
def redirect (s : LiveCtx.St) (n k : Nat) (pub : Bool) : Option LiveCtx.St :=
  (LiveCtx.close s n).map fun s => if pub then LiveCtx.publish s n k else LiveCtx.play s n k

/-- Who publishes or plays has said so, or was made for a relay. -/
def Flagged (s : LiveCtx.St) (a : LiveCtx.Abs) : Prop :=
  ∀ n k r, a.on n = some (k, r) → s.relay n = true ∨ (if r then s.published n else s.played n) = true

theorem close_flags {s s' : LiveCtx.St} {n : Nat} (h : LiveCtx.close s n = some s') :
    s'.relay = s.relay ∧ s'.published = s.published ∧ s'.played = s.played := by
  have hd : ∀ s : LiveCtx.St, (LiveCtx.dropStream s n).relay = s.relay ∧ (LiveCtx.dropStream s n).published = s.published ∧
      (LiveCtx.dropStream s n).played = s.played := by
    intro s
    unfold LiveCtx.dropStream
    split
    · split <;> exact ⟨rfl, rfl, rfl⟩
    · exact ⟨rfl, rfl, rfl⟩
  unfold LiveCtx.close at h
  split at h
  · cases h; exact ⟨rfl, rfl, rfl⟩
  · obtain ⟨s1, h1, e⟩ := Option.map_eq_some_iff.1 h
    subst e
    have h2 : s1.relay = s.relay ∧ s1.published = s.published ∧ s1.played = s.played := by
      unfold LiveCtx.deleteCtx at h1
      split at h1
      · split at h1
        · cases h1
        · cases h1; exact ⟨rfl, rfl, rfl⟩
        · cases h1; exact ⟨rfl, rfl, rfl⟩
      · cases h1; exact ⟨rfl, rfl, rfl⟩
    obtain ⟨d1, d2, d3⟩ := hd s1
    exact ⟨d1.trans h2.1, d2.trans h2.2.1, d3.trans h2.2.2⟩

theorem init_flags (s : LiveCtx.St) (n k : Nat) (r : Bool) : (LiveCtx.streamInit s n k r).relay = s.relay ∧
    (LiveCtx.streamInit s n k r).published = s.published ∧ (LiveCtx.streamInit s n k r).played = s.played := by
  have hc : ∀ (s : LiveCtx.St) k, (LiveCtx.createStream s k).relay = s.relay ∧ (LiveCtx.createStream s k).published = s.published ∧
      (LiveCtx.createStream s k).played = s.played := by
    intro s k; unfold LiveCtx.createStream; split <;> exact ⟨rfl, rfl, rfl⟩
  exact hc _ _

theorem publish_flags (s : LiveCtx.St) (n k : Nat) : (LiveCtx.publish s n k).relay = s.relay ∧
    (∀ m, (LiveCtx.publish s n k).published m = if m = n then true else s.published m) ∧ (LiveCtx.publish s n k).played = s.played := by
  unfold LiveCtx.publish
  split
  · rename_i h
    exact ⟨rfl, fun m => by split <;> simp_all, rfl⟩
  · dsimp only
    split
    · exact ⟨rfl, fun m => rfl, rfl⟩
    · obtain ⟨h1, h2, h3⟩ := init_flags { s with published := set s.published n true } n k true
      exact ⟨h1, fun m => by rw [h2]; rfl, h3⟩

theorem play_flags (s : LiveCtx.St) (n k : Nat) : (LiveCtx.play s n k).relay = s.relay ∧
    (∀ m, (LiveCtx.play s n k).played m = if m = n then true else s.played m) ∧ (LiveCtx.play s n k).published = s.published := by
  unfold LiveCtx.play
  split
  · rename_i h
    exact ⟨rfl, fun m => by split <;> simp_all, rfl⟩
  · dsimp only
    split
    · exact ⟨rfl, fun m => rfl, rfl⟩
    · obtain ⟨h1, h2, h3⟩ := init_flags { s with played := set s.played n true } n k false
      exact ⟨h1, fun m => by rw [h3]; rfl, h2⟩

theorem join_on {a : LiveCtx.Abs} {n k : Nat} {r : Bool} {m k' : Nat} {r' : Bool} (h : (a.join n k r).on m = some (k', r')) :
    a.on m = some (k', r') ∨ (m = n ∧ r' = r) := by
  unfold LiveCtx.Abs.join at h
  split at h
  · exact .inl h
  · by_cases e : m = n
    · subst e; dsimp only at h; rw [show set a.on m (some (k, r)) m = some (k, r) from set_same _ _ _] at h
      cases h; exact .inr ⟨rfl, rfl⟩
    · dsimp only at h; rw [show set a.on n (some (k, r)) m = a.on m from set_ne _ _ e] at h
      exact .inl h

theorem off_on {a : LiveCtx.Abs} {n : Nat} {m k' : Nat} {r' : Bool} (h : set a.on n none m = some (k', r')) : a.on m = some (k', r') := by
  by_cases e : m = n
  · subst e; rw [set_same] at h; cases h
  · rwa [set_ne _ _ e] at h

theorem reach_flagged {s : LiveCtx.St} {a : LiveCtx.Abs} (r : LiveCtx.Reach s a) : Flagged s a := by
  induction r with
  | init => exact fun n k r h => by cases h
  | @step s a o s' _ hl he ih =>
    cases o with
    | connect => cases he; exact ih
    | publish n k =>
      cases he
      obtain ⟨p1, p2, p3⟩ := publish_flags s n k
      intro m k' r' h
      rw [p1, p2, p3]
      rcases join_on h with h | ⟨e1, e2⟩
      · refine (ih m k' r' h).imp id fun h' => ?_
        cases r'
        · exact h'
        · simp only [if_true] at h' ⊢; split; rfl; exact h'
      · subst e1 e2; exact .inr (by simp)
    | play n k =>
      cases he
      obtain ⟨p1, p2, p3⟩ := play_flags s n k
      intro m k' r' h
      rw [p1, p2, p3]
      rcases join_on h with h | ⟨e1, e2⟩
      · refine (ih m k' r' h).imp id fun h' => ?_
        cases r'
        · simp only [Bool.false_eq_true, if_false] at h' ⊢; split; rfl; exact h'
        · exact h'
      · subst e1 e2; exact .inr (by simp)
    | attach n m role =>
      cases he
      show Flagged (LiveCtx.attach s n m role) (match s.stream m with | some k => a.join n k role | none => a)
      unfold LiveCtx.attach
      cases hs : s.stream m with
      | none => exact ih
      | some k =>
        intro x k' r' h
        by_cases e : x = n
        · subst e; exact .inl (set_same _ _ _)
        · rcases join_on h with h | ⟨e1, _⟩
          · refine (ih x k' r' h).imp (fun h' => ?_) id
            show set s.relay n true x = true
            rw [set_ne _ _ e]; exact h'
          · exact absurd e1 e
    | play2 n k =>
      obtain ⟨s1, h1, e⟩ := Option.map_eq_some_iff.1 (show (LiveCtx.close s n).map (fun s => LiveCtx.play s n k) = some s' from he)
      subst e
      obtain ⟨c1, c2, c3⟩ := close_flags h1
      obtain ⟨p1, p2, p3⟩ := play_flags s1 n k
      intro m k' r' h
      rw [p1, p2, p3, c1, c2, c3]
      refine (ih m k' r' (off_on h)).imp id fun h' => ?_
      cases r'
      · simp only [Bool.false_eq_true, if_false] at h' ⊢; split; rfl; exact h'
      · exact h'
    | close n =>
      obtain ⟨c1, c2, c3⟩ := close_flags he
      intro m k' r' h
      rw [c1, c2, c3]
      exact ih m k' r' (off_on h)
    | disconnect n =>
      obtain ⟨s1, h1, e⟩ := Option.map_eq_some_iff.1 (show (LiveCtx.close s n).map _ = some s' from he)
      subst e
      obtain ⟨c1, c2, c3⟩ := close_flags h1
      intro m k' r' h
      show s1.relay m = true ∨ (if r' then s1.published m else s1.played m) = true
      rw [c1, c2, c3]
      exact ih m k' r' (off_on h)

/-- C84 fails for redirecting: whoever is redirected leaves their stream and joins no other one, whatever the new name is. -/
theorem C84_redirect_violation {s : LiveCtx.St} {a : LiveCtx.Abs} (r : LiveCtx.Reach s a) {n k0 : Nat} {role : Bool} (h : a.on n = some (k0, role)) (k : Nat) :
    ∃ s', redirect s n k role = some s' ∧ ∀ k' r', ∃ l, Linked s'.next (s'.heads (k', r')) l ∧ n ∉ l := by
  have i := LiveCtx.reach_inv r
  obtain ⟨s1, e1, i1, _, c2, c3, c4, _⟩ := LiveCtx.close_inv i n
  have hfl := reach_flagged r n k0 role h
  have hn : n < s1.nsess := by rw [c4]; exact i.lt n (i.on n k0 role h).1
  have hoff : set a.on n none n = none := set_same _ _ _
  unfold redirect
  rw [e1, Option.map_some]
  refine ⟨_, rfl, ?_⟩
  cases role with
  | true =>
    have hp : s1.published n = true ∨ s1.relay n = true ∨ LiveCtx.Fresh s1 n := by
      rw [(close_flags e1).2.1, c3]
      rcases hfl with h | h
      · exact .inr (.inl h)
      · exact .inl h
    have i2 := LiveCtx.publish_inv i1 n k hn hp
    rw [i1.join_same (by rcases hp with h | h | h
                         · exact i1.hasCtx (.inl h)
                         · exact i1.hasCtx (.inr (.inr h))
                         · rcases hfl with h' | h'
                           · exact i1.hasCtx (.inr (.inr (by rw [c3]; exact h')))
                           · exact i1.hasCtx (.inl (by rw [(close_flags e1).2.1]; exact h')))] at i2
    intro k' r'
    obtain ⟨l, g1, _, g3⟩ := i2.ch (k', r')
    exact ⟨l, g1, fun hm => by have := (g3 n).1 hm; dsimp only at this; rw [show set a.on n none n = none from hoff] at this; cases this⟩
  | false =>
    have hp : s1.played n = true ∨ s1.relay n = true ∨ LiveCtx.Fresh s1 n := by
      rw [c2, c3]
      rcases hfl with h | h
      · exact .inr (.inl h)
      · exact .inl h
    have i2 := LiveCtx.play_inv i1 n k hn hp
    rw [i1.join_same (by rcases hfl with h' | h'
                         · exact i1.hasCtx (.inr (.inr (by rw [c3]; exact h')))
                         · exact i1.hasCtx (.inr (.inl (by rw [c2]; exact h'))))] at i2
    intro k' r'
    obtain ⟨l, g1, _, g3⟩ := i2.ch (k', r')
    exact ⟨l, g1, fun hm => by have := (g3 n).1 hm; dsimp only at this; rw [show set a.on n none n = none from hoff] at this; cases this⟩

end Verif.Operate
