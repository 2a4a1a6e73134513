import Verif.DashMpd.Names
import Verif.Dash.CutProps
/-
C85: what a player finds in the playlist (MPD) of the RTMP module's DASH output, and where it looks for the files.
-/
namespace Verif.DashMpd
open Verif Verif.Xml Verif.Mp4
open Verif.Dash (Slot Cfg Item Part Ordered Light Joined run opOf lastMpd onDisk start)
open Verif.Mpd (s)

/-- What is said of a playlist, independent of how it is written: `v` is the track of video, `a` the one of audio. -/
structure Tells (c : Conf) (i : Info) (from_ publish : Text) (hv ha : Bool) (times : List Slot) (doc : Doc) (v a : Track) : Prop where
  kind : doc.kind = s "dynamic"
  start : doc.start = from_
  publish : doc.publish = publish
  update : doc.update = c.fraglen / 1000
  buffer : doc.buffer = c.fraglen / 1000
  depth : doc.depth = c.fraglen / 250 + 1
  period : doc.period = 0
  tracks : doc.tracks = (if hv then [v] else []) ++ (if ha then [a] else [])
  mimeV : v.mime = s "video/mp4"
  mimeA : a.mime = s "audio/mp4"
  picture : v.picture = some ⟨i.width, i.height, i.fps⟩
  rate : a.rate = some i.rate
  codecV : Mpd.readCodec v.rep.codecs = some (.avc i.profile i.compat i.level)
  codecA : Mpd.readCodec a.rep.codecs = some (if i.aac then .aac (if i.sbr then 5 else 2) else .mp4 false 0x6b)
  bandwidthV : v.rep.bandwidth = i.videoBandwidth
  bandwidthA : a.rep.bandwidth = i.audioBandwidth
  scale : v.rep.timescale = 1000 ∧ a.rep.timescale = 1000
  ids : v.rep.id ≠ a.rep.id
  times : v.rep.times = times.map (fun f => (f.timestamp, f.duration)) ∧ a.rep.times = times.map (fun f => (f.timestamp, f.duration))

/-- C85: for every stream whose name has no quote, `<` or `&`, whatever its codecs and however it is named, the playlist of up to 21000 fragments is a document from which a player gets the lengths that
follow from the length of a fragment, the tracks there are, and of each its type, codec, size or rate, bandwidth and the fragments in order. -/
theorem C85_reads_partial {c : Conf} {i : Info} {from_ publish : Text} (hs : Sized c i from_ publish) (hn : Plain c.name) (h1 : Plain from_) (h2 : Plain publish)
    (hp : i.profile < 256 ∧ i.compat < 256 ∧ i.level < 256) (hv ha : Bool) {times : List Slot} (ht : ∀ f ∈ times, f.timestamp < 2 ^ 32 ∧ f.duration < 2 ^ 32) (hl : times.length ≤ 21000) :
    ∃ doc v a, readMpd (playlist c i from_ publish hv ha times) = some doc ∧ Tells c i from_ publish hv ha times doc v a := by
  refine ⟨docOf c i from_ publish hv ha times, videoTrack c i times, audioTrack c i times, ?_, ⟨rfl, rfl, rfl, rfl, rfl, rfl, rfl, rfl, rfl, rfl, rfl, rfl, codec_video hp.1 hp.2.1 hp.2.2, codec_audio i, rfl, rfl, ⟨rfl, rfl⟩, ?_, ⟨rfl, rfl⟩⟩⟩
  · rw [playlist_fits hs hv ha ht hl]
    exact read_whole c i from_ publish hv ha times hn h1 h2
  · intro e
    have := List.append_cancel_left (as := c.name) (bs := s "_H264") (cs := s "_AAC") e
    revert this; decide

/-- Where a player finds the segment that begins at a time, and the initialization segment -/
def mediaAt (c : Conf) (k : Track) (t : Nat) : Option Text := (Mpd.mediaName k.rep t).bind (target (playlistPath c))
def initAt (c : Conf) (k : Track) : Option Text := (Mpd.initName k.rep).bind (target (playlistPath c))

/-- C85: if besides the name has nothing that a template or a reference takes for something else, or each stream has its own directory, then the names a player makes of the playlist, taken from where the
playlist is, are the names of the files that are written for that track. -/
theorem C85_files {c : Conf} {i : Info} {from_ publish : Text} (hs : Sized c i from_ publish) (hn : Plain c.name) (h1 : Plain from_) (h2 : Plain publish) (ho : c.nested = true ∨ Ordinary c.name)
    (hv ha : Bool) {times : List Slot} (ht : ∀ f ∈ times, f.timestamp < 2 ^ 32 ∧ f.duration < 2 ^ 32) (hl : times.length ≤ 21000) :
    ∃ doc, readMpd (playlist c i from_ publish hv ha times) = some doc ∧ ∀ k ∈ doc.tracks, ∃ video : Bool, k.mime = (if video then s "video/mp4" else s "audio/mp4") ∧
      initAt c k = some (initPath c video) ∧ ∀ t, mediaAt c k t = some (mediaPath c video t) := by
  refine ⟨docOf c i from_ publish hv ha times, ?_, ?_⟩
  · rw [playlist_fits hs hv ha ht hl]
    exact read_whole c i from_ publish hv ha times hn h1 h2
  · intro k hk
    have hV : initAt c (videoTrack c i times) = some (initPath c true) ∧ ∀ t, mediaAt c (videoTrack c i times) t = some (mediaPath c true t) := by
      refine ⟨?_, fun t => ?_⟩
      · have e := init_fill ho true (videoTrack c i times).rep.id
        have e2 : Mpd.initName (videoTrack c i times).rep = _ := e
        unfold initAt
        rw [e2]
        exact init_target ho true
      · have e := media_fill ho true (videoTrack c i times).rep.id t
        have e2 : Mpd.mediaName (videoTrack c i times).rep t = _ := e
        unfold mediaAt
        rw [e2]
        exact media_target ho true t
    have hA : initAt c (audioTrack c i times) = some (initPath c false) ∧ ∀ t, mediaAt c (audioTrack c i times) t = some (mediaPath c false t) := by
      refine ⟨?_, fun t => ?_⟩
      · have e := init_fill ho false (audioTrack c i times).rep.id
        have e2 : Mpd.initName (audioTrack c i times).rep = _ := e
        unfold initAt
        rw [e2]
        exact init_target ho false
      · have e := media_fill ho false (audioTrack c i times).rep.id t
        have e2 : Mpd.mediaName (audioTrack c i times).rep t = _ := e
        unfold mediaAt
        rw [e2]
        exact media_target ho false t
    have hk' : k = videoTrack c i times ∨ k = audioTrack c i times := by
      rcases List.mem_append.1 (show k ∈ (if hv then [videoTrack c i times] else []) ++ (if ha then [audioTrack c i times] else []) from hk) with h | h
      · left; cases hv <;> simp at h; exact h
      · right; cases ha <;> simp at h; exact h
    rcases hk' with rfl | rfl
    · exact ⟨true, rfl, hV⟩
    · exact ⟨false, rfl, hA⟩

/-- C85: files that are not the same segment of the same track have not the same name; segments are not named like initialization segments. -/
theorem C85_apart (c : Conf) : (∀ v v' t t', mediaPath c v t = mediaPath c v' t' → v = v' ∧ t = t') ∧ (∀ v v' t, mediaPath c v t ≠ initPath c v') ∧ (∀ v v', initPath c v = initPath c v' → v = v') := by
  refine ⟨fun _ _ _ _ => media_inj, fun _ _ _ => media_init, fun v v' h => ?_⟩
  have h1 := List.append_cancel_left (show streamPath c ++ _ = streamPath c ++ _ from h)
  have : ∀ v v' : Bool, (if v then "init.m4v".toList else "init.m4a".toList) = (if v' then "init.m4v".toList else "init.m4a".toList) → v = v' := by decide
  exact this _ _ h1

theorem joined_dur : ∀ (l : List Slot) (z : Slot) {B : Nat}, Joined (l ++ [z]) → (∀ f ∈ l, f.timestamp < B) → z.timestamp < B → ∀ f ∈ l, f.duration < B
  | [], _, _, _, _, _ => by intro f hf; cases hf
  | [a], z, B, hj, hb, hz => by
    intro f hf
    rw [List.mem_singleton.1 hf]
    have : a.timestamp + a.duration = z.timestamp := hj.1
    omega
  | a :: b :: l, z, B, hj, hb, hz => by
    intro f hf
    have h1 : a.timestamp + a.duration = b.timestamp := hj.1
    rcases List.mem_cons.1 hf with rfl | hf
    · have := hb b (List.mem_cons_of_mem _ List.mem_cons_self)
      omega
    · exact joined_dur (b :: l) z hj.2 (fun x hx => hb x (List.mem_cons_of_mem _ hx)) hz f hf

/-- C85: from frames to a player. Frames in order and not too many at once (see C68), a window of at most 21000 fragments and an ordinary name: whenever there is a playlist its text can be read. The player
gets the last parts of the stream, as many as the window holds, with their times. For each part and each track it lists it makes the name of a file; under that name is what was written last for that track and
that time, and in it are the frames of that part. -/
theorem C85_player_partial (cfg : Cfg) (frags : Nat → Slot) (xs : List Item) (ho : Ordered xs) (hF : 0 < cfg.fraglen) (hl : Light cfg xs) (hd : ∀ x ∈ xs, x.2.delay < 2 ^ 32) (hn : xs.length < 2 ^ 32)
    (hw : cfg.winfrags ≤ 21000) {c : Conf} {i : Info} {from_ publish : Text} (hs : Sized c i from_ publish) (hname : Plain c.name) (h1 : Plain from_) (h2 : Plain publish)
    (hord : c.nested = true ∨ Ordinary c.name) (hcut : (run cfg (Dash.init frags) (xs.map opOf)).out ≠ []) :
    ∃ (before listed : List Part) (rest : List Item) (hv ha : Bool) (times : List Slot) (doc : Doc), xs = before.flatMap (·.items) ++ listed.flatMap (·.items) ++ rest ∧
      lastMpd (run cfg (Dash.init frags) (xs.map opOf)).out = some (hv, ha, times) ∧ readMpd (playlist c i from_ publish hv ha times) = some doc ∧
      listed.length = min cfg.winfrags (before.length + listed.length) ∧
      ∀ k ∈ doc.tracks, k.rep.times = listed.map (fun p => (start p.items, p.dur)) ∧ ∃ video : Bool, k.mime = (if video then s "video/mp4" else s "audio/mp4") ∧
        ∀ p ∈ listed, mediaAt c k (start p.items) = some (mediaPath c video (start p.items)) ∧
          ∀ junk : Bytes, junk.length = 44 → ∃ trk file id, onDisk video (start p.items) (run cfg (Dash.init frags) (xs.map opOf)).out = some trk ∧
            segment trk junk = some file ∧ readSegment file = some ⟨id, firstTime (kept (Dash.track video p.items)), wanted video (kept (Dash.track video p.items))⟩ := by
  obtain ⟨before, listed, rest, hv, ha, e1, e2, e3, e4, _, _, e7⟩ := Dash.C68_player_partial cfg frags xs ho hF hl hd hn hcut
  have hst : ∀ l : List Item, (∀ x ∈ l, x ∈ xs) → start l < 2 ^ 31 := by
    intro l hx
    cases l with
    | nil => exact (by decide : 0 < 2 ^ 31)
    | cons x l => exact ho.1 x (hx x List.mem_cons_self)
  have hts : ∀ f ∈ listed.map Part.slot, f.timestamp < 2 ^ 31 := by
    intro f hf
    obtain ⟨p, hp, rfl⟩ := List.mem_map.1 hf
    refine hst p.items fun x hx => ?_
    rw [e1]
    exact List.mem_append_left _ (List.mem_append_right _ (List.mem_flatMap.2 ⟨p, hp, hx⟩))
  have hds := joined_dur _ _ e4 hts (hst rest fun x hx => by rw [e1]; exact List.mem_append_right _ hx)
  have ht : ∀ f ∈ listed.map Part.slot, f.timestamp < 2 ^ 32 ∧ f.duration < 2 ^ 32 := fun f hf => by
    have := hts f hf
    have := hds f hf
    omega
  have hlen : (listed.map Part.slot).length ≤ 21000 := by rw [List.length_map]; omega
  obtain ⟨doc, hr, hk⟩ := C85_files hs hname h1 h2 hord hv ha ht hlen
  refine ⟨before, listed, rest, hv, ha, listed.map Part.slot, doc, e1, e2, hr, e3, fun k hkm => ?_⟩
  obtain ⟨video, hm, _, hmed⟩ := hk k hkm
  refine ⟨?_, video, hm, fun p hp => ⟨hmed _, fun junk hj => (e7 p hp).2.2 video junk hj⟩⟩
  have hr2 : readMpd (playlist c i from_ publish hv ha (listed.map Part.slot)) = some (docOf c i from_ publish hv ha (listed.map Part.slot)) := by
    rw [playlist_fits hs hv ha ht hlen]
    exact read_whole c i from_ publish hv ha _ hname h1 h2
  rw [hr] at hr2
  cases Option.some.inj hr2
  rcases List.mem_append.1 (show k ∈ (if hv then [videoTrack c i _] else []) ++ (if ha then [audioTrack c i _] else []) from hkm) with h | h
  · cases hv <;> simp at h
    subst h
    show ((listed.map Part.slot).map fun f => (f.timestamp, f.duration)) = _
    rw [List.map_map]; rfl
  · cases ha <;> simp at h
    subst h
    show ((listed.map Part.slot).map fun f => (f.timestamp, f.duration)) = _
    rw [List.map_map]; rfl

/-! ### Where it fails -/

/-- C85 fails: more fragments than the buffer of 1 MiB holds (34953 are too many whatever their times; 21000 never are). The list is cut off, what follows is written behind it, and no player can read it. With
fragments of two seconds that is a window of less than a day. -/
theorem C85_full_violation {c : Conf} {i : Info} {from_ publish : Text} (hs : Sized c i from_ publish) (hn : Plain c.name) (h1 : Plain from_) (h2 : Plain publish) {hv ha : Bool} (hva : (hv || ha) = true)
    {times : List Slot} (hl : 34953 ≤ times.length) : readMpd (playlist c i from_ publish hv ha times) = none := by
  have := times_min times
  have e : bufSize = 1048576 := by decide
  unfold readMpd
  rw [cut_read hs hn h1 h2 hva (l := times) (by omega)]
  rfl

/-- C85 fails: there is always one channel. -/
theorem C85_channels_violation {c : Conf} {i : Info} {from_ publish : Text} (hs : Sized c i from_ publish) (hn : Plain c.name) (h1 : Plain from_) (h2 : Plain publish)
    {times : List Slot} (ht : ∀ f ∈ times, f.timestamp < 2 ^ 32 ∧ f.duration < 2 ^ 32) (hl : times.length ≤ 21000) :
    ∃ doc k, readMpd (playlist c i from_ publish false true times) = some doc ∧ doc.tracks = [k] ∧ k.channels = some 1 := by
  refine ⟨docOf c i from_ publish false true times, audioTrack c i times, ?_, rfl, rfl⟩
  rw [playlist_fits hs false true ht hl]
  exact read_whole c i from_ publish false true times hn h1 h2

/-- A stream of two fragments -/
def exInfo : Info := ⟨1280, 720, 25, 0x64, 0, 0x1f, 2500000, true, false, 44100, 128000⟩
def exTimes : List Slot := [⟨0, 5000⟩, ⟨5000, 5040⟩]
def exConf (nested : Bool) (name : String) : Conf := ⟨"/tmp/dash".toList, nested, 5000, name.toList⟩
def exDate : Text := "2026-11-18T02:00:00Z".toList

/-- C85 fails: names are not escaped. -/
theorem C85_name_violation : ∀ name ∈ ["a&b", "a\"b", "a<b"], ∀ nested : Bool, readMpd (playlist (exConf nested name) exInfo exDate exDate true true exTimes) = none := by decide +kernel

/-- C85 fails: a name with a slash, without directories for each stream. The playlist is `a/b.mpd`; the files are beside it, and it refers to the directory `a` below. -/
theorem C85_slash_violation : (readMpd (playlist (exConf false "a/b") exInfo exDate exDate true false exTimes)).bind (fun doc => doc.tracks.head?.bind fun k => mediaAt (exConf false "a/b") k 0) =
    some "/tmp/dash/a/a/b-0.m4v".toList ∧ mediaPath (exConf false "a/b") true 0 = "/tmp/dash/a/b-0.m4v".toList := by decide +kernel

/-- C85 fails: a name with a dollar. -/
theorem C85_dollar_violation : (readMpd (playlist (exConf false "a$b") exInfo exDate exDate true false exTimes)).map (fun doc => doc.tracks.map fun k => mediaAt (exConf false "a$b") k 0) = some [none] := by decide +kernel

end Verif.DashMpd
