import Verif.DashMpd.Text
/- What a player makes of the elements of the playlist, of the names and of the codecs in it -/
namespace Verif.DashMpd
open Verif Verif.Xml
open Verif.HlsRestore (dec decGo_mem)
open Verif.TsDash (plain_dec seconds_dec dec_repr)
open Verif.TsHls (number_dec)
open Verif.Dash (Slot)
open Verif.Mpd (s)

def timeNode (f : Slot) : Node := .el (s "S") [(s "t", dec f.timestamp), (s "d", dec f.duration)] []

theorem grows_time (f : Slot) : Grows (timeToks f) [timeNode f] := fun _ _ _ => rfl

theorem grows_times (times : List Slot) : Grows (times.flatMap timeToks) (times.flatMap fun f => [timeNode f]) := Grows.flat timeToks (fun f => [timeNode f]) times fun f _ => grows_time f

def videoNode (c : Conf) (i : Info) (kids : List Node) : Node :=
  .el (s "AdaptationSet") [(s "id", s "1"), (s "segmentAlignment", s "true"), (s "maxWidth", dec i.width), (s "maxHeight", dec i.height), (s "maxFrameRate", dec i.fps)]
    [.el (s "Representation") [(s "id", c.name ++ s "_H264"), (s "mimeType", s "video/mp4"), (s "codecs", s "avc1." ++ (hex2 i.profile ++ hex2 i.compat ++ hex2 i.level)),
      (s "width", dec i.width), (s "height", dec i.height), (s "frameRate", dec i.fps), (s "startWithSAP", s "1"), (s "bandwidth", dec i.videoBandwidth)]
      [.el (s "SegmentTemplate") [(s "timescale", s "1000"), (s "media", prefixOf c ++ s "$Time$.m4v"), (s "initialization", prefixOf c ++ s "init.m4v")]
        [.el (s "SegmentTimeline") [] kids]]]

def audioNode (c : Conf) (i : Info) (kids : List Node) : Node :=
  .el (s "AdaptationSet") [(s "id", s "2"), (s "segmentAlignment", s "true")]
    [.el (s "AudioChannelConfiguration") [(s "schemeIdUri", s "urn:mpeg:dash:23003:3:audio_channel_configuration:2011"), (s "value", s "1")] [],
     .el (s "Representation") [(s "id", c.name ++ s "_AAC"), (s "mimeType", s "audio/mp4"), (s "codecs", s "mp4a." ++ audioCodec i), (s "audioSamplingRate", dec i.rate),
      (s "startWithSAP", s "1"), (s "bandwidth", dec i.audioBandwidth)]
      [.el (s "SegmentTemplate") [(s "timescale", s "1000"), (s "media", prefixOf c ++ s "$Time$.m4a"), (s "initialization", prefixOf c ++ s "init.m4a")]
        [.el (s "SegmentTimeline") [] kids]]]

theorem grows_video (c : Conf) (i : Info) (times : List Slot) : Grows (videoToks c i ++ times.flatMap timeToks ++ trackFootToks) [videoNode c i (times.flatMap fun f => [timeNode f])] := by
  intro f fs root
  rw [growAll_append, growAll_append]
  have h1 : ∀ a1 a2 a3 a4 a5 a6 a7 a8, growAll ⟨f :: fs, root⟩ [.opens (s "AdaptationSet"), .attr (s "id") (s "1"), .attr (s "segmentAlignment") (s "true"), .attr (s "maxWidth") a1, .attr (s "maxHeight") a2,
    .attr (s "maxFrameRate") a3, .ends, .opens (s "Representation"), .attr (s "id") a4, .attr (s "mimeType") (s "video/mp4"), .attr (s "codecs") a5, .attr (s "width") a1, .attr (s "height") a2,
    .attr (s "frameRate") a3, .attr (s "startWithSAP") (s "1"), .attr (s "bandwidth") a6, .ends, .opens (s "SegmentTemplate"), .attr (s "timescale") (s "1000"), .attr (s "media") a7,
    .attr (s "initialization") a8, .ends, .opens (s "SegmentTimeline"), .ends] =
    some ⟨[⟨s "SegmentTimeline", [], []⟩, ⟨s "SegmentTemplate", [(s "timescale", s "1000"), (s "media", a7), (s "initialization", a8)], []⟩,
      ⟨s "Representation", [(s "id", a4), (s "mimeType", s "video/mp4"), (s "codecs", a5), (s "width", a1), (s "height", a2), (s "frameRate", a3), (s "startWithSAP", s "1"), (s "bandwidth", a6)], []⟩,
      ⟨s "AdaptationSet", [(s "id", s "1"), (s "segmentAlignment", s "true"), (s "maxWidth", a1), (s "maxHeight", a2), (s "maxFrameRate", a3)], []⟩] ++ f :: fs, root⟩ :=
    fun _ _ _ _ _ _ _ _ => rfl
  unfold videoToks
  rw [h1, Option.bind_some]
  show ((growAll ⟨_ :: _, _⟩ _).bind _) = _
  rw [grows_times times, Option.bind_some, List.nil_append]
  rfl

theorem grows_audio (c : Conf) (i : Info) (times : List Slot) : Grows (audioToks c i ++ times.flatMap timeToks ++ trackFootToks) [audioNode c i (times.flatMap fun f => [timeNode f])] := by
  intro f fs root
  rw [growAll_append, growAll_append]
  have h1 : ∀ a4 a5 a1 a6 a7 a8, growAll ⟨f :: fs, root⟩ [.opens (s "AdaptationSet"), .attr (s "id") (s "2"), .attr (s "segmentAlignment") (s "true"), .ends, .opens (s "AudioChannelConfiguration"),
    .attr (s "schemeIdUri") (s "urn:mpeg:dash:23003:3:audio_channel_configuration:2011"), .attr (s "value") (s "1"), .empty, .opens (s "Representation"), .attr (s "id") a4,
    .attr (s "mimeType") (s "audio/mp4"), .attr (s "codecs") a5, .attr (s "audioSamplingRate") a1, .attr (s "startWithSAP") (s "1"), .attr (s "bandwidth") a6, .ends, .opens (s "SegmentTemplate"),
    .attr (s "timescale") (s "1000"), .attr (s "media") a7, .attr (s "initialization") a8, .ends, .opens (s "SegmentTimeline"), .ends] =
    some ⟨[⟨s "SegmentTimeline", [], []⟩, ⟨s "SegmentTemplate", [(s "timescale", s "1000"), (s "media", a7), (s "initialization", a8)], []⟩,
      ⟨s "Representation", [(s "id", a4), (s "mimeType", s "audio/mp4"), (s "codecs", a5), (s "audioSamplingRate", a1), (s "startWithSAP", s "1"), (s "bandwidth", a6)], []⟩,
      ⟨s "AdaptationSet", [(s "id", s "2"), (s "segmentAlignment", s "true")],
        [.el (s "AudioChannelConfiguration") [(s "schemeIdUri", s "urn:mpeg:dash:23003:3:audio_channel_configuration:2011"), (s "value", s "1")] []]⟩] ++ f :: fs, root⟩ :=
    fun _ _ _ _ _ _ => rfl
  unfold audioToks
  rw [h1, Option.bind_some]
  show ((growAll ⟨_ :: _, _⟩ _).bind _) = _
  rw [grows_times times, Option.bind_some, List.nil_append]
  rfl

theorem lex_videoText (c : Conf) (i : Info) (times : List Slot) (h : Plain c.name) : Lexes .content (videoText c i times) .content (videoToks c i ++ times.flatMap timeToks ++ trackFootToks) :=
  ((lex_video c i h).app (Lexes.flat _ _ _ fun f _ => lex_time f)).app lex_trackFoot

theorem lex_audioText (c : Conf) (i : Info) (times : List Slot) (h : Plain c.name) : Lexes .content (audioText c i times) .content (audioToks c i ++ times.flatMap timeToks ++ trackFootToks) :=
  ((lex_audio c i h).app (Lexes.flat _ _ _ fun f _ => lex_time f)).app lex_trackFoot

def docNode (c : Conf) (start publish : Text) (kids : List Node) : Node :=
  .el (s "MPD") [(s "type", s "dynamic"), (s "xmlns", s "urn:mpeg:dash:schema:mpd:2011"), (s "availabilityStartTime", start), (s "publishTime", publish),
    (s "minimumUpdatePeriod", s "PT" ++ dec (c.fraglen / 1000) ++ s "S"), (s "minBufferTime", s "PT" ++ dec (c.fraglen / 1000) ++ s "S"),
    (s "timeShiftBufferDepth", s "PT" ++ dec (c.fraglen / 250 + 1) ++ s "S"), (s "profiles", s "urn:hbbtv:dash:profile:isoff-live:2012,urn:mpeg:dash:profile:isoff-live:2011"),
    (s "xmlns:xsi", s "http://www.w3.org/2011/XMLSchema-instance"), (s "xsi:schemaLocation", s "urn:mpeg:DASH:schema:MPD:2011 DASH-MPD.xsd")]
    [.el (s "Period") [(s "start", s "PT0S"), (s "id", s "dash")] kids]

/-- The frames that are open behind the header -/
def openFrames (c : Conf) (start publish : Text) : List Frame :=
  [⟨s "Period", [(s "start", s "PT0S"), (s "id", s "dash")], []⟩,
   ⟨s "MPD", [(s "type", s "dynamic"), (s "xmlns", s "urn:mpeg:dash:schema:mpd:2011"), (s "availabilityStartTime", start), (s "publishTime", publish),
    (s "minimumUpdatePeriod", s "PT" ++ dec (c.fraglen / 1000) ++ s "S"), (s "minBufferTime", s "PT" ++ dec (c.fraglen / 1000) ++ s "S"),
    (s "timeShiftBufferDepth", s "PT" ++ dec (c.fraglen / 250 + 1) ++ s "S"), (s "profiles", s "urn:hbbtv:dash:profile:isoff-live:2012,urn:mpeg:dash:profile:isoff-live:2011"),
    (s "xmlns:xsi", s "http://www.w3.org/2011/XMLSchema-instance"), (s "xsi:schemaLocation", s "urn:mpeg:DASH:schema:MPD:2011 DASH-MPD.xsd")], []⟩]

theorem grow_header (c : Conf) (start publish : Text) : growAll {} (headerToks c start publish) = some ⟨openFrames c start publish, none⟩ := by
  have h : ∀ a b d e g, growAll {} [.opens (s "MPD"), .attr (s "type") (s "dynamic"), .attr (s "xmlns") (s "urn:mpeg:dash:schema:mpd:2011"), .attr (s "availabilityStartTime") a, .attr (s "publishTime") b,
    .attr (s "minimumUpdatePeriod") d, .attr (s "minBufferTime") e, .attr (s "timeShiftBufferDepth") g,
    .attr (s "profiles") (s "urn:hbbtv:dash:profile:isoff-live:2012,urn:mpeg:dash:profile:isoff-live:2011"), .attr (s "xmlns:xsi") (s "http://www.w3.org/2011/XMLSchema-instance"),
    .attr (s "xsi:schemaLocation") (s "urn:mpeg:DASH:schema:MPD:2011 DASH-MPD.xsd"), .ends, .opens (s "Period"), .attr (s "start") (s "PT0S"), .attr (s "id") (s "dash"), .ends] =
    some ⟨[⟨s "Period", [(s "start", s "PT0S"), (s "id", s "dash")], []⟩,
      ⟨s "MPD", [(s "type", s "dynamic"), (s "xmlns", s "urn:mpeg:dash:schema:mpd:2011"), (s "availabilityStartTime", a), (s "publishTime", b), (s "minimumUpdatePeriod", d), (s "minBufferTime", e),
      (s "timeShiftBufferDepth", g), (s "profiles", s "urn:hbbtv:dash:profile:isoff-live:2012,urn:mpeg:dash:profile:isoff-live:2011"),
      (s "xmlns:xsi", s "http://www.w3.org/2011/XMLSchema-instance"), (s "xsi:schemaLocation", s "urn:mpeg:DASH:schema:MPD:2011 DASH-MPD.xsd")], []⟩], none⟩ := fun _ _ _ _ _ => rfl
  exact h _ _ _ _ _

/-- A document with any elements in its period -/
theorem read_around (c : Conf) (start publish body : Text) (toks : List Tok) (nodes : List Node) (h1 : Plain start) (h2 : Plain publish) (hl : Lexes .content body .content toks) (hg : Grows toks nodes) :
    Xml.read (headerText c start publish ++ body ++ footText) = some (docNode c start publish nodes) := by
  have h := ((lex_header c start publish h1 h2).app hl).app lex_foot
  unfold Lexes at h
  unfold Xml.read
  rw [h, Option.bind_some]
  show (growAll {} (headerToks c start publish ++ toks ++ [.closes (s "Period"), .closes (s "MPD")])).bind _ = _
  rw [growAll_append, growAll_append, grow_header, Option.bind_some]
  show (((growAll ⟨_ :: _, _⟩ toks).bind _).bind _) = _
  rw [hg, Option.bind_some, List.nil_append]
  rfl

/-- The elements of the tracks -/
def bodyToks (c : Conf) (i : Info) (hv ha : Bool) (times : List Slot) : List Tok :=
  (if hv then videoToks c i ++ times.flatMap timeToks ++ trackFootToks else []) ++ (if ha then audioToks c i ++ times.flatMap timeToks ++ trackFootToks else [])

def bodyNodes (c : Conf) (i : Info) (hv ha : Bool) (times : List Slot) : List Node :=
  (if hv then [videoNode c i (times.flatMap fun f => [timeNode f])] else []) ++ (if ha then [audioNode c i (times.flatMap fun f => [timeNode f])] else [])

theorem grows_app {a b : List Tok} {x y : List Node} (h1 : Grows a x) (h2 : Grows b y) : Grows (a ++ b) (x ++ y) := by
  intro f fs root
  rw [growAll_append, h1, Option.bind_some, h2]
  simp

theorem grows_nil : Grows [] [] := by intro f fs root; simp [growAll]

/-! ### The elements -/

theorem read_time (f : Slot) : Mpd.readS (timeNode f) = some (f.timestamp, f.duration) := by
  show (TsHls.Spec.number (dec f.timestamp)).bind _ = _
  rw [number_dec, Option.bind_some]
  show (TsHls.Spec.number (dec f.duration)).map _ = _
  rw [number_dec]
  rfl

theorem read_times (times : List Slot) : Mpd.every Mpd.readS (times.flatMap fun f => [timeNode f]) = some (times.map fun f => (f.timestamp, f.duration)) :=
  TsDash.every_map _ _ _ read_time times

def videoTrack (c : Conf) (i : Info) (times : List Slot) : Track :=
  { mime := s "video/mp4"
    rep := ⟨c.name ++ s "_H264", s "avc1." ++ (hex2 i.profile ++ hex2 i.compat ++ hex2 i.level), i.videoBandwidth, 1000, prefixOf c ++ s "$Time$.m4v", prefixOf c ++ s "init.m4v",
      times.map fun f => (f.timestamp, f.duration)⟩
    picture := some ⟨i.width, i.height, i.fps⟩ }

def audioTrack (c : Conf) (i : Info) (times : List Slot) : Track :=
  { mime := s "audio/mp4"
    rep := ⟨c.name ++ s "_AAC", s "mp4a." ++ audioCodec i, i.audioBandwidth, 1000, prefixOf c ++ s "$Time$.m4a", prefixOf c ++ s "init.m4a", times.map fun f => (f.timestamp, f.duration)⟩
    rate := some i.rate
    channels := some 1 }

theorem readSet_one (a : List (Text × Text)) (r : Node) : readSet (.el (s "AdaptationSet") a [r]) = readTrack none r := by
  have h : Mpd.named (.el (s "AdaptationSet") a [r]) "AdaptationSet" = some () := by unfold Mpd.named; exact if_pos rfl
  unfold readSet
  rw [h]
  rfl

theorem readSet_two (a : List (Text × Text)) (r : Node) :
    readSet (.el (s "AdaptationSet") a [.el (s "AudioChannelConfiguration") [(s "schemeIdUri", s "urn:mpeg:dash:23003:3:audio_channel_configuration:2011"), (s "value", s "1")] [], r]) = readTrack (some 1) r := by
  have h : ∀ ks, Mpd.named (.el (s "AdaptationSet") a ks) "AdaptationSet" = some () := by intro ks; unfold Mpd.named; exact if_pos rfl
  have h2 : readChannels (.el (s "AudioChannelConfiguration") [(s "schemeIdUri", s "urn:mpeg:dash:23003:3:audio_channel_configuration:2011"), (s "value", s "1")] []) = some 1 := by decide +kernel
  unfold readSet
  rw [h, Option.bind_some]
  show (readChannels _).bind _ = _
  rw [h2]
  rfl

theorem read_video (c : Conf) (i : Info) (times : List Slot) : readSet (videoNode c i (times.flatMap fun f => [timeNode f])) = some (videoTrack c i times) := by
  have hp : ∀ n : Node, n.attr (s "width") = some (dec i.width) → n.attr (s "height") = some (dec i.height) → n.attr (s "frameRate") = some (dec i.fps) → readPicture n = some ⟨i.width, i.height, i.fps⟩ := by
    intro n e1 e2 e3
    unfold readPicture numOf
    rw [e1, e2, e3]
    simp only [Option.bind_some, number_dec, Option.map_some]
  unfold videoNode
  rw [readSet_one]
  unfold readTrack
  rw [hp _ rfl rfl rfl]
  show (Option.map _ ((TsHls.Spec.number (dec i.videoBandwidth)).bind _)) = _
  rw [number_dec, Option.bind_some]
  show (Option.map _ ((Mpd.every Mpd.readS (times.flatMap fun f => [timeNode f])).map _)) = _
  rw [read_times]
  rfl

theorem read_audio (c : Conf) (i : Info) (times : List Slot) : readSet (audioNode c i (times.flatMap fun f => [timeNode f])) = some (audioTrack c i times) := by
  have hp : ∀ n : Node, n.attr (s "audioSamplingRate") = some (dec i.rate) → numOf n "audioSamplingRate" = some i.rate := by
    intro n e
    unfold numOf
    rw [e, Option.bind_some, number_dec]
  unfold audioNode
  rw [readSet_two]
  unfold readTrack
  rw [hp _ rfl]
  show (Option.map _ ((TsHls.Spec.number (dec i.audioBandwidth)).bind _)) = _
  rw [number_dec, Option.bind_some]
  show (Option.map _ ((Mpd.every Mpd.readS (times.flatMap fun f => [timeNode f])).map _)) = _
  rw [read_times]
  rfl

theorem read_docNode (c : Conf) (start publish : Text) (nodes : List Node) (tracks : List Track) (h : Mpd.every readSet nodes = some tracks) :
    readDoc (docNode c start publish nodes) = some ⟨s "dynamic", start, publish, c.fraglen / 1000, c.fraglen / 1000, c.fraglen / 250 + 1, 0, tracks⟩ := by
  show (Mpd.seconds (s "PT" ++ dec (c.fraglen / 1000) ++ s "S")).bind _ = _
  rw [seconds_dec, Option.bind_some]
  show (Mpd.seconds (s "PT" ++ dec (c.fraglen / 1000) ++ s "S")).bind _ = _
  rw [seconds_dec, Option.bind_some]
  show (Mpd.seconds (s "PT" ++ dec (c.fraglen / 250 + 1) ++ s "S")).bind _ = _
  rw [seconds_dec, Option.bind_some]
  show (Mpd.every readSet nodes).map _ = _
  rw [h]
  rfl

/-- All that a player gets -/
def docOf (c : Conf) (i : Info) (start publish : Text) (hv ha : Bool) (times : List Slot) : Doc :=
  ⟨s "dynamic", start, publish, c.fraglen / 1000, c.fraglen / 1000, c.fraglen / 250 + 1, 0, (if hv then [videoTrack c i times] else []) ++ (if ha then [audioTrack c i times] else [])⟩

theorem read_whole (c : Conf) (i : Info) (start publish : Text) (hv ha : Bool) (times : List Slot) (h : Plain c.name) (h1 : Plain start) (h2 : Plain publish) :
    readMpd (headerText c start publish ++ ((if hv then videoText c i times else []) ++ (if ha then audioText c i times else [])) ++ footText) = some (docOf c i start publish hv ha times) := by
  have hl : Lexes .content ((if hv then videoText c i times else []) ++ (if ha then audioText c i times else [])) .content (bodyToks c i hv ha times) := by
    unfold bodyToks
    refine Lexes.app (s1 := .content) ?_ ?_
    · cases hv
      · rfl
      · exact lex_videoText c i times h
    · cases ha
      · rfl
      · exact lex_audioText c i times h
  have hg : Grows (bodyToks c i hv ha times) (bodyNodes c i hv ha times) := by
    unfold bodyToks bodyNodes
    refine grows_app ?_ ?_
    · cases hv
      · exact grows_nil
      · exact grows_video c i times
    · cases ha
      · exact grows_nil
      · exact grows_audio c i times
  unfold readMpd
  rw [read_around c start publish _ _ _ h1 h2 hl hg, Option.bind_some]
  refine read_docNode c start publish _ _ ?_
  have hv' := read_video c i times
  have ha' := read_audio c i times
  unfold bodyNodes
  cases hv <;> cases ha
  · rfl
  · show (readSet _).bind _ = _
    rw [ha']; rfl
  · show (readSet _).bind _ = _
    rw [hv']; rfl
  · show (readSet _).bind _ = _
    rw [hv', Option.bind_some]
    show ((readSet _).bind _).map _ = _
    rw [ha']; rfl

end Verif.DashMpd
