import Verif.DashMpd.Model
import Verif.DashMpd.Spec
import Verif.TsDash.MpdRead
/- The text of the playlist is read as what it was made of. -/
namespace Verif.DashMpd
open Verif Verif.Xml
open Verif.HlsRestore (dec)
open Verif.TsDash (plain_dec)
open Verif.TsHls (number_dec)
open Verif.Dash (Slot)
open Verif.Mpd (s)

theorem Lexes.seq' {st s2 : St} {a b v w u k : Text} {x y : List Tok} (h1 : Lexes st a (.value k u.reverse) x) (hv : Plain v) (hw : Plain w) (h2 : Lexes .after b s2 y) :
    Lexes st (a ++ (v ++ (w ++ '"' :: b))) s2 (x ++ .attr k (u ++ v ++ w) :: y) := by
  have := h1.value' hv hw h2
  rwa [List.append_assoc] at this

theorem Lexes.seq {st s2 : St} {a b v u k : Text} {x y : List Tok} (h1 : Lexes st a (.value k u.reverse) x) (hv : Plain v) (h2 : Lexes .after b s2 y) :
    Lexes st (a ++ (v ++ '"' :: b)) s2 (x ++ .attr k (u ++ v) :: y) := by
  have := Lexes.seq' (w := []) h1 hv (by unfold Plain; decide) h2
  rwa [List.nil_append, List.append_nil] at this

theorem plain_hex2 (n : Nat) : Plain (hex2 n) := by
  have : ∀ k < 16, hexDigit k ≠ '"' ∧ hexDigit k ≠ '<' ∧ hexDigit k ≠ '&' := by decide
  intro c hc
  simp only [hex2, List.mem_cons, List.not_mem_nil, or_false] at hc
  rcases hc with rfl | rfl
  · exact this _ (Nat.mod_lt _ (by decide))
  · exact this _ (Nat.mod_lt _ (by decide))

theorem plain_audio (i : Info) : Plain (audioCodec i) := by
  unfold audioCodec Plain
  cases i.aac <;> cases i.sbr <;> decide

theorem plain_prefix {c : Conf} (h : Plain c.name) : Plain (prefixOf c) := by
  unfold prefixOf
  split
  · unfold Plain; decide
  · exact h.app (by unfold Plain; decide)

/-! ### Tokens -/

def timeToks (f : Slot) : List Tok := [.opens (s "S"), .attr (s "t") (dec f.timestamp), .attr (s "d") (dec f.duration), .empty]

theorem lex_time (f : Slot) : Lexes .content (timeText f) .content (timeToks f) := by
  unfold timeText timeToks
  have e1 : "\" d=\"".toList = '"' :: " d=\"".toList := by decide
  have e2 : "\"/>\n".toList = '"' :: "/>\n".toList := by decide
  rw [e1, e2]
  have h1 : Lexes .content "             <S t=\"".toList (.value (s "t") []) [.opens (s "S")] := by unfold Lexes; decide +kernel
  have h2 : Lexes .after " d=\"".toList (.value (s "d") []) [] := by unfold Lexes; decide +kernel
  have h3 : Lexes .after "/>\n".toList .content [.empty] := by unfold Lexes; decide +kernel
  exact (h1.value (plain_dec _) h2).value (plain_dec _) h3

def headerToks (c : Conf) (start publish : Text) : List Tok :=
  [.opens (s "MPD"), .attr (s "type") (s "dynamic"), .attr (s "xmlns") (s "urn:mpeg:dash:schema:mpd:2011"), .attr (s "availabilityStartTime") start, .attr (s "publishTime") publish,
    .attr (s "minimumUpdatePeriod") (s "PT" ++ dec (c.fraglen / 1000) ++ s "S"), .attr (s "minBufferTime") (s "PT" ++ dec (c.fraglen / 1000) ++ s "S"),
    .attr (s "timeShiftBufferDepth") (s "PT" ++ dec (c.fraglen / 250 + 1) ++ s "S"),
    .attr (s "profiles") (s "urn:hbbtv:dash:profile:isoff-live:2012,urn:mpeg:dash:profile:isoff-live:2011"), .attr (s "xmlns:xsi") (s "http://www.w3.org/2011/XMLSchema-instance"),
    .attr (s "xsi:schemaLocation") (s "urn:mpeg:DASH:schema:MPD:2011 DASH-MPD.xsd"), .ends, .opens (s "Period"), .attr (s "start") (s "PT0S"), .attr (s "id") (s "dash"), .ends]

theorem lex_header (c : Conf) (start publish : Text) (h1 : Plain start) (h2 : Plain publish) : Lexes .start (headerText c start publish) .content (headerToks c start publish) := by
  unfold headerText headerToks
  have e1 : "\"\n    publishTime=\"".toList = '"' :: "\n    publishTime=\"".toList := by decide
  have e2 : "\"\n    minimumUpdatePeriod=\"PT".toList = '"' :: "\n    minimumUpdatePeriod=\"PT".toList := by decide
  have e3 : "S\"\n    minBufferTime=\"PT".toList = s "S" ++ '"' :: "\n    minBufferTime=\"PT".toList := by decide
  have e4 : "S\"\n    timeShiftBufferDepth=\"PT".toList = s "S" ++ '"' :: "\n    timeShiftBufferDepth=\"PT".toList := by decide
  have e5 : "S\"\n    profiles=\"urn:hbbtv:dash:profile:isoff-live:2012,urn:mpeg:dash:profile:isoff-live:2011\"\n    xmlns:xsi=\"http://www.w3.org/2011/XMLSchema-instance\"\n    xsi:schemaLocation=\"urn:mpeg:DASH:schema:MPD:2011 DASH-MPD.xsd\">\n  <Period start=\"PT0S\" id=\"dash\">\n".toList =
    s "S" ++ '"' :: "\n    profiles=\"urn:hbbtv:dash:profile:isoff-live:2012,urn:mpeg:dash:profile:isoff-live:2011\"\n    xmlns:xsi=\"http://www.w3.org/2011/XMLSchema-instance\"\n    xsi:schemaLocation=\"urn:mpeg:DASH:schema:MPD:2011 DASH-MPD.xsd\">\n  <Period start=\"PT0S\" id=\"dash\">\n".toList := by
    decide +kernel
  rw [e1, e2, e3, e4, e5]
  have l0 : Lexes .start "<?xml version=\"1.0\"?>\n<MPD\n    type=\"dynamic\"\n    xmlns=\"urn:mpeg:dash:schema:mpd:2011\"\n    availabilityStartTime=\"".toList (.value (s "availabilityStartTime") [])
    [.opens (s "MPD"), .attr (s "type") (s "dynamic"), .attr (s "xmlns") (s "urn:mpeg:dash:schema:mpd:2011")] := by unfold Lexes; decide +kernel
  have l1 : Lexes .after "\n    publishTime=\"".toList (.value (s "publishTime") []) [] := by unfold Lexes; decide +kernel
  have l2 : Lexes .after "\n    minimumUpdatePeriod=\"PT".toList (.value (s "minimumUpdatePeriod") (s "PT").reverse) [] := by unfold Lexes; decide +kernel
  have l3 : Lexes .after "\n    minBufferTime=\"PT".toList (.value (s "minBufferTime") (s "PT").reverse) [] := by unfold Lexes; decide +kernel
  have l4 : Lexes .after "\n    timeShiftBufferDepth=\"PT".toList (.value (s "timeShiftBufferDepth") (s "PT").reverse) [] := by unfold Lexes; decide +kernel
  have l5 : Lexes .after "\n    profiles=\"urn:hbbtv:dash:profile:isoff-live:2012,urn:mpeg:dash:profile:isoff-live:2011\"\n    xmlns:xsi=\"http://www.w3.org/2011/XMLSchema-instance\"\n    xsi:schemaLocation=\"urn:mpeg:DASH:schema:MPD:2011 DASH-MPD.xsd\">\n  <Period start=\"PT0S\" id=\"dash\">\n".toList .content
    [.attr (s "profiles") (s "urn:hbbtv:dash:profile:isoff-live:2012,urn:mpeg:dash:profile:isoff-live:2011"), .attr (s "xmlns:xsi") (s "http://www.w3.org/2011/XMLSchema-instance"),
      .attr (s "xsi:schemaLocation") (s "urn:mpeg:DASH:schema:MPD:2011 DASH-MPD.xsd"), .ends, .opens (s "Period"), .attr (s "start") (s "PT0S"), .attr (s "id") (s "dash"), .ends] := by
    unfold Lexes; decide +kernel
  have hS : Plain (s "S") := by unfold Plain; decide
  exact (((((l0.value h1 l1).value h2 l2).value' (plain_dec _) hS l3).value' (plain_dec _) hS l4).value' (plain_dec _) hS l5)

def videoToks (c : Conf) (i : Info) : List Tok :=
  [.opens (s "AdaptationSet"), .attr (s "id") (s "1"), .attr (s "segmentAlignment") (s "true"), .attr (s "maxWidth") (dec i.width), .attr (s "maxHeight") (dec i.height),
    .attr (s "maxFrameRate") (dec i.fps), .ends, .opens (s "Representation"), .attr (s "id") (c.name ++ s "_H264"), .attr (s "mimeType") (s "video/mp4"),
    .attr (s "codecs") (s "avc1." ++ (hex2 i.profile ++ hex2 i.compat ++ hex2 i.level)), .attr (s "width") (dec i.width), .attr (s "height") (dec i.height), .attr (s "frameRate") (dec i.fps),
    .attr (s "startWithSAP") (s "1"), .attr (s "bandwidth") (dec i.videoBandwidth), .ends, .opens (s "SegmentTemplate"), .attr (s "timescale") (s "1000"),
    .attr (s "media") (prefixOf c ++ s "$Time$.m4v"), .attr (s "initialization") (prefixOf c ++ s "init.m4v"), .ends, .opens (s "SegmentTimeline"), .ends]

theorem lex_video (c : Conf) (i : Info) (h : Plain c.name) : Lexes .content (videoHead c i) .content (videoToks c i) := by
  unfold videoHead
  have e1 : "\"\n        maxHeight=\"".toList = '"' :: "\n        maxHeight=\"".toList := by decide
  have e2 : "\"\n        maxFrameRate=\"".toList = '"' :: "\n        maxFrameRate=\"".toList := by decide
  have e3 : "\">\n      <Representation\n          id=\"".toList = '"' :: ">\n      <Representation\n          id=\"".toList := by decide
  have e4 : "\"\n          mimeType=\"video/mp4\"\n          codecs=\"avc1.".toList = '"' :: "\n          mimeType=\"video/mp4\"\n          codecs=\"avc1.".toList := by decide
  have e5 : "\"\n          width=\"".toList = '"' :: "\n          width=\"".toList := by decide
  have e6 : "\"\n          height=\"".toList = '"' :: "\n          height=\"".toList := by decide
  have e7 : "\"\n          frameRate=\"".toList = '"' :: "\n          frameRate=\"".toList := by decide
  have e8 : "\"\n          startWithSAP=\"1\"\n          bandwidth=\"".toList = '"' :: "\n          startWithSAP=\"1\"\n          bandwidth=\"".toList := by decide
  have e9 : "\">\n        <SegmentTemplate\n            timescale=\"1000\"\n            media=\"".toList = '"' :: ">\n        <SegmentTemplate\n            timescale=\"1000\"\n            media=\"".toList := by decide
  have e10 : "\"\n            initialization=\"".toList = '"' :: "\n            initialization=\"".toList := by decide
  have e11 : "\">\n          <SegmentTimeline>\n".toList = '"' :: ">\n          <SegmentTimeline>\n".toList := by decide
  have l1 : Lexes .content "    <AdaptationSet\n        id=\"1\"\n        segmentAlignment=\"true\"\n        maxWidth=\"".toList (.value (s "maxWidth") [])
    [.opens (s "AdaptationSet"), .attr (s "id") (s "1"), .attr (s "segmentAlignment") (s "true")] := by unfold Lexes; decide +kernel
  have l2 : Lexes .after "\n        maxHeight=\"".toList (.value (s "maxHeight") []) [] := by unfold Lexes; decide +kernel
  have l3 : Lexes .after "\n        maxFrameRate=\"".toList (.value (s "maxFrameRate") []) [] := by unfold Lexes; decide +kernel
  have l4 : Lexes .after ">\n      <Representation\n          id=\"".toList (.value (s "id") []) [.ends, .opens (s "Representation")] := by unfold Lexes; decide +kernel
  have l5 : Lexes .after "\n          mimeType=\"video/mp4\"\n          codecs=\"avc1.".toList (.value (s "codecs") (s "avc1.").reverse) [.attr (s "mimeType") (s "video/mp4")] := by unfold Lexes; decide +kernel
  have l6 : Lexes .after "\n          width=\"".toList (.value (s "width") []) [] := by unfold Lexes; decide +kernel
  have l7 : Lexes .after "\n          height=\"".toList (.value (s "height") []) [] := by unfold Lexes; decide +kernel
  have l8 : Lexes .after "\n          frameRate=\"".toList (.value (s "frameRate") []) [] := by unfold Lexes; decide +kernel
  have l9 : Lexes .after "\n          startWithSAP=\"1\"\n          bandwidth=\"".toList (.value (s "bandwidth") []) [.attr (s "startWithSAP") (s "1")] := by unfold Lexes; decide +kernel
  have l10 : Lexes .after ">\n        <SegmentTemplate\n            timescale=\"1000\"\n            media=\"".toList (.value (s "media") []) [.ends, .opens (s "SegmentTemplate"), .attr (s "timescale") (s "1000")] := by
    unfold Lexes; decide +kernel
  have l11 : Lexes .after "\n            initialization=\"".toList (.value (s "initialization") []) [] := by unfold Lexes; decide +kernel
  have l12 : Lexes .after ">\n          <SegmentTimeline>\n".toList .content [.ends, .opens (s "SegmentTimeline"), .ends] := by unfold Lexes; decide +kernel
  have hh : Plain (hex2 i.profile ++ (hex2 i.compat ++ hex2 i.level)) := (plain_hex2 _).app ((plain_hex2 _).app (plain_hex2 _))
  have hw1 : Plain "_H264".toList := by unfold Plain; decide
  have hw2 : Plain "$Time$.m4v".toList := by unfold Plain; decide
  have hw3 : Plain "init.m4v".toList := by unfold Plain; decide
  have hp := plain_prefix h
  rw [e1, e2, e3, e4, e5, e6, e7, e8, e9, e10, e11]
  have key := Lexes.seq (u := []) l1 (plain_dec i.width) (Lexes.seq (u := []) l2 (plain_dec i.height) (Lexes.seq (u := []) l3 (plain_dec i.fps) (Lexes.seq' (u := []) l4 h hw1
    (Lexes.seq (u := s "avc1.") l5 hh (Lexes.seq (u := []) l6 (plain_dec i.width) (Lexes.seq (u := []) l7 (plain_dec i.height) (Lexes.seq (u := []) l8 (plain_dec i.fps)
    (Lexes.seq (u := []) l9 (plain_dec i.videoBandwidth) (Lexes.seq' (u := []) l10 hp hw2 (Lexes.seq' (u := []) l11 hp hw3 l12))))))))))
  have e : videoToks c i = _ := rfl
  simp only [List.append_assoc, List.cons_append] at key ⊢
  exact key

def audioToks (c : Conf) (i : Info) : List Tok :=
  [.opens (s "AdaptationSet"), .attr (s "id") (s "2"), .attr (s "segmentAlignment") (s "true"), .ends, .opens (s "AudioChannelConfiguration"),
    .attr (s "schemeIdUri") (s "urn:mpeg:dash:23003:3:audio_channel_configuration:2011"), .attr (s "value") (s "1"), .empty, .opens (s "Representation"), .attr (s "id") (c.name ++ s "_AAC"),
    .attr (s "mimeType") (s "audio/mp4"), .attr (s "codecs") (s "mp4a." ++ audioCodec i), .attr (s "audioSamplingRate") (dec i.rate), .attr (s "startWithSAP") (s "1"),
    .attr (s "bandwidth") (dec i.audioBandwidth), .ends, .opens (s "SegmentTemplate"), .attr (s "timescale") (s "1000"), .attr (s "media") (prefixOf c ++ s "$Time$.m4a"),
    .attr (s "initialization") (prefixOf c ++ s "init.m4a"), .ends, .opens (s "SegmentTimeline"), .ends]

theorem lex_audio (c : Conf) (i : Info) (h : Plain c.name) : Lexes .content (audioHead c i) .content (audioToks c i) := by
  unfold audioHead
  have e4 : "\"\n          mimeType=\"audio/mp4\"\n          codecs=\"mp4a.".toList = '"' :: "\n          mimeType=\"audio/mp4\"\n          codecs=\"mp4a.".toList := by decide
  have e5 : "\"\n          audioSamplingRate=\"".toList = '"' :: "\n          audioSamplingRate=\"".toList := by decide
  have e8 : "\"\n          startWithSAP=\"1\"\n          bandwidth=\"".toList = '"' :: "\n          startWithSAP=\"1\"\n          bandwidth=\"".toList := by decide
  have e9 : "\">\n        <SegmentTemplate\n            timescale=\"1000\"\n            media=\"".toList = '"' :: ">\n        <SegmentTemplate\n            timescale=\"1000\"\n            media=\"".toList := by decide
  have e10 : "\"\n            initialization=\"".toList = '"' :: "\n            initialization=\"".toList := by decide
  have e11 : "\">\n          <SegmentTimeline>\n".toList = '"' :: ">\n          <SegmentTimeline>\n".toList := by decide
  have l1 : Lexes .content "    <AdaptationSet\n        id=\"2\"\n        segmentAlignment=\"true\">\n      <AudioChannelConfiguration\n          schemeIdUri=\"urn:mpeg:dash:23003:3:audio_channel_configuration:2011\"\n          value=\"1\"/>\n      <Representation\n          id=\"".toList
    (.value (s "id") []) [.opens (s "AdaptationSet"), .attr (s "id") (s "2"), .attr (s "segmentAlignment") (s "true"), .ends, .opens (s "AudioChannelConfiguration"),
    .attr (s "schemeIdUri") (s "urn:mpeg:dash:23003:3:audio_channel_configuration:2011"), .attr (s "value") (s "1"), .empty, .opens (s "Representation")] := by unfold Lexes; decide +kernel
  have l5 : Lexes .after "\n          mimeType=\"audio/mp4\"\n          codecs=\"mp4a.".toList (.value (s "codecs") (s "mp4a.").reverse) [.attr (s "mimeType") (s "audio/mp4")] := by unfold Lexes; decide +kernel
  have l6 : Lexes .after "\n          audioSamplingRate=\"".toList (.value (s "audioSamplingRate") []) [] := by unfold Lexes; decide +kernel
  have l9 : Lexes .after "\n          startWithSAP=\"1\"\n          bandwidth=\"".toList (.value (s "bandwidth") []) [.attr (s "startWithSAP") (s "1")] := by unfold Lexes; decide +kernel
  have l10 : Lexes .after ">\n        <SegmentTemplate\n            timescale=\"1000\"\n            media=\"".toList (.value (s "media") []) [.ends, .opens (s "SegmentTemplate"), .attr (s "timescale") (s "1000")] := by
    unfold Lexes; decide +kernel
  have l11 : Lexes .after "\n            initialization=\"".toList (.value (s "initialization") []) [] := by unfold Lexes; decide +kernel
  have l12 : Lexes .after ">\n          <SegmentTimeline>\n".toList .content [.ends, .opens (s "SegmentTimeline"), .ends] := by unfold Lexes; decide +kernel
  have hw1 : Plain "_AAC".toList := by unfold Plain; decide
  have hw2 : Plain "$Time$.m4a".toList := by unfold Plain; decide
  have hw3 : Plain "init.m4a".toList := by unfold Plain; decide
  have hp := plain_prefix h
  rw [e4, e5, e8, e9, e10, e11]
  have key := Lexes.seq' (u := []) l1 h hw1 (Lexes.seq (u := s "mp4a.") l5 (plain_audio i) (Lexes.seq (u := []) l6 (plain_dec i.rate)
    (Lexes.seq (u := []) l9 (plain_dec i.audioBandwidth) (Lexes.seq' (u := []) l10 hp hw2 (Lexes.seq' (u := []) l11 hp hw3 l12)))))
  simp only [List.append_assoc, List.cons_append] at key ⊢
  exact key

def trackFootToks : List Tok := [.closes (s "SegmentTimeline"), .closes (s "SegmentTemplate"), .closes (s "Representation"), .closes (s "AdaptationSet")]

theorem lex_trackFoot : Lexes .content trackFoot .content trackFootToks := by unfold Lexes; decide +kernel

theorem lex_foot : Lexes .content footText .content [.closes (s "Period"), .closes (s "MPD")] := by unfold Lexes; decide +kernel

end Verif.DashMpd
