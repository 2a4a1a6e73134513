import Verif.Dash.CutModel
import Verif.Hls.RestoreModel
/-
Model of the text of the playlist (MPD) of the RTMP module's DASH output and of the names of its files: modules/nginx-rtmp-module/dash/ngx_rtmp_dash_module.c:216-445 (ngx_rtmp_dash_write_playlist),
448-522 and 567-570 (names of files), 882-941 (paths). What is listed and when is the model of C68 (`Dash/CutModel`). Characters are `Char`; numbers are what is printed (`%ui`, `%uD`).

The playlist is written to a temporary name and renamed; writes are complete. The text of a date (`ngx_libc_gmtime`, :339-351) is a parameter.
-/
namespace Verif.DashMpd
open Verif.HlsRestore (Text dec)
open Verif.Dash (Slot)

/-- NGX_RTMP_DASH_BUFSIZE (:24) -/
def bufSize : Nat := 1024 * 1024

/-- What is used of `ngx_rtmp_codec_ctx_t`; bandwidths are the data rates times 1000 (:387, :408) -/
structure Info where
  width : Nat
  height : Nat
  fps : Nat
  profile : Nat
  compat : Nat
  level : Nat
  videoBandwidth : Nat
  aac : Bool
  sbr : Bool
  rate : Nat
  audioBandwidth : Nat

/-- What is used of `ngx_rtmp_dash_app_conf_t`, and the name of the stream (:883-890) -/
structure Conf where
  path : Text
  nested : Bool
  fraglen : Nat
  name : Text

/-- `%02uxi` of ngx_slprintf (nginx core) for a number of eight bits -/
def hexDigit (n : Nat) : Char := if n < 10 then Char.ofNat (48 + n) else Char.ofNat (87 + n)
def hex2 (n : Nat) : Text := [hexDigit (n / 16 % 16), hexDigit (n % 16)]

/-- `name` and `sep` (:370-373) -/
def prefixOf (c : Conf) : Text := if c.nested then [] else c.name ++ ['-']

/-- NGX_RTMP_DASH_MANIFEST_HEADER (:255-269), :356-361 -/
def headerText (c : Conf) (start publish : Text) : Text :=
  "<?xml version=\"1.0\"?>\n<MPD\n    type=\"dynamic\"\n    xmlns=\"urn:mpeg:dash:schema:mpd:2011\"\n    availabilityStartTime=\"".toList ++ start ++ "\"\n    publishTime=\"".toList ++ publish ++
  "\"\n    minimumUpdatePeriod=\"PT".toList ++ dec (c.fraglen / 1000) ++ "S\"\n    minBufferTime=\"PT".toList ++ dec (c.fraglen / 1000) ++
  "S\"\n    timeShiftBufferDepth=\"PT".toList ++ dec (c.fraglen / 250 + 1) ++
  "S\"\n    profiles=\"urn:hbbtv:dash:profile:isoff-live:2012,urn:mpeg:dash:profile:isoff-live:2011\"\n    xmlns:xsi=\"http://www.w3.org/2011/XMLSchema-instance\"\n    xsi:schemaLocation=\"urn:mpeg:DASH:schema:MPD:2011 DASH-MPD.xsd\">\n  <Period start=\"PT0S\" id=\"dash\">\n".toList

/-- NGX_RTMP_DASH_MANIFEST_TIME (:302-303) -/
def timeText (f : Slot) : Text := "             <S t=\"".toList ++ dec f.timestamp ++ "\" d=\"".toList ++ dec f.duration ++ "\"/>\n".toList

/-- NGX_RTMP_DASH_MANIFEST_VIDEO (:272-292), :376-389 -/
def videoHead (c : Conf) (i : Info) : Text :=
  "    <AdaptationSet\n        id=\"1\"\n        segmentAlignment=\"true\"\n        maxWidth=\"".toList ++ dec i.width ++ "\"\n        maxHeight=\"".toList ++ dec i.height ++
  "\"\n        maxFrameRate=\"".toList ++ dec i.fps ++ "\">\n      <Representation\n          id=\"".toList ++ (c.name ++ ("_H264".toList ++
  "\"\n          mimeType=\"video/mp4\"\n          codecs=\"avc1.".toList)) ++ (hex2 i.profile ++ hex2 i.compat ++ hex2 i.level) ++ "\"\n          width=\"".toList ++ dec i.width ++
  "\"\n          height=\"".toList ++ dec i.height ++ "\"\n          frameRate=\"".toList ++ dec i.fps ++ "\"\n          startWithSAP=\"1\"\n          bandwidth=\"".toList ++ dec i.videoBandwidth ++
  "\">\n        <SegmentTemplate\n            timescale=\"1000\"\n            media=\"".toList ++ (prefixOf c ++ ("$Time$.m4v".toList ++ "\"\n            initialization=\"".toList)) ++
  (prefixOf c ++ ("init.m4v".toList ++ "\">\n          <SegmentTimeline>\n".toList))

/-- NGX_RTMP_DASH_MANIFEST_VIDEO_FOOTER, NGX_RTMP_DASH_MANIFEST_AUDIO_FOOTER (:295-299, :328-332) -/
def trackFoot : Text := "          </SegmentTimeline>\n        </SegmentTemplate>\n      </Representation>\n    </AdaptationSet>\n".toList

/-- :405-406 -/
def audioCodec (i : Info) : Text := if i.aac then (if i.sbr then "40.5".toList else "40.2".toList) else "6b".toList

/-- NGX_RTMP_DASH_MANIFEST_AUDIO (:306-325), :403-410 -/
def audioHead (c : Conf) (i : Info) : Text :=
  "    <AdaptationSet\n        id=\"2\"\n        segmentAlignment=\"true\">\n      <AudioChannelConfiguration\n          schemeIdUri=\"urn:mpeg:dash:23003:3:audio_channel_configuration:2011\"\n          value=\"1\"/>\n      <Representation\n          id=\"".toList ++
  (c.name ++ ("_AAC".toList ++ "\"\n          mimeType=\"audio/mp4\"\n          codecs=\"mp4a.".toList)) ++ audioCodec i ++ "\"\n          audioSamplingRate=\"".toList ++ dec i.rate ++
  "\"\n          startWithSAP=\"1\"\n          bandwidth=\"".toList ++ dec i.audioBandwidth ++ "\">\n        <SegmentTemplate\n            timescale=\"1000\"\n            media=\"".toList ++
  (prefixOf c ++ ("$Time$.m4a".toList ++ "\"\n            initialization=\"".toList)) ++ (prefixOf c ++ ("init.m4a".toList ++ "\">\n          <SegmentTimeline>\n".toList))

/-- NGX_RTMP_DASH_MANIFEST_FOOTER (:335-337) -/
def footText : Text := "  </Period>\n</MPD>\n".toList

/-- What `ngx_slprintf` leaves in the buffer when it is called again and again with the same end: the text up to the end of the buffer -/
def buffered (t : Text) : Text := t.take bufSize

def videoText (c : Conf) (i : Info) (times : List Slot) : Text := videoHead c i ++ times.flatMap timeText ++ trackFoot
def audioText (c : Conf) (i : Info) (times : List Slot) : Text := audioHead c i ++ times.flatMap timeText ++ trackFoot

/-- `ngx_rtmp_dash_write_playlist` (:216-445): the buffer is used four times, each for a write. -/
def playlist (c : Conf) (i : Info) (start publish : Text) (hasVideo hasAudio : Bool) (times : List Slot) : Text :=
  buffered (headerText c start publish) ++ (if hasVideo then buffered (videoText c i times) else []) ++ (if hasAudio then buffered (audioText c i times) else []) ++ buffered footText

/-- The path with a slash behind it and the name (:898-904) -/
def root (c : Conf) : Text := c.path ++ (if c.path.getLast? = some '/' then [] else ['/']) ++ c.name

/-- `ctx->playlist` (:920-924) -/
def playlistPath (c : Conf) : Text := root c ++ (if c.nested then "/index.mpd".toList else ".mpd".toList)

/-- `ctx->stream` (:912-918) -/
def streamPath (c : Conf) : Text := root c ++ (if c.nested then ['/'] else ['-'])

/-- The names of segments (:570-571) and of initialization segments (:468, :496) -/
def mediaPath (c : Conf) (video : Bool) (time : Nat) : Text := streamPath c ++ dec time ++ (if video then ".m4v".toList else ".m4a".toList)
def initPath (c : Conf) (video : Bool) : Text := streamPath c ++ (if video then "init.m4v".toList else "init.m4a".toList)

end Verif.DashMpd
