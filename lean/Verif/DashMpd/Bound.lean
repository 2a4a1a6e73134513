import Verif.DashMpd.Read
import Verif.Hls.RestoreLemmas
/- How long the text is, and what is left of it when it is too long -/
namespace Verif.DashMpd
open Verif Verif.Xml
open Verif.HlsRestore (dec decGo_length)
open Verif.Dash (Slot)
open Verif.Mpd (s)

theorem dec_len32 {n : Nat} (h : n < 2 ^ 32) : (dec n).length ≤ 10 := decGo_length _ _ 9 (Nat.lt_trans h (by decide +kernel))
theorem dec_len64 {n : Nat} (h : n < 2 ^ 64) : (dec n).length ≤ 20 := decGo_length _ _ 19 (Nat.lt_trans h (by decide +kernel))

theorem time_len {f : Slot} (h1 : f.timestamp < 2 ^ 32) (h2 : f.duration < 2 ^ 32) : (timeText f).length ≤ 48 := by
  have := dec_len32 h1
  have := dec_len32 h2
  have e1 : "             <S t=\"".toList.length = 19 := by decide
  have e2 : "\" d=\"".toList.length = 5 := by decide
  have e3 : "\"/>\n".toList.length = 4 := by decide
  unfold timeText
  simp only [List.length_append]
  rw [e1, e2, e3]
  generalize (dec f.timestamp).length = a at *
  generalize (dec f.duration).length = b at *
  clear e1 e2 e3
  omega

theorem times_len : ∀ l : List Slot, (∀ f ∈ l, f.timestamp < 2 ^ 32 ∧ f.duration < 2 ^ 32) → (l.flatMap timeText).length ≤ 48 * l.length
  | [], _ => by simp
  | f :: l, h => by
    have h1 := time_len (h f List.mem_cons_self).1 (h f List.mem_cons_self).2
    have h2 := times_len l fun x hx => h x (List.mem_cons_of_mem _ hx)
    rw [List.flatMap_cons, List.length_append, List.length_cons]
    omega

/-- What types and the size of a name say: numbers have 64 bits, a name is at most 255 bytes (NGX_RTMP_MAX_NAME with its zero), a date is `1970-09-28T12:00:00Z`. -/
structure Sized (c : Conf) (i : Info) (start publish : Text) : Prop where
  name : c.name.length ≤ 255
  fraglen : c.fraglen < 2 ^ 63
  start : start.length ≤ 20
  publish : publish.length ≤ 20
  width : i.width < 2 ^ 64
  height : i.height < 2 ^ 64
  fps : i.fps < 2 ^ 64
  videoBandwidth : i.videoBandwidth < 2 ^ 64
  rate : i.rate < 2 ^ 64
  audioBandwidth : i.audioBandwidth < 2 ^ 64

theorem header_len {c : Conf} {i : Info} {start publish : Text} (h : Sized c i start publish) : (headerText c start publish).length ≤ 2000 := by
  have e0 : "<?xml version=\"1.0\"?>\n<MPD\n    type=\"dynamic\"\n    xmlns=\"urn:mpeg:dash:schema:mpd:2011\"\n    availabilityStartTime=\"".toList.length = 115 := by decide +kernel
  have e1 : "\"\n    publishTime=\"".toList.length = 19 := by decide +kernel
  have e2 : "\"\n    minimumUpdatePeriod=\"PT".toList.length = 29 := by decide +kernel
  have e3 : "S\"\n    minBufferTime=\"PT".toList.length = 24 := by decide +kernel
  have e4 : "S\"\n    timeShiftBufferDepth=\"PT".toList.length = 31 := by decide +kernel
  have e5 : "S\"\n    profiles=\"urn:hbbtv:dash:profile:isoff-live:2012,urn:mpeg:dash:profile:isoff-live:2011\"\n    xmlns:xsi=\"http://www.w3.org/2011/XMLSchema-instance\"\n    xsi:schemaLocation=\"urn:mpeg:DASH:schema:MPD:2011 DASH-MPD.xsd\">\n  <Period start=\"PT0S\" id=\"dash\">\n".toList.length = 256 := by decide +kernel
  have h1 : (dec (c.fraglen / 1000)).length ≤ 20 := dec_len64 (by have := h.fraglen; omega)
  have h2 : (dec (c.fraglen / 250 + 1)).length ≤ 20 := dec_len64 (by have := h.fraglen; omega)
  have := h.start
  have := h.publish
  unfold headerText
  simp only [List.length_append]
  rw [e0, e1, e2, e3, e4, e5]
  generalize (dec (c.fraglen / 1000)).length = a at *
  generalize (dec (c.fraglen / 250 + 1)).length = b at *
  clear e0 e1 e2 e3 e4 e5
  omega

theorem prefix_len {c : Conf} (h : c.name.length ≤ 255) : (prefixOf c).length ≤ 256 := by
  unfold prefixOf
  split
  · exact Nat.zero_le _
  · simp only [List.length_append, List.length_cons, List.length_nil]; omega

theorem hex2_len (n : Nat) : (hex2 n).length = 2 := rfl

theorem videoHead_len {c : Conf} {i : Info} {start publish : Text} (h : Sized c i start publish) : (videoHead c i).length ≤ 3000 := by
  have e0 : "    <AdaptationSet\n        id=\"1\"\n        segmentAlignment=\"true\"\n        maxWidth=\"".toList.length = 84 := by decide +kernel
  have e1 : "\"\n        maxHeight=\"".toList.length = 21 := by decide +kernel
  have e2 : "\"\n        maxFrameRate=\"".toList.length = 24 := by decide +kernel
  have e3 : "\">\n      <Representation\n          id=\"".toList.length = 39 := by decide +kernel
  have e4 : "_H264".toList.length = 5 := by decide +kernel
  have e5 : "\"\n          mimeType=\"video/mp4\"\n          codecs=\"avc1.".toList.length = 56 := by decide +kernel
  have e6 : "\"\n          width=\"".toList.length = 19 := by decide +kernel
  have e7 : "\"\n          height=\"".toList.length = 20 := by decide +kernel
  have e8 : "\"\n          frameRate=\"".toList.length = 23 := by decide +kernel
  have e9 : "\"\n          startWithSAP=\"1\"\n          bandwidth=\"".toList.length = 50 := by decide +kernel
  have e10 : "\">\n        <SegmentTemplate\n            timescale=\"1000\"\n            media=\"".toList.length = 76 := by decide +kernel
  have e11 : "$Time$.m4v".toList.length = 10 := by decide +kernel
  have e12 : "\"\n            initialization=\"".toList.length = 30 := by decide +kernel
  have e13 : "init.m4v".toList.length = 8 := by decide +kernel
  have e14 : "\">\n          <SegmentTimeline>\n".toList.length = 31 := by decide +kernel
  have h1 := dec_len64 h.width
  have h2 := dec_len64 h.height
  have h3 := dec_len64 h.fps
  have h4 := dec_len64 h.videoBandwidth
  have := prefix_len h.name
  have := h.name
  unfold videoHead
  simp only [List.length_append, hex2_len]
  rw [e0, e1, e2, e3, e4, e5, e6, e7, e8, e9, e10, e11, e12, e13, e14]
  generalize (dec i.width).length = a at *
  generalize (dec i.height).length = b at *
  generalize (dec i.fps).length = d at *
  generalize (dec i.videoBandwidth).length = e at *
  generalize (prefixOf c).length = p at *
  clear e0 e1 e2 e3 e4 e5 e6 e7 e8 e9 e10 e11 e12 e13 e14
  omega

theorem audioHead_len {c : Conf} {i : Info} {start publish : Text} (h : Sized c i start publish) : (audioHead c i).length ≤ 3000 := by
  have e0 : "    <AdaptationSet\n        id=\"2\"\n        segmentAlignment=\"true\">\n      <AudioChannelConfiguration\n          schemeIdUri=\"urn:mpeg:dash:23003:3:audio_channel_configuration:2011\"\n          value=\"1\"/>\n      <Representation\n          id=\"".toList.length = 237 := by decide +kernel
  have e1 : "_AAC".toList.length = 4 := by decide +kernel
  have e2 : "\"\n          mimeType=\"audio/mp4\"\n          codecs=\"mp4a.".toList.length = 56 := by decide +kernel
  have e3 : "\"\n          audioSamplingRate=\"".toList.length = 31 := by decide +kernel
  have e4 : "\"\n          startWithSAP=\"1\"\n          bandwidth=\"".toList.length = 50 := by decide +kernel
  have e5 : "\">\n        <SegmentTemplate\n            timescale=\"1000\"\n            media=\"".toList.length = 76 := by decide +kernel
  have e6 : "$Time$.m4a".toList.length = 10 := by decide +kernel
  have e7 : "\"\n            initialization=\"".toList.length = 30 := by decide +kernel
  have e8 : "init.m4a".toList.length = 8 := by decide +kernel
  have e9 : "\">\n          <SegmentTimeline>\n".toList.length = 31 := by decide +kernel
  have h1 := dec_len64 h.rate
  have h4 := dec_len64 h.audioBandwidth
  have := prefix_len h.name
  have := h.name
  have h5 : (audioCodec i).length ≤ 4 := by unfold audioCodec; cases i.aac <;> cases i.sbr <;> decide
  unfold audioHead
  simp only [List.length_append]
  rw [e0, e1, e2, e3, e4, e5, e6, e7, e8, e9]
  generalize (dec i.rate).length = a at *
  generalize (dec i.audioBandwidth).length = e at *
  generalize (prefixOf c).length = p at *
  generalize (audioCodec i).length = q at *
  clear e0 e1 e2 e3 e4 e5 e6 e7 e8 e9
  omega

theorem trackFoot_len : trackFoot.length ≤ 200 := by decide +kernel

theorem video_len {c : Conf} {i : Info} {start publish : Text} (h : Sized c i start publish) {l : List Slot} (hl : ∀ f ∈ l, f.timestamp < 2 ^ 32 ∧ f.duration < 2 ^ 32) (hn : l.length ≤ 21000) :
    (videoText c i l).length ≤ bufSize := by
  have := videoHead_len h
  have := times_len l hl
  have := trackFoot_len
  have e : bufSize = 1048576 := by decide
  simp only [videoText, List.length_append, e]
  omega

theorem audio_len {c : Conf} {i : Info} {start publish : Text} (h : Sized c i start publish) {l : List Slot} (hl : ∀ f ∈ l, f.timestamp < 2 ^ 32 ∧ f.duration < 2 ^ 32) (hn : l.length ≤ 21000) :
    (audioText c i l).length ≤ bufSize := by
  have := audioHead_len h
  have := times_len l hl
  have := trackFoot_len
  have e : bufSize = 1048576 := by decide
  simp only [audioText, List.length_append, e]
  omega

theorem playlist_fits {c : Conf} {i : Info} {start publish : Text} (h : Sized c i start publish) (hv ha : Bool) {l : List Slot} (hl : ∀ f ∈ l, f.timestamp < 2 ^ 32 ∧ f.duration < 2 ^ 32) (hn : l.length ≤ 21000) :
    playlist c i start publish hv ha l = headerText c start publish ++ ((if hv then videoText c i l else []) ++ (if ha then audioText c i l else [])) ++ footText := by
  have e : bufSize = 1048576 := by decide
  have h1 : buffered (headerText c start publish) = headerText c start publish := List.take_of_length_le (by have := header_len h; omega)
  have h2 : buffered (videoText c i l) = videoText c i l := List.take_of_length_le (video_len h hl hn)
  have h3 : buffered (audioText c i l) = audioText c i l := List.take_of_length_le (audio_len h hl hn)
  have h4 : buffered footText = footText := List.take_of_length_le (by rw [e]; decide)
  unfold playlist
  rw [h1, h2, h3, h4, List.append_assoc (headerText c start publish)]

end Verif.DashMpd
