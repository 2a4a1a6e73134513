import Verif.TsDash.MpdModel
import Verif.Xml.Lemmas
import Verif.TsIn.HlsText
/- The text of the playlist is read as what it was made of. -/
namespace Verif.TsDash
open Verif Verif.TsIn Verif.Xml
open Verif.HlsRestore (dec hex dec_ne decGo decGo_mem)
open Verif.TsHls (number_dec)

theorem plain_dec (n : Nat) : Plain (dec n) := by
  intro c hc
  obtain ⟨k, hk, rfl⟩ := decGo_mem _ _ c hc
  have : ∀ k < 10, Char.ofNat (48 + k) ≠ '"' ∧ Char.ofNat (48 + k) ≠ '<' ∧ Char.ofNat (48 + k) ≠ '&' := by decide
  exact this k hk

theorem plain_hex : ∀ k n, Plain (hex k n)
  | 0, _ => by intro c hc; simp [hex] at hc
  | k + 1, n => by
    intro c hc
    have : ∀ k < 16, HlsRestore.hexDigit k ≠ '"' ∧ HlsRestore.hexDigit k ≠ '<' ∧ HlsRestore.hexDigit k ≠ '&' := by decide
    rcases List.mem_append.1 hc with h | h
    · exact plain_hex k _ c h
    · rw [List.mem_singleton.1 h]; exact this _ (Nat.mod_lt _ (by decide))

theorem _root_.Verif.Xml.Plain.app {a b : Text} (ha : Plain a) (hb : Plain b) : Plain (a ++ b) := fun c hc => (List.mem_append.1 hc).elim (ha c) (hb c)

theorem plain_codec (r : Rep) : Plain (codecOf r) := by
  unfold codecOf
  have h1 : Plain "avc1.".toList := by unfold Plain; decide
  have h2 : Plain "mp4a.40.".toList := by unfold Plain; decide
  have h3 : Plain "mp4".toList := by unfold Plain; decide
  have h4 : Plain ['v'] := by unfold Plain; decide
  have h5 : Plain ['a'] := by unfold Plain; decide
  have h6 : Plain ['.'] := by unfold Plain; decide
  split
  · exact ((h1.app (plain_hex _ _)).app (plain_hex _ _)).app (plain_hex _ _)
  · split
    · exact h2.app (plain_dec _)
    · refine ((h3.app ?_).app h6).app (plain_hex _ _)
      split
      · exact h4
      · exact h5

/-! ### Tokens -/

open Verif.Mpd (s)

def entryToks (x : Seg) : List Tok := if x.duration = 0 then [] else [.opens (s "S"), .attr (s "t") (dec x.start), .attr (s "d") (dec x.duration), .empty]

theorem lex_entry (x : Seg) : Lexes .content (entryText x) .content (entryToks x) := by
  unfold entryText entryToks
  split
  · rfl
  · have e1 : "\" d=\"".toList = '"' :: " d=\"".toList := by decide
    have e2 : "\"/>\n".toList = '"' :: "/>\n".toList := by decide
    rw [e1, e2]
    have h1 : Lexes .content "            <S t=\"".toList (.value (s "t") []) [.opens (s "S")] := by unfold Lexes; decide +kernel
    have h2 : Lexes .after " d=\"".toList (.value (s "d") []) [] := by unfold Lexes; decide +kernel
    have h3 : Lexes .after "/>\n".toList .content [.empty] := by unfold Lexes; decide +kernel
    exact (h1.value (plain_dec _) h2).value (plain_dec _) h3

def repToks (x : Ent) : List Tok :=
  [.opens (s "Representation"), .attr (s "id") (dec x.pid), .attr (s "codecs") (codecOf x.rep), .attr (s "bandwidth") (dec x.rep.bandwidth), .ends, .opens (s "SegmentTemplate"),
    .attr (s "timescale") (s "90000"), .attr (s "media") (s "$RepresentationID$.$Time$.mp4"), .attr (s "initialization") (s "$RepresentationID$.init.mp4"), .ends, .opens (s "SegmentTimeline"), .ends] ++
  (ringOf x.rep).flatMap entryToks ++ [.closes (s "SegmentTimeline"), .closes (s "SegmentTemplate"), .closes (s "Representation")]

theorem lex_rep (x : Ent) : Lexes .content (repText x) .content (repToks x) := by
  unfold repText repToks
  have e1 : "\"\n          codecs=\"".toList = '"' :: "\n          codecs=\"".toList := by decide
  have e2 : "\"\n          bandwidth=\"".toList = '"' :: "\n          bandwidth=\"".toList := by decide
  have e3 : "\">\n        <SegmentTemplate\n            timescale=\"90000\"\n            media=\"$RepresentationID$.$Time$.mp4\"\n            initialization=\"$RepresentationID$.init.mp4\">\n          <SegmentTimeline>\n".toList =
    '"' :: ">\n        <SegmentTemplate\n            timescale=\"90000\"\n            media=\"$RepresentationID$.$Time$.mp4\"\n            initialization=\"$RepresentationID$.init.mp4\">\n          <SegmentTimeline>\n".toList := by decide +kernel
  rw [e1, e2, e3]
  have h1 : Lexes .content "      <Representation\n          id=\"".toList (.value (s "id") []) [.opens (s "Representation")] := by unfold Lexes; decide +kernel
  have h2 : Lexes .after "\n          codecs=\"".toList (.value (s "codecs") []) [] := by unfold Lexes; decide +kernel
  have h3 : Lexes .after "\n          bandwidth=\"".toList (.value (s "bandwidth") []) [] := by unfold Lexes; decide +kernel
  have h4 : Lexes .after ">\n        <SegmentTemplate\n            timescale=\"90000\"\n            media=\"$RepresentationID$.$Time$.mp4\"\n            initialization=\"$RepresentationID$.init.mp4\">\n          <SegmentTimeline>\n".toList
    .content [.ends, .opens (s "SegmentTemplate"), .attr (s "timescale") (s "90000"), .attr (s "media") (s "$RepresentationID$.$Time$.mp4"), .attr (s "initialization") (s "$RepresentationID$.init.mp4"), .ends,
      .opens (s "SegmentTimeline"), .ends] := by unfold Lexes; decide +kernel
  have h5 : Lexes .content "          </SegmentTimeline>\n        </SegmentTemplate>\n      </Representation>\n".toList .content [.closes (s "SegmentTimeline"), .closes (s "SegmentTemplate"), .closes (s "Representation")] := by
    unfold Lexes; decide +kernel
  exact ((((h1.value (plain_dec _) h2).value (plain_codec _) h3).value (plain_dec _) h4).app (Lexes.flat _ _ _ fun y _ => lex_entry y)).app h5

def setToks (x : ReSet) : List Tok :=
  [.opens (s "AdaptationSet"), .attr (s "segmentAlignment") (s "true"), .attr (s "mimeType") (if x.video then s "video/mp4" else s "audio/mp4"), .ends] ++ x.ents.flatMap repToks ++ [.closes (s "AdaptationSet")]

theorem lex_set (x : ReSet) : Lexes .content (setText x) .content (setToks x) := by
  unfold setText setToks
  have h1 : ∀ v : Bool, Lexes .content ("    <AdaptationSet\n        segmentAlignment=\"true\"\n        mimeType=\"".toList ++ (if v then "video".toList else "audio".toList) ++ "/mp4\">\n".toList) .content
    [.opens (s "AdaptationSet"), .attr (s "segmentAlignment") (s "true"), .attr (s "mimeType") (if v then s "video/mp4" else s "audio/mp4"), .ends] := by unfold Lexes; decide +kernel
  have h2 : Lexes .content "    </AdaptationSet>\n".toList .content [.closes (s "AdaptationSet")] := by unfold Lexes; decide +kernel
  exact ((h1 x.video).app (Lexes.flat _ _ _ fun y _ => lex_rep y)).app h2

def mpdToks (c : Conf) (start publish : Text) (sets : List ReSet) : List Tok :=
  [.opens (s "MPD"), .attr (s "xmlns:xsi") (s "http://www.w3.org/2001/XMLSchema-instance"), .attr (s "xmlns") (s "urn:mpeg:DASH:schema:MPD:2011"),
    .attr (s "xsi:schemaLocation") (s "urn:mpeg:DASH:schema:MPD:2011 DASH-MPD.xsd"), .attr (s "type") (s "dynamic"), .attr (s "availabilityStartTime") start, .attr (s "publishTime") publish,
    .attr (s "minimumUpdatePeriod") (s "PT" ++ dec (c.minSeg / 1000) ++ s "S"), .attr (s "minBufferTime") (s "PT" ++ dec (c.minSeg / 1000) ++ s "S"),
    .attr (s "timeShiftBufferDepth") (s "PT" ++ dec (2 * (c.minSeg / 1000) + c.maxSeg / 1000 + 1) ++ s "S"),
    .attr (s "profiles") (s "urn:hbbtv:dash:profile:isoff-live:2012,urn:mpeg:dash:profile:isoff-live:2011"), .ends, .opens (s "Period"), .attr (s "id") (s "0"), .attr (s "start") (s "PT0S"), .ends] ++
  sets.flatMap setToks ++ [.closes (s "Period"), .closes (s "MPD")]

theorem lex_mpd (c : Conf) (start publish : Text) (sets : List ReSet) (h1 : Plain start) (h2 : Plain publish) : Lexes .start (mpdText c start publish sets) .content (mpdToks c start publish sets) := by
  unfold mpdText mpdToks
  have e1 : "\"\n    publishTime=\"".toList = '"' :: "\n    publishTime=\"".toList := by decide
  have e2 : "\"\n    minimumUpdatePeriod=\"PT".toList = '"' :: "\n    minimumUpdatePeriod=\"PT".toList := by decide
  have e3 : "S\"\n    minBufferTime=\"PT".toList = s "S" ++ '"' :: "\n    minBufferTime=\"PT".toList := by decide
  have e4 : "S\"\n    timeShiftBufferDepth=\"PT".toList = s "S" ++ '"' :: "\n    timeShiftBufferDepth=\"PT".toList := by decide
  have e5 : "S\"\n    profiles=\"urn:hbbtv:dash:profile:isoff-live:2012,urn:mpeg:dash:profile:isoff-live:2011\">\n  <Period\n      id=\"0\"\n      start=\"PT0S\">\n".toList =
    s "S" ++ '"' :: "\n    profiles=\"urn:hbbtv:dash:profile:isoff-live:2012,urn:mpeg:dash:profile:isoff-live:2011\">\n  <Period\n      id=\"0\"\n      start=\"PT0S\">\n".toList := by decide +kernel
  rw [e1, e2, e3, e4, e5]
  have l0 : Lexes .start "<?xml version=\"1.0\"?>\n<MPD\n    xmlns:xsi=\"http://www.w3.org/2001/XMLSchema-instance\"\n    xmlns=\"urn:mpeg:DASH:schema:MPD:2011\"\n    xsi:schemaLocation=\"urn:mpeg:DASH:schema:MPD:2011 DASH-MPD.xsd\"\n    type=\"dynamic\"\n    availabilityStartTime=\"".toList
    (.value (s "availabilityStartTime") []) [.opens (s "MPD"), .attr (s "xmlns:xsi") (s "http://www.w3.org/2001/XMLSchema-instance"), .attr (s "xmlns") (s "urn:mpeg:DASH:schema:MPD:2011"),
      .attr (s "xsi:schemaLocation") (s "urn:mpeg:DASH:schema:MPD:2011 DASH-MPD.xsd"), .attr (s "type") (s "dynamic")] := by unfold Lexes; decide +kernel
  have l1 : Lexes .after "\n    publishTime=\"".toList (.value (s "publishTime") []) [] := by unfold Lexes; decide +kernel
  have l2 : Lexes .after "\n    minimumUpdatePeriod=\"PT".toList (.value (s "minimumUpdatePeriod") (s "PT").reverse) [] := by unfold Lexes; decide +kernel
  have l3 : Lexes .after "\n    minBufferTime=\"PT".toList (.value (s "minBufferTime") (s "PT").reverse) [] := by unfold Lexes; decide +kernel
  have l4 : Lexes .after "\n    timeShiftBufferDepth=\"PT".toList (.value (s "timeShiftBufferDepth") (s "PT").reverse) [] := by unfold Lexes; decide +kernel
  have l5 : Lexes .after "\n    profiles=\"urn:hbbtv:dash:profile:isoff-live:2012,urn:mpeg:dash:profile:isoff-live:2011\">\n  <Period\n      id=\"0\"\n      start=\"PT0S\">\n".toList .content
    [.attr (s "profiles") (s "urn:hbbtv:dash:profile:isoff-live:2012,urn:mpeg:dash:profile:isoff-live:2011"), .ends, .opens (s "Period"), .attr (s "id") (s "0"), .attr (s "start") (s "PT0S"), .ends] := by
    unfold Lexes; decide +kernel
  have l6 : Lexes .content "  </Period>\n</MPD>\n".toList .content [.closes (s "Period"), .closes (s "MPD")] := by unfold Lexes; decide +kernel
  have hS : Plain (s "S") := by unfold Plain; decide
  exact (((((((l0.value h1 l1).value h2 l2).value' (plain_dec _) hS l3).value' (plain_dec _) hS l4).value' (plain_dec _) hS l5).app (Lexes.flat _ _ _ fun y _ => lex_set y)).app l6)

/-! ### Elements -/

def entryNodes (x : Seg) : List Node := if x.duration = 0 then [] else [.el (s "S") [(s "t", dec x.start), (s "d", dec x.duration)] []]

def repNode (x : Ent) : Node :=
  .el (s "Representation") [(s "id", dec x.pid), (s "codecs", codecOf x.rep), (s "bandwidth", dec x.rep.bandwidth)]
    [.el (s "SegmentTemplate") [(s "timescale", s "90000"), (s "media", s "$RepresentationID$.$Time$.mp4"), (s "initialization", s "$RepresentationID$.init.mp4")]
      [.el (s "SegmentTimeline") [] ((ringOf x.rep).flatMap entryNodes)]]

def setNode (x : ReSet) : Node :=
  .el (s "AdaptationSet") [(s "segmentAlignment", s "true"), (s "mimeType", if x.video then s "video/mp4" else s "audio/mp4")] (x.ents.flatMap fun y => [repNode y])

def mpdNode (c : Conf) (start publish : Text) (sets : List ReSet) : Node :=
  .el (s "MPD") [(s "xmlns:xsi", s "http://www.w3.org/2001/XMLSchema-instance"), (s "xmlns", s "urn:mpeg:DASH:schema:MPD:2011"), (s "xsi:schemaLocation", s "urn:mpeg:DASH:schema:MPD:2011 DASH-MPD.xsd"),
    (s "type", s "dynamic"), (s "availabilityStartTime", start), (s "publishTime", publish), (s "minimumUpdatePeriod", s "PT" ++ dec (c.minSeg / 1000) ++ s "S"),
    (s "minBufferTime", s "PT" ++ dec (c.minSeg / 1000) ++ s "S"), (s "timeShiftBufferDepth", s "PT" ++ dec (2 * (c.minSeg / 1000) + c.maxSeg / 1000 + 1) ++ s "S"),
    (s "profiles", s "urn:hbbtv:dash:profile:isoff-live:2012,urn:mpeg:dash:profile:isoff-live:2011")]
    [.el (s "Period") [(s "id", s "0"), (s "start", s "PT0S")] (sets.flatMap fun y => [setNode y])]

theorem grows_entry (x : Seg) : Grows (entryToks x) (entryNodes x) := by
  intro f fs root
  unfold entryToks entryNodes
  split
  · simp [growAll]
  · rfl

theorem grows_rep (x : Ent) : Grows (repToks x) [repNode x] := by
  intro f fs root
  unfold repToks
  rw [growAll_append, growAll_append]
  have h1 : ∀ a b d, growAll ⟨f :: fs, root⟩ [.opens (s "Representation"), .attr (s "id") a, .attr (s "codecs") b, .attr (s "bandwidth") d, .ends, .opens (s "SegmentTemplate"),
    .attr (s "timescale") (s "90000"), .attr (s "media") (s "$RepresentationID$.$Time$.mp4"), .attr (s "initialization") (s "$RepresentationID$.init.mp4"), .ends, .opens (s "SegmentTimeline"), .ends] =
    some ⟨[⟨s "SegmentTimeline", [], []⟩, ⟨s "SegmentTemplate", [(s "timescale", s "90000"), (s "media", s "$RepresentationID$.$Time$.mp4"), (s "initialization", s "$RepresentationID$.init.mp4")], []⟩,
      ⟨s "Representation", [(s "id", a), (s "codecs", b), (s "bandwidth", d)], []⟩] ++ f :: fs, root⟩ := fun _ _ _ => rfl
  rw [h1, Option.bind_some]
  show ((growAll ⟨_ :: _, _⟩ _).bind _) = _
  rw [Grows.flat entryToks entryNodes _ (fun y _ => grows_entry y), Option.bind_some, List.nil_append]
  rfl

theorem grows_set (x : ReSet) : Grows (setToks x) [setNode x] := by
  intro f fs root
  unfold setToks
  rw [growAll_append, growAll_append]
  have h1 : ∀ a, growAll ⟨f :: fs, root⟩ [.opens (s "AdaptationSet"), .attr (s "segmentAlignment") (s "true"), .attr (s "mimeType") a, .ends] =
    some ⟨⟨s "AdaptationSet", [(s "segmentAlignment", s "true"), (s "mimeType", a)], []⟩ :: f :: fs, root⟩ := fun _ => rfl
  rw [h1, Option.bind_some, Grows.flat repToks (fun y => [repNode y]) _ (fun y _ => grows_rep y), Option.bind_some, List.nil_append]
  rfl

theorem read_mpd (c : Conf) (start publish : Text) (sets : List ReSet) (h1 : Plain start) (h2 : Plain publish) : Xml.read (mpdText c start publish sets) = some (mpdNode c start publish sets) := by
  have h := lex_mpd c start publish sets h1 h2
  unfold Lexes at h
  unfold Xml.read
  rw [h, Option.bind_some]
  show (growAll {} (mpdToks c start publish sets)).bind _ = _
  unfold mpdToks
  rw [growAll_append, growAll_append]
  have h3 : ∀ a b d e g, growAll {} [.opens (s "MPD"), .attr (s "xmlns:xsi") (s "http://www.w3.org/2001/XMLSchema-instance"), .attr (s "xmlns") (s "urn:mpeg:DASH:schema:MPD:2011"),
    .attr (s "xsi:schemaLocation") (s "urn:mpeg:DASH:schema:MPD:2011 DASH-MPD.xsd"), .attr (s "type") (s "dynamic"), .attr (s "availabilityStartTime") a, .attr (s "publishTime") b,
    .attr (s "minimumUpdatePeriod") d, .attr (s "minBufferTime") e, .attr (s "timeShiftBufferDepth") g,
    .attr (s "profiles") (s "urn:hbbtv:dash:profile:isoff-live:2012,urn:mpeg:dash:profile:isoff-live:2011"), .ends, .opens (s "Period"), .attr (s "id") (s "0"), .attr (s "start") (s "PT0S"), .ends] =
    some ⟨[⟨s "Period", [(s "id", s "0"), (s "start", s "PT0S")], []⟩, ⟨s "MPD", [(s "xmlns:xsi", s "http://www.w3.org/2001/XMLSchema-instance"), (s "xmlns", s "urn:mpeg:DASH:schema:MPD:2011"),
      (s "xsi:schemaLocation", s "urn:mpeg:DASH:schema:MPD:2011 DASH-MPD.xsd"), (s "type", s "dynamic"), (s "availabilityStartTime", a), (s "publishTime", b), (s "minimumUpdatePeriod", d),
      (s "minBufferTime", e), (s "timeShiftBufferDepth", g), (s "profiles", s "urn:hbbtv:dash:profile:isoff-live:2012,urn:mpeg:dash:profile:isoff-live:2011")], []⟩], none⟩ := fun _ _ _ _ _ => rfl
  rw [h3, Option.bind_some, Grows.flat setToks (fun y => [setNode y]) _ (fun y _ => grows_set y), Option.bind_some, List.nil_append]
  rfl

end Verif.TsDash
