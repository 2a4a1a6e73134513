import Verif.DashMpd.Props
/- Cases that meet the hypotheses of C85 -/
namespace Verif.DashMpd
open Verif Verif.Xml
open Verif.Dash (Slot Ordered Light run opOf lastMpd)
open Verif.Mpd (s)

theorem ex_sized (nested : Bool) (name : String) (h : name.toList.length ≤ 255) : Sized (exConf nested name) exInfo exDate exDate :=
  ⟨h, (by decide : 5000 < 2 ^ 63), by decide, by decide, by decide, by decide, by decide, by decide, by decide, by decide⟩

theorem ex_plain : Plain "cam-1".toList := by unfold Plain; decide
theorem ex_date : Plain exDate := by unfold Plain; decide

/-- Two fragments of video and audio -/
example : ∃ doc v a, readMpd (playlist (exConf false "cam-1") exInfo exDate exDate true true exTimes) = some doc ∧ Tells (exConf false "cam-1") exInfo exDate exDate true true exTimes doc v a :=
  C85_reads_partial (ex_sized false "cam-1" (by decide)) ex_plain ex_date ex_date (by decide) true true (by decide) (by decide)

example : (readMpd (playlist (exConf false "cam-1") exInfo exDate exDate true true exTimes)).map (fun d => d.tracks.map fun k => (k.mime, k.rep.times)) =
    some [(s "video/mp4", [(0, 5000), (5000, 5040)]), (s "audio/mp4", [(0, 5000), (5000, 5040)])] := by decide +kernel

/-- Where the files are -/
example : Ordinary "cam-1".toList ∧ mediaPath (exConf false "cam-1") true 5000 = "/tmp/dash/cam-1-5000.m4v".toList ∧ mediaPath (exConf true "cam-1") false 5000 = "/tmp/dash/cam-1/5000.m4a".toList ∧
    playlistPath (exConf true "cam-1") = "/tmp/dash/cam-1/index.mpd".toList ∧ initPath (exConf false "cam-1") true = "/tmp/dash/cam-1-init.m4v".toList := by decide +kernel

example : (readMpd (playlist (exConf false "cam-1") exInfo exDate exDate true true exTimes)).map (fun d => d.tracks.map fun k => mediaAt (exConf false "cam-1") k 5000) =
    some [some "/tmp/dash/cam-1-5000.m4v".toList, some "/tmp/dash/cam-1-5000.m4a".toList] := by decide +kernel

/-- With directories a name can have a dollar or a slash. -/
example : (readMpd (playlist (exConf true "a/b$c") exInfo exDate exDate true false exTimes)).map (fun d => d.tracks.map fun k => mediaAt (exConf true "a/b$c") k 5000) =
    some [some "/tmp/dash/a/b$c/5000.m4v".toList] := by decide +kernel

/-- The stream of C68 -/
example : Ordered Dash.exStream ∧ Light Dash.exCfg Dash.exStream ∧ 0 < Dash.exCfg.fraglen ∧ (∀ x ∈ Dash.exStream, x.2.delay < 2 ^ 32) ∧ Dash.exStream.length < 2 ^ 32 ∧ Dash.exCfg.winfrags ≤ 21000 ∧
    (run Dash.exCfg (Dash.init Dash.blank) (Dash.exStream.map opOf)).out ≠ [] := by decide +kernel

/-- A list that is too long -/
example : readMpd (playlist (exConf false "cam-1") exInfo exDate exDate true false (List.replicate 40000 ⟨0, 2000⟩)) = none :=
  C85_full_violation (ex_sized false "cam-1" (by decide)) ex_plain ex_date ex_date rfl (by rw [List.length_replicate]; decide)

end Verif.DashMpd
