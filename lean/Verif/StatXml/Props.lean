import Verif.StatXml.Whole
import Verif.Toolkit.UrlProps
/-
C83: statistics as XML. Whatever a worker holds, the answer stays in its buffers, is as long as announced, and ends in its last buffer. If ids of servers are plain text, the answer is a well-formed document in
which everything is found.
-/
namespace Verif.StatXml

open Verif.Json (dec cstr)
open Spec

/-- The bytes of an answer -/
def Answer.body (a : Answer) : Bytes := a.bufs.flatMap (·.data)

theorem sum_lengths (l : List Buf) : (l.map (·.data.length)).sum = (l.flatMap (·.data)).length := by
  induction l with
  | nil => rfl
  | cons b l ih => rw [List.map_cons, List.sum_cons, List.flatMap_cons, List.length_append, ih]

theorem handler_some (listed : Bool) (sheet : Bytes) (w : World) : ∃ a, handler listed sheet w = some a ∧ a.body = flat (writes listed sheet w) ∧ a.length = a.body.length ∧ a.last + 1 = a.bufs.length ∧
    ∀ b ∈ a.bufs, b.data.length ≤ b.cap := by
  obtain ⟨c, h1, h2, h3, h4⟩ := outputAll_ok (writes listed sheet w) ⟨[], 0⟩ ⟨.inl ⟨rfl, rfl⟩, by simp⟩
  have hne : c.bufs ≠ [] := by
    refine h4 (.inr ⟨lit (xmlDecl ++ nl), ?_, by decide⟩)
    unfold writes
    simp only [List.append_assoc]
    exact List.mem_append_left _ (List.mem_singleton.mpr rfl)
  have hk : c.k + 1 = c.bufs.length := by
    rcases h2.place with ⟨h, -⟩ | h
    · exact absurd h hne
    · exact h
  have hg : ∃ b, c.bufs[c.k]? = some b := ⟨_, List.getElem?_eq_getElem (by omega)⟩
  obtain ⟨b, hb⟩ := hg
  refine ⟨⟨(c.bufs.map (·.data.length)).sum, c.bufs, c.k⟩, ?_, ?_, sum_lengths _, hk, h2.room⟩
  · unfold handler
    rw [h1, Option.bind_some, hb]
  · show c.all = _
    rw [h3]; rfl

/-- C83, memory and length: for every worker, whatever texts sessions have brought, all is written in the buffers, `Content-Length` is the number of bytes sent, and the last buffer is marked as last. -/
theorem C83_answer (listed : Bool) (sheet : Bytes) (w : World) :
    ∃ a, handler listed sheet w = some a ∧ a.length = a.body.length ∧ a.last + 1 = a.bufs.length ∧ ∀ b ∈ a.bufs, b.data.length ≤ b.cap := by
  obtain ⟨a, h1, -, h2⟩ := handler_some listed sheet w
  exact ⟨a, h1, h2⟩

/-- C83, meaning: the answer is a well-formed document that says of the worker, its servers, streams, codecs and sessions what they are. `Sane`: numbers are in range, and texts that are not escaped are plain. -/
theorem C83_says (listed : Bool) (sheet : Bytes) (w : World) (h : Sane w) : ∃ a n, handler listed sheet w = some a ∧ read a.body = some n ∧ Says listed w n := by
  obtain ⟨a, h1, h2, -⟩ := handler_some listed sheet w
  obtain ⟨n, h3, h4⟩ := whole listed sheet w h
  exact ⟨a, n, h1, by rw [h2]; exact h3, h4⟩

/-! Where it fails -/

/-- A worker with one server on which there are these streams -/
def wWorld (id : Bytes) (streams : List Stream) : World :=
  { version := [0x31], rtmpVersion := [0x31], compiler := [0x67], built := [0x4e], pid := 7, msec := 5000, sec := 50, start := 10, naccepted := 3, bwIn := { intlEnd := 60, bandwidth := 100, bytes := 900 }, bwOut := {},
    servers := [[⟨id, [streams]⟩], []] }

/-- A publisher whose timestamp is 2147483648, and that has named its player `<&>` -/
def wClient : Client :=
  { number := 1, addr := [0x61], remote := [0x31], epoch := 2000, flashver := [0x3c, 0x26, 0x3e], pageUrl := [], swfUrl := [0x80], dropped := 0, videoTs := 30, audioTs := 20, currentTime := 2147483648,
    active := true, publishing := true, codec := some ⟨1280, 720, [0x32, 0x35], [0x48], 66, 31, 0, [0x33], [], 2, false, false, 2, 0, 44100⟩ }

def wStream (name : Bytes) (l : List Client) : Stream := { name := name, epoch := 1000, bwIn := { intlEnd := 60, bandwidth := 10 }, bwOut := {}, bwAudio := {}, bwVideo := {}, clients := l, publishing := true, active := true }

/-- `a<b` -/
def wHost : Bytes := [0x61, 0x3c, 0x62]

/-- C83 is false for servers without configured `serverid`: their id is the host of the `tcUrl` of a client (ngx_rtmp_cmd_module.c:160, :181), and it is not escaped. A client that connects to `rtmp://a<b/l` makes
the whole document ill-formed. -/
theorem C83_serverid_violation :
    (Url.parse {} ([0x72, 0x74, 0x6d, 0x70, 0x3a, 0x2f, 0x2f] ++ wHost ++ [0x2f, 0x6c])).map (·.host) = some wHost ∧
    ∃ a, handler true [] (wWorld wHost []) = some a ∧ (read a.body).isNone = true := by
  refine ⟨by decide +kernel, ?_⟩
  obtain ⟨a, h1, h2, -⟩ := handler_some true [] (wWorld wHost [])
  refine ⟨a, h1, ?_⟩
  rw [h2]
  decide +kernel

/-- Timestamps from 2147483648 on (after 24 days) are told as negative numbers (:492). -/
theorem C83_timestamp_violation : ∃ a n, handler true [] (wWorld [0x68] [wStream [0x68, 0x2f, 0x6c, 0x2f, 0x78] [wClient]]) = some a ∧ read a.body = some n ∧
    ((((n.one nServer).bind (·.one nLive)).bind (·.one nStream)).bind (·.one nClient)).bind (·.int nTimestamp) = some (-2147483648) := by
  obtain ⟨a, h1, h2, -⟩ := handler_some true [] (wWorld [0x68] [wStream [0x68, 0x2f, 0x6c, 0x2f, 0x78] [wClient]])
  have h : ((read (flat (writes true [] (wWorld [0x68] [wStream [0x68, 0x2f, 0x6c, 0x2f, 0x78] [wClient]])))).map fun n =>
      ((((n.one nServer).bind (·.one nLive)).bind (·.one nStream)).bind (·.one nClient)).bind (·.int nTimestamp)) = some (some (-2147483648)) := by decide +kernel
  obtain ⟨n, hn, hv⟩ := Option.map_eq_some_iff.mp h
  exact ⟨a, n, h1, by rw [h2]; exact hn, hv⟩

/-- Streams are told by the part behind the last slash: `h/l/x` and `h/m/x`, streams of two applications, are both `x`. -/
theorem C83_name_violation : ∃ a n, handler true [] (wWorld [0x68] [wStream [0x68, 0x2f, 0x6c, 0x2f, 0x78] [], wStream [0x68, 0x2f, 0x6d, 0x2f, 0x78] []]) = some a ∧ read a.body = some n ∧
    ((n.one nServer).bind (·.one nLive)).map (fun v => (v.all nStream).map (·.val nName)) = some [some [0x78], some [0x78]] := by
  obtain ⟨a, h1, h2, -⟩ := handler_some true [] (wWorld [0x68] [wStream [0x68, 0x2f, 0x6c, 0x2f, 0x78] [], wStream [0x68, 0x2f, 0x6d, 0x2f, 0x78] []])
  have h : ((read (flat (writes true [] (wWorld [0x68] [wStream [0x68, 0x2f, 0x6c, 0x2f, 0x78] [], wStream [0x68, 0x2f, 0x6d, 0x2f, 0x78] []])))).map fun n =>
      ((n.one nServer).bind (·.one nLive)).map (fun v => (v.all nStream).map (·.val nName))) = some (some [some [0x78], some [0x78]]) := by decide +kernel
  obtain ⟨n, hn, hv⟩ := Option.map_eq_some_iff.mp h
  exact ⟨a, n, h1, by rw [h2]; exact hn, hv⟩

end Verif.StatXml
