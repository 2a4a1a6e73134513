import Verif.TsIn.WriteModel
import Verif.Hls.RestoreModel
/-
Model of HLS output of nginx-ts-module, src/ngx_ts_hls.c and ngx_ts_hls.h.

Files, renaming and memory can be had. `ngx_uint_t` counters (segments, bytes for the bandwidth) do not overflow. A duration is printed with exact
arithmetic, not with a double. Writing a unit need not end (C70), so it has a number of packets after which there is no result yet.
-/
namespace Verif.TsHls
open Verif Verif.TsIn
open Verif.HlsRestore (Text dec fixed3)

/-- What comes of a call: done, `NGX_ERROR`, a division by zero, or more packets than given. -/
inductive R (α : Type) where
  | ok (a : α)
  | error
  | crash
  | more

def R.bind {α β : Type} (r : R α) (f : α → R β) : R β :=
  match r with
  | .ok a => f a
  | .error => .error
  | .crash => .crash
  | .more => .more

/-- `ngx_ts_hls_conf_t` (ngx_ts_hls.h:17-24): times in milliseconds; 0 is no limit of the size -/
structure Conf where
  minSeg : Nat := 5000
  maxSeg : Nat := 10000
  analyze : Nat := 5000
  maxSize : Nat := 16 * 1024 * 1024
  nsegs : Nat := 6

/-- `ngx_ts_hls_segment_t` (ngx_ts_hls.h:27-31) -/
structure Seg where
  id : Nat := 0
  duration : Nat := 0
  size : Nat := 0
  deriving DecidableEq

/-- `ngx_ts_hls_variant_t` (ngx_ts_hls.h:34-52). `opened`: `file.fd` is valid; it is then the file `seg`, and `file.offset` is its size. `disk`: the packets in each
`.ts` file. `cont`: `es->cont` of each PID. `playlists`: all that were written, the last is there. `number` and `multi`: what goes into names (:213-271). -/
structure Var where
  number : Nat
  multi : Bool := false
  opened : Bool := false
  disk : Nat → List Bytes := fun _ => []
  prologue : Option (List Bytes) := none
  bandwidth : Nat := 0
  bwBytes : Nat := 0
  bwDts : Nat := 0
  segs : List Seg
  seg : Nat := 0
  segDts : Nat := 0
  cont : Nat → Nat := fun _ => 0
  playlists : List Text := []

/-- `file.offset` -/
def Var.offset (v : Var) : Nat := (v.disk v.seg).flatten.length

/-- `ngx_ts_hls_update_bandwidth` (:335-364) -/
def updateBandwidth (c : Conf) (v : Var) (bufs : List Bytes) (pts : Nat) : R Var :=
  if v.bandwidth ≠ 0 then .ok v
  else
    let start := if v.bwBytes = 0 then pts else v.bwDts
    let bytes := v.bwBytes + bufs.flatten.length
    let d : Int := (pts : Int) - start
    if (c.analyze * 90 : Nat) ≤ d then
      if d = 0 then .crash else .ok { v with bwDts := start, bwBytes := bytes, bandwidth := bytes * 8 * 90000 / d.toNat }
    else .ok { v with bwDts := start, bwBytes := bytes }

/-! ### Playlists -/

/-- The segments from the oldest on (:454-455, :491-492) -/
def ring (v : Var) : List Seg := (List.range v.segs.length).filterMap fun i => v.segs[(v.seg + i) % v.segs.length]?

/-- What is listed (:457, :494) -/
def listed (v : Var) : List Seg := (ring v).filter fun s => s.duration ≠ 0

/-- The name in the playlist (:497-503), and of the file (:228-234, :652) -/
def nameOf (v : Var) (id : Nat) : Text := (if v.multi then dec v.number ++ ".".toList else []) ++ dec id ++ ".ts".toList

/-- One segment (:494-504) -/
def entry (v : Var) (s : Seg) : Text := "#EXTINF:".toList ++ fixed3 s.duration ++ ",\n".toList ++ nameOf v s.id ++ "\n".toList

/-- `ngx_ts_hls_update_playlist` (:430-518), what is written -/
def playlist (c : Conf) (v : Var) (done : Bool) : Text :=
  "#EXTM3U\n#EXT-X-VERSION:3\n#EXT-X-MEDIA-SEQUENCE:".toList ++ dec (v.seg - v.segs.length) ++ "\n#EXT-X-TARGETDURATION:".toList ++ dec ((c.maxSeg + 999) / 1000) ++
    "\n\n".toList ++ (listed v).flatMap (entry v) ++ (if done then "\n#EXT-X-ENDLIST\n".toList else [])

/-- `len` in `ngx_ts_hls_update_playlist` (:446-474): how much memory is taken -/
def playlistRoom (v : Var) (done : Bool) : Nat :=
  "#EXTM3U\n#EXT-X-VERSION:3\n#EXT-X-MEDIA-SEQUENCE:\n#EXT-X-TARGETDURATION:\n\n".length + 2 * 20 +
    (listed v).length * ("#EXTINF:.xxx,\n.ts\n".length + 2 * 20 + (if v.multi then 20 + 1 else 0)) + (if done then "\n#EXT-X-ENDLIST\n".length else 0)

/-- A variant in the master playlist (:569-570) -/
def variant (v : Var) : Text := "#EXT-X-STREAM-INF:BANDWIDTH=".toList ++ dec v.bandwidth ++ "\n".toList ++ dec v.number ++ ".m3u8\n".toList

/-- `ngx_ts_hls_update_master_playlist` (:521-579): what is written, if anything -/
def master (vars : List Var) : Option Text :=
  if vars.length = 1 then none
  else if vars.any fun v => v.bandwidth = 0 then none
  else some ("#EXTM3U\n".toList ++ vars.flatMap variant)

/-- `len` in `ngx_ts_hls_update_master_playlist` (:542-555) -/
def masterRoom (vars : List Var) : Nat :=
  "#EXTM3U\n".length + vars.length * ("#EXT-X-STREAM-INF:BANDWIDTH=\n".length + 20 + 20 + ".m3u8\n".length)

/-! ### Segments -/

/-- A segment of the ring is written (:121-123, :407-410) -/
def addSeg (v : Var) (s : Seg) : Var := { v with segs := v.segs.set (v.seg % v.segs.length) s, seg := v.seg + 1 }

/-- Whether the segment goes on with this unit (:389-400); `d` is the time since the first unit of it. -/
def goesOn (c : Conf) (v : Var) (video : Bool) (e : Es) (d : Int) : Bool :=
  (d < (c.minSeg * 90 : Nat) || (d < (c.maxSeg * 90 : Nat) && e.video && !e.rand) || (d < (c.maxSeg * 90 : Nat) && !e.video && video)) &&
    (c.maxSize = 0 || v.offset < c.maxSize)

/-- `ngx_ts_hls_close_segment` (:367-424) up to the master playlist; `video` is `var->prog->video`. The second value says whether a segment was closed. -/
def closeSegment (c : Conf) (v : Var) (video : Bool) (e : Es) : R (Var × Bool) :=
  if v.opened = false then .ok ({ v with segDts := e.dts }, false)
  else
    let d : Int := (e.dts : Int) - v.segDts
    if goesOn c v video e d then .ok (v, false)
    else if v.segs.length = 0 then .crash
    else
      let v' := addSeg { v with segDts := e.dts } { id := v.seg, duration := (d % (2 ^ 64 : Nat)).toNat, size := v.offset }
      let v' := { v' with opened := false }
      .ok ({ v' with playlists := v'.playlists ++ [playlist c v' false] }, true)

/-- `ngx_ts_hls_open_segment` (:634-715): the file is emptied, PAT and PMT are written at its start. They are kept from the first time on (:692-706). -/
def openSegment (n : Nat) (v : Var) (P : Prog) : R Var :=
  if v.opened then .ok v
  else
    match v.prologue with
    | some pro => .ok { v with opened := true, disk := fun q => if q = v.seg then pro else v.disk q }
    | none =>
      match writePat n [P], writePmt n P with
      | some a, some m => .ok { v with opened := true, prologue := some (a.1 ++ m.1), disk := fun q => if q = v.seg then a.1 ++ m.1 else v.disk q }
      | _, _ => .more

/-- The end of `ngx_ts_hls_pes_handler` (:319-330): the unit is written at the end of the file. -/
def writeUnit (n : Nat) (v : Var) (P : Prog) (e : Es) (bufs : List Bytes) : R Var :=
  match writePes n P { e with cont := v.cont e.pid } bufs with
  | some r => .ok { v with disk := fun q => if q = v.seg then v.disk q ++ r.1 else v.disk q, cont := fun q => if q = e.pid then r.2 else v.cont q }
  | none => .more

/-- `ngx_ts_hls_pes_handler` (:278-333) for a unit with times, in its variant -/
def unit (n : Nat) (c : Conf) (v : Var) (P : Prog) (e : Es) (bufs : List Bytes) : R (Var × Bool) :=
  (updateBandwidth c v bufs e.pts).bind fun v =>
    (closeSegment c v P.video e).bind fun x =>
      (openSegment n x.1 P).bind fun v =>
        (writeUnit n v P e bufs).bind fun v => .ok (v, x.2)

/-- `ngx_ts_hls_cleanup` (:79-127) for a variant; `dts`: those of the streams of the program then -/
def finish (c : Conf) (v : Var) (dts : List Nat) : R Var :=
  let maxd : Int := dts.foldl (fun (m : Int) (t : Nat) => if m < (t : Int) - v.segDts then (t : Int) - v.segDts else m) 0
  match v.segs[v.seg % v.segs.length]? with
  | none => .crash
  | some old =>
    let v' := addSeg { v with opened := false } { old with id := v.seg, duration := maxd.toNat }
    .ok { v' with playlists := v'.playlists ++ [playlist c v' true] }

/-! ### All programs -/

/-- `ngx_ts_hls_t` (ngx_ts_hls.h:55-67); `masters`: the master playlists that were written -/
structure Hls where
  vars : Option (List Var) := none
  masters : List Text := []

/-- A variant at first (:202-211) -/
def newVar (c : Conf) (multi : Bool) (number : Nat) : Var := { number := number, multi := multi, segs := List.replicate c.nsegs {} }

/-- Calls of the handler: a PAT, and a unit of a program, which is known by its place in `ts->progs` -/
inductive Ev where
  | pat (numbers : List Nat)
  | pes (i : Nat) (P : Prog) (e : Es) (bufs : List Bytes)

/-- `ngx_ts_hls_handler` (:130-146) with `ngx_ts_hls_pat_handler` (:149-275) and `ngx_ts_hls_pes_handler` (:278-333). Memory for no program is not NULL. -/
def handle (n : Nat) (c : Conf) (h : Hls) : Ev → R Hls
  | .pat numbers =>
    match h.vars with
    | some _ => .ok h
    | none => .ok { h with vars := some (numbers.map (newVar c (decide (1 < numbers.length)))) }
  | .pes i P e bufs =>
    if e.ptsf = false then .ok h
    else
      match (h.vars.getD [])[i]? with
      | none => .error
      | some v =>
        (unit n c v P e bufs).bind fun x =>
          let vars := (h.vars.getD []).set i x.1
          .ok { vars := some vars, masters := h.masters ++ (if x.2 then (master vars).toList else []) }

def run (n : Nat) (c : Conf) (h : Hls) : List Ev → R Hls
  | [] => .ok h
  | ev :: evs => (handle n c h ev).bind fun h => run n c h evs

/-! ### Old files -/

/-- `ngx_ts_hls_manage_file` (:743-781): how old a file may get, in seconds; the end of `.tmp` is looked at only up to `.tm` (:766-767). -/
def maxAge (c : Conf) (path : Text) : Nat :=
  let a := if 5 ≤ path.length ∧ path.drop (path.length - 5) = ".m3u8".toList then c.maxSeg * c.nsegs / 1000 else 0
  let a := if 3 ≤ path.length ∧ path.drop (path.length - 3) = ".ts".toList then c.maxSeg * c.nsegs / 500 else a
  if 4 ≤ path.length ∧ (path.drop (path.length - 4)).take 3 = ".tm".toList then 10 else a

/-- Whether a file of this age is deleted (:776-780) -/
def deleted (c : Conf) (path : Text) (age : Int) : Bool := !(age < maxAge c path)

end Verif.TsHls
