/-
HLS fragments and the window of the playlist: modules/nginx-rtmp-module/hls/ngx_rtmp_hls_module.c.
Durations are numbers of ticks (1/90000 s): the code has them as `double`; rounding of doubles is not part of the model.
-/
namespace Verif.HlsFrag

/-- hls/ngx_rtmp_hls_module.c:36-42: `ngx_rtmp_hls_frag_t`, without `active`, which nobody reads. -/
structure Frag where
  id : Nat := 0
  keyId : Nat := 0
  dur : Nat := 0
  discont : Bool := false
  deriving DecidableEq

inductive Naming where
  | sequential
  | timestamp
  | system
  deriving DecidableEq

/-- hls/ngx_rtmp_hls_module.c:92-117; `win`: winfrags; lengths in milliseconds. -/
structure Cfg where
  fraglen : Nat
  maxFraglen : Nat
  win : Nat
  aligned : Bool := false
  naming : Naming := .sequential
  gran : Nat := 0
  keys : Bool := false
  fragsPerKey : Nat := 0

/-- hls/ngx_rtmp_hls_module.c:482-613: what the playlist says. -/
structure Playlist where
  seq : Nat
  target : Nat
  entries : List Frag
  deriving DecidableEq

/-- A frame as the multiplexer gets it: its time, whether a fragment may start with it, and a name for it. -/
structure Frame where
  ts : Nat
  boundary : Bool
  name : Nat
  deriving DecidableEq

/-- A finished fragment with the time it was opened at, the key it was encrypted with and the video frames in its file. -/
structure Done where
  frag : Frag
  start : Nat
  key : Nat
  frames : List Frame
  deriving DecidableEq

/-- hls/ngx_rtmp_hls_module.c:51-82. `list`: the playlist this publisher wrote, `keyFiles`: the key files on disk. Logs, not in the code: finished fragments (`done`), names of the files that were created or truncated (`opens`), video frames in the open file (`cur`). -/
structure St where
  opened : Bool := false
  frag : Nat := 0
  fragTs : Nat := 0
  nfrags : Nat := 0
  ring : Nat → Frag := fun _ => {}
  keyId : Nat := 0
  keyFrags : Nat := 0
  key : Nat := 0
  keyFiles : Nat → Option Nat := fun _ => none
  list : Option Playlist := none
  done : List Done := []
  opens : List Nat := []
  cur : List Frame := []

/-- What the world does: `noDir`, `noKey`, `noFile`: directory, key file, fragment file cannot be made. -/
inductive Disk where
  | ok
  | noDir
  | noKey
  | noFile
  deriving DecidableEq

/-- `rnd`: the random bytes; `none`: RAND_bytes returns 0 and leaves the key as it is. Its result -1 has the effect of `noKey`. -/
structure Env where
  now : Nat := 0
  rnd : Option Nat := some 1
  disk : Disk := .ok

/-- hls/ngx_rtmp_hls_module.c:346-356: the place of fragment `n` in the ring; `frag` is taken not to reach 2^64. -/
def slot (cfg : Cfg) (st : St) (n : Nat) : Nat := (st.frag + n) % (cfg.win * 2 + 1)

def getFrag (cfg : Cfg) (st : St) (n : Nat) : Frag := st.ring (slot cfg st n)

def setFrag (cfg : Cfg) (st : St) (n : Nat) (f : Frag) : St := { st with ring := fun j => if j = slot cfg st n then f else st.ring j }

/-- hls/ngx_rtmp_hls_module.c:359-373. -/
def nextFrag (cfg : Cfg) (st : St) : St :=
  if st.nfrags = cfg.win then { st with frag := st.frag + 1 } else { st with nfrags := st.nfrags + 1 }

/-- hls/ngx_rtmp_hls_module.c:511-518: `max_frag`; `(ngx_uint_t) (f->duration + .5)` for ticks. -/
def target (m : Nat) : List Frag → Nat
  | [] => m
  | f :: fs => target (if f.dur > m * 90000 then (f.dur + 45000) / 90000 else m) fs

/-- hls/ngx_rtmp_hls_module.c:482-613; the disk is taken not to fail. -/
def playlist (cfg : Cfg) (st : St) : Playlist :=
  let es := (List.range st.nfrags).map (getFrag cfg st)
  ⟨st.frag, target (cfg.fraglen / 1000) es, es⟩

/-- hls/ngx_rtmp_hls_module.c:937-958 and 1017-1020. -/
def fragmentId (cfg : Cfg) (st : St) (ts now : Nat) : Nat :=
  let id := match cfg.naming with
    | .timestamp => ts
    | .system => now
    | .sequential => st.frag + st.nfrags
  if cfg.gran ≠ 0 then id / cfg.gran * cfg.gran else id

/-- hls/ngx_rtmp_hls_module.c:961-983. -/
def closeFragment (cfg : Cfg) (st : St) : St :=
  if st.opened = false then st
  else
    let st1 := nextFrag cfg { st with opened := false, done := st.done ++ [⟨getFrag cfg st st.nfrags, st.fragTs, st.key, st.cur⟩], cur := [] }
    { st1 with list := some (playlist cfg st1) }

/-- hls/ngx_rtmp_hls_module.c:1024-1071: a new key, or the one in use; `frags_per_key - 1` in 64 bits. The flag is false if the function fails here. -/
def newKey (cfg : Cfg) (env : Env) (id : Nat) (st : St) : St × Bool :=
  if cfg.keys = false then (st, true)
  else if st.keyFrags = 0 then
    let key := match env.rnd with
      | some k => k
      | none => st.key
    let st1 := { st with keyFrags := (cfg.fragsPerKey + (2 ^ 64 - 1)) % 2 ^ 64, keyId := id, key := key }
    if env.disk = .noKey then (st1, false)
    else ({ st1 with keyFiles := fun j => if j = id then some key else st.keyFiles j }, true)
  else if cfg.fragsPerKey ≠ 0 then ({ st with keyFrags := st.keyFrags - 1 }, true) else (st, true)

/-- hls/ngx_rtmp_hls_module.c:986-1116. -/
def openFragment (cfg : Cfg) (env : Env) (ts : Nat) (discont : Bool) (st : St) : St :=
  if st.opened = true then st
  else if env.disk = .noDir then st
  else
    let id := fragmentId cfg st ts env.now
    let (st1, ok) := newKey cfg env id st
    if ok = false then st1
    else if env.disk = .noFile then st1
    else
      let st2 := setFrag cfg { st1 with opened := true, opens := st1.opens ++ [id], cur := [] } st1.nfrags { id := id, keyId := st1.keyId, dur := 0, discont := discont }
      { st2 with fragTs := ts }

/-- `(int64_t) (a - b)` for uint64_t. -/
def diff (a b : Nat) : Int :=
  let n : Nat := (a + (2 ^ 64 - b % 2 ^ 64)) % 2 ^ 64
  if n < 2 ^ 63 then (n : Int) else (n : Int) - 2 ^ 64

/-- `a - b` for uint64_t. -/
def sub64 (a b : Nat) : Nat := (a + (2 ^ 64 - b % 2 ^ 64)) % 2 ^ 64

/-- hls/ngx_rtmp_hls_module.c:1724-1737: the duration of the open fragment so far, and whether it has to be cut (`force`; `discont` is 0 exactly when the duration is set). -/
def measure (cfg : Cfg) (ts : Nat) (st : St) : St × Bool × Bool :=
  if st.opened = true then
    let d := diff ts st.fragTs
    if d > (cfg.maxFraglen * 90 : Nat) ∨ d < -90000 then (st, true, true)
    else (setFrag cfg st st.nfrags { getFrag cfg st st.nfrags with dur := sub64 ts st.fragTs }, false, false)
  else (st, false, true)

/-- hls/ngx_rtmp_hls_module.c:1739-1761: may a fragment start here? `none`: division by zero. -/
def slice (cfg : Cfg) (ts : Nat) (boundary : Bool) (st : St) : Option (Bool × St) :=
  if cfg.aligned = false then
    some (boundary && !(st.opened && decide ((getFrag cfg st st.nfrags).dur < cfg.fraglen * 90)), st)
  else
    let len := cfg.fraglen * 90 % 2 ^ 64
    if len = 0 then none
    else
      let same := decide (st.fragTs / len = ts / len)
      if st.opened = true then some (boundary && !same, st)
      else if st.fragTs = 0 ∨ same = true then some (false, { st with fragTs := ts })
      else some (boundary, st)

/-- hls/ngx_rtmp_hls_module.c:1706-1766: `update_fragment` (the flush of buffered audio is in `Adts`). -/
def update (cfg : Cfg) (env : Env) (ts : Nat) (boundary : Bool) (st : St) : Option St :=
  let (st1, force, discont) := measure cfg ts st
  (slice cfg ts boundary st1).map fun (b, st2) =>
    if b = true ∨ force = true then openFragment cfg env ts discont (closeFragment cfg st2) else st2

/-- A video frame: hls/ngx_rtmp_hls_module.c:2284-2298; an audio message, whose frames are buffered and written later: only the cut, :1901; the end of the stream: :1639. -/
inductive Op where
  | video (f : Frame) (env : Env)
  | audio (ts : Nat) (boundary : Bool) (env : Env)
  | close

def step (cfg : Cfg) (st : St) : Op → Option St
  | .video f env => (update cfg env f.ts f.boundary st).map fun st1 => if st1.opened = true then { st1 with cur := st1.cur ++ [f] } else st1
  | .audio ts b env => update cfg env ts b st
  | .close => some (closeFragment cfg st)

def run (cfg : Cfg) : St → List Op → Option St
  | st, [] => some st
  | st, op :: ops => (step cfg st op).bind fun st1 => run cfg st1 ops

/-- hls/ngx_rtmp_hls_module.c:1186 and 1271-1303: the context after `restore_stream` found media sequence `seq` and the fragments `fs`; with `seq = 0` and `fs = []` the context of a new stream. -/
def resume (cfg : Cfg) (seq : Nat) (keyFiles : Nat → Option Nat) (fs : List Frag) : St :=
  fs.foldl (fun st f => nextFrag cfg (setFrag cfg st st.nfrags f)) { frag := seq, keyFiles := keyFiles }

end Verif.HlsFrag
