import Verif.Model.Registry
import Verif.Go.Fmt

/-! Go runtime statistics as metrics: /repo/runtime.go, runtime_cgo.go, runtime_gccpufraction.go and debug.go.

`runtime.ReadMemStats`, `debug.ReadGCStats`, `numCgoCall`, `runtime.NumGoroutine` and the thread profile are inputs. The loops
`CaptureRuntimeMemStats` and `CaptureDebugGCStats` (runtime.go:59-63, debug.go:26-30) are sequences of captures. -/

namespace GoMetrics

/-- The fields of the global `runtimeMetrics` (runtime.go:12-46). -/
inductive RtField where
  | alloc | buckHashSys | debugGC | enableGC | frees | heapAlloc | heapIdle | heapInuse | heapObjects | heapReleased | heapSys | lastGC
  | lookups | mallocs | mCacheInuse | mCacheSys | mSpanInuse | mSpanSys | nextGC | numGC | gcCPUFraction | pauseNs | pauseTotalNs
  | stackInuse | stackSys | sys | totalAlloc | numCgoCall | numGoroutine | numThread | readMemStats
  deriving DecidableEq

/-- The fields of `runtime.MemStats` that are read. `pauseNs` has 256 elements; the numbers used as indices are shown to be smaller. -/
structure MemStats where
  alloc : UInt64 := 0
  buckHashSys : UInt64 := 0
  debugGC : Bool := false
  enableGC : Bool := true
  frees : UInt64 := 0
  heapAlloc : UInt64 := 0
  heapIdle : UInt64 := 0
  heapInuse : UInt64 := 0
  heapObjects : UInt64 := 0
  heapReleased : UInt64 := 0
  heapSys : UInt64 := 0
  lastGC : UInt64 := 0
  lookups : UInt64 := 0
  mallocs : UInt64 := 0
  mCacheInuse : UInt64 := 0
  mCacheSys : UInt64 := 0
  mSpanInuse : UInt64 := 0
  mSpanSys : UInt64 := 0
  nextGC : UInt64 := 0
  numGC : UInt32 := 0
  gcCPUFraction : FloatBits := 0
  pauseNs : Nat → UInt64 := fun _ => 0
  pauseTotalNs : UInt64 := 0
  stackInuse : UInt64 := 0
  stackSys : UInt64 := 0
  sys : UInt64 := 0
  totalAlloc : UInt64 := 0

/-- What one capture reads: the time before (runtime.go:74), the statistics (75), and lines 138, 142, 144. -/
structure RtInput where
  t : Instant := 0
  stats : MemStats
  numCgoCall : Int64 := 0
  numGoroutine : Int64 := 0
  numThread : Int64 := 0

/-- The globals kept from one capture to the next (runtime.go:47-51), all zero at first. -/
structure RtVars where
  frees : UInt64 := 0
  lookups : UInt64 := 0
  mallocs : UInt64 := 0
  numGC : UInt32 := 0
  numCgoCalls : Int64 := 0

/-- `for ; i < n; i++ { … [i] … }`: the values of `i` (`n ≤ 256`, so `i++` does not wrap). -/
def loopFrom (i n : UInt32) : List Nat := List.range' i.toNat (n.toNat - i.toNat)

/-- runtime.go:110-126: the indices into `PauseNs`, in the order of the calls of `Update`. -/
def pauseIndices (numGC newNumGC : UInt32) : List Nat :=
  let i := numGC % 256
  let ii := newNumGC % 256
  if newNumGC - numGC ≥ 256 then loopFrom 0 256
  else
    let first := if i > ii then loopFrom i 256 else []
    let i := if i > ii then 0 else i
    first ++ loopFrom i ii

variable {F : Type}

/-- runtime.go:76-144: the calls made on the fields of `runtimeMetrics`, in order. -/
def rtUpdates (v : RtVars) (x : RtInput) : List (RtField × Call F) :=
  let m := x.stats
  [(.readMemStats, .updateSince x.t),
   (.alloc, .update m.alloc.toInt64),
   (.buckHashSys, .update m.buckHashSys.toInt64),
   (.debugGC, .update (if m.debugGC then 1 else 0)),
   (.enableGC, .update (if m.enableGC then 1 else 0)),
   (.frees, .update (m.frees - v.frees).toInt64),
   (.heapAlloc, .update m.heapAlloc.toInt64),
   (.heapIdle, .update m.heapIdle.toInt64),
   (.heapInuse, .update m.heapInuse.toInt64),
   (.heapObjects, .update m.heapObjects.toInt64),
   (.heapReleased, .update m.heapReleased.toInt64),
   (.heapSys, .update m.heapSys.toInt64),
   (.lastGC, .update m.lastGC.toInt64),
   (.lookups, .update (m.lookups - v.lookups).toInt64),
   (.mallocs, .update (m.mallocs - v.mallocs).toInt64),
   (.mCacheInuse, .update m.mCacheInuse.toInt64),
   (.mCacheSys, .update m.mCacheSys.toInt64),
   (.mSpanInuse, .update m.mSpanInuse.toInt64),
   (.mSpanSys, .update m.mSpanSys.toInt64),
   (.nextGC, .update m.nextGC.toInt64),
   (.numGC, .update (m.numGC - v.numGC).toUInt64.toInt64),
   (.gcCPUFraction, .updateF m.gcCPUFraction)] ++
  (pauseIndices v.numGC m.numGC).map (fun i => (.pauseNs, .update (m.pauseNs i).toInt64)) ++
  [(.pauseTotalNs, .update m.pauseTotalNs.toInt64),
   (.stackInuse, .update m.stackInuse.toInt64),
   (.stackSys, .update m.stackSys.toInt64),
   (.sys, .update m.sys.toInt64),
   (.totalAlloc, .update m.totalAlloc.toInt64),
   (.numCgoCall, .update (x.numCgoCall - v.numCgoCalls)),
   (.numGoroutine, .update x.numGoroutine),
   (.numThread, .update x.numThread)]

/-- runtime.go:127-130, 140. -/
def rtAfter (x : RtInput) : RtVars :=
  { frees := x.stats.frees, lookups := x.stats.lookups, mallocs := x.stats.mallocs, numGC := x.stats.numGC, numCgoCalls := x.numCgoCall }

/-- The calls of several captures (runtime.go:59-63). -/
def rtCaptures (v : RtVars) : List RtInput → List (RtField × Call F)
  | [] => []
  | x :: xs => rtUpdates v x ++ rtCaptures (rtAfter x) xs

/-- The fields of the global `debugMetrics` (debug.go:10-19). -/
inductive DbgField where
  | lastGC | numGC | pause | pauseTotal | readGCStats
  deriving DecidableEq

/-- What one debug capture reads: the time before (debug.go:42), and of `debug.GCStats` (43): `LastGC` as a time (compared with `!=`) and in
nanoseconds, and the rest. `pause`: latest first. -/
structure DbgInput where
  t : Instant := 0
  lastGC : Instant := 0
  numGC : Int64 := 0
  pause : List Int64 := []
  pauseTotal : Int64 := 0

/-- debug.go:44-52: the calls made on the fields of `debugMetrics`; `prev` is `gcStats.LastGC` of the previous capture (none: the zero time, which
`ReadGCStats` never stores). -/
def dbgUpdates (prev : Option Instant) (x : DbgInput) : List (DbgField × Call F) :=
  [(.readGCStats, .updateSince x.t),
   (.lastGC, .update (Int64.ofInt x.lastGC)),
   (.numGC, .update x.numGC)] ++
  (if prev ≠ some x.lastGC then match x.pause with
    | d :: _ => [(.pause, .update d)]
    | [] => [] else []) ++
  [(.pauseTotal, .update x.pauseTotal)]

/-- The calls of several captures (debug.go:26-30). -/
def dbgCaptures (prev : Option Instant) : List DbgInput → List (DbgField × Call F)
  | [] => []
  | x :: xs => dbgUpdates prev x ++ dbgCaptures (some x.lastGC) xs

/-! ### Registration -/

/-- A global struct of metrics, its fields nil at first, and the `sync.Once` guarding it (runtime.go:12-46, 54; debug.go:10-21). -/
structure Globals (K : Type) where
  done : Bool := false
  metrics : K → Option Ref := fun _ => none

variable [GoFloat F] [GoSqrt F] [GoExp F] {K : Type} [DecidableEq K]

/-- `x.A = …; x.B = …; …` (runtime.go:152-182, debug.go:60-65). -/
def assignFields (new : K → Act F Ref) : List K → (K → Option Ref) → Act F (K → Option Ref)
  | [], m => return m
  | k :: ks, m => do assignFields new ks (Function.update m k (some (← new k)))

/-- `r.Register("…", x.A); …`, the result being ignored (runtime.go:184-214, debug.go:67-72). -/
def registerFields (env : Env F) (g : Reg) (m : K → Option Ref) : List (String × K) → Act F Unit
  | [] => return ()
  | (name, k) :: l => do
    let _ ← regCall env g (.register (bytes name) (match m k with | some r => .obj r | none => .other))
    registerFields env g m l

/-- `once.Do(func() { … })` around both. -/
def registerOnce (env : Env F) (g : Reg) (new : K → Act F Ref) (fields : List K) (names : List (String × K)) (s : Globals K) : Act F (Globals K) :=
  if s.done then return s
  else do
    let m ← assignFields new fields s.metrics
    registerFields env g m names
    return { done := true, metrics := m }

/-- runtime.go:152-182. -/
def rtNew (env : Env F) : RtField → Act F Ref
  | .gcCPUFraction => construct env .gaugeF
  | .pauseNs => do construct env (.hist (← construct env (.exp 1028 (GoFloat.lit (15 / 1000)))))
  | .readMemStats => construct env .timer
  | _ => construct env .gauge

def rtFields : List RtField :=
  [.alloc, .buckHashSys, .debugGC, .enableGC, .frees, .heapAlloc, .heapIdle, .heapInuse, .heapObjects, .heapReleased, .heapSys, .lastGC,
   .lookups, .mallocs, .mCacheInuse, .mCacheSys, .mSpanInuse, .mSpanSys, .nextGC, .numGC, .gcCPUFraction, .pauseNs, .pauseTotalNs,
   .stackInuse, .stackSys, .sys, .totalAlloc, .numCgoCall, .numGoroutine, .numThread, .readMemStats]

/-- runtime.go:184-214. -/
def rtNames : List (String × RtField) :=
  [("runtime.MemStats.Alloc", .alloc),
   ("runtime.MemStats.BuckHashSys", .buckHashSys),
   ("runtime.MemStats.DebugGC", .debugGC),
   ("runtime.MemStats.EnableGC", .enableGC),
   ("runtime.MemStats.Frees", .frees),
   ("runtime.MemStats.HeapAlloc", .heapAlloc),
   ("runtime.MemStats.HeapIdle", .heapIdle),
   ("runtime.MemStats.HeapInuse", .heapInuse),
   ("runtime.MemStats.HeapObjects", .heapObjects),
   ("runtime.MemStats.HeapReleased", .heapReleased),
   ("runtime.MemStats.HeapSys", .heapSys),
   ("runtime.MemStats.LastGC", .lastGC),
   ("runtime.MemStats.Lookups", .lookups),
   ("runtime.MemStats.Mallocs", .mallocs),
   ("runtime.MemStats.MCacheInuse", .mCacheInuse),
   ("runtime.MemStats.MCacheSys", .mCacheSys),
   ("runtime.MemStats.MSpanInuse", .mSpanInuse),
   ("runtime.MemStats.MSpanSys", .mSpanSys),
   ("runtime.MemStats.NextGC", .nextGC),
   ("runtime.MemStats.NumGC", .numGC),
   ("runtime.MemStats.GCCPUFraction", .gcCPUFraction),
   ("runtime.MemStats.PauseNs", .pauseNs),
   ("runtime.MemStats.PauseTotalNs", .pauseTotalNs),
   ("runtime.MemStats.StackInuse", .stackInuse),
   ("runtime.MemStats.StackSys", .stackSys),
   ("runtime.MemStats.Sys", .sys),
   ("runtime.MemStats.TotalAlloc", .totalAlloc),
   ("runtime.NumCgoCall", .numCgoCall),
   ("runtime.NumGoroutine", .numGoroutine),
   ("runtime.NumThread", .numThread),
   ("runtime.ReadMemStats", .readMemStats)]

/-- runtime.go:150-216 `RegisterRuntimeMemStats`. -/
def registerRuntime (env : Env F) (g : Reg) (s : Globals RtField) : Act F (Globals RtField) := registerOnce env g (rtNew env) rtFields rtNames s

/-- debug.go:60-65. -/
def dbgNew (env : Env F) : DbgField → Act F Ref
  | .pause => do construct env (.hist (← construct env (.exp 1028 (GoFloat.lit (15 / 1000)))))
  | .readGCStats => construct env .timer
  | _ => construct env .gauge

def dbgFields : List DbgField := [.lastGC, .numGC, .pause, .pauseTotal, .readGCStats]

/-- debug.go:67-72. -/
def dbgNames : List (String × DbgField) :=
  [("debug.GCStats.LastGC", .lastGC),
   ("debug.GCStats.NumGC", .numGC),
   ("debug.GCStats.Pause", .pause),
   ("debug.GCStats.PauseTotal", .pauseTotal),
   ("debug.ReadGCStats", .readGCStats)]

/-- debug.go:58-74 `RegisterDebugGCStats`. -/
def registerDebug (env : Env F) (g : Reg) (s : Globals DbgField) : Act F (Globals DbgField) := registerOnce env g (dbgNew env) dbgFields dbgNames s

/-- Making the calls of a capture on the metrics; a field that is still nil panics. `envs`: what the environment supplies to each call. -/
def applyUpdates (s : Globals K) : (Nat → Env F) → List (K × Call F) → Act F Unit
  | _, [] => return ()
  | envs, (k, c) :: us => do
    match s.metrics k with
    | none => Act.fail .nilDeref
    | some r =>
      let _ ← call (envs 0) r c
      applyUpdates s (fun n => envs (n + 1)) us

end GoMetrics
