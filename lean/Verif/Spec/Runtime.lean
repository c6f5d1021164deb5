import Verif.Model.Runtime
import Verif.Spec.World

/-! Vocabulary for the runtime statistics: what the Go runtime counts, apart from how the library reads it. -/

namespace GoMetrics.Spec
open GoMetrics

variable {F K : Type} [DecidableEq K]

/-- The numbers passed to `Update` of the metric `k`, in order. -/
def given (k : K) (us : List (K × Call F)) : List Int64 :=
  us.filterMap fun u => if u.1 = k then (match u.2 with | .update v => some v | _ => none) else none

/-- After `n` collections, of which number `k` (from 0) paused for `pause k` ns, `runtime.MemStats` has `NumGC` (32 bits) and the last 256 pauses in a
ring where the latest is `PauseNs[(NumGC+255)%256]` (documentation of package runtime). -/
def Shows (pause : Nat → UInt64) (n : Nat) (m : MemStats) : Prop :=
  m.numGC.toNat = n % 2 ^ 32 ∧ ∀ k < n, n ≤ k + 256 → m.pauseNs (k % 256) = pause k

/-- The pauses of the collections with numbers `a`, …, `b - 1`. -/
def pausesFrom (pause : Nat → UInt64) (a b : Nat) : List Int64 := (List.range' a (b - a)).map fun k => (pause k).toInt64

/-- Captures, each after the given number of collections: at least as many as at the capture before, and at most 256 more. -/
def Frequent (pause : Nat → UInt64) : Nat → List (Nat × RtInput) → Prop
  | _, [] => True
  | n, (n', x) :: l => n ≤ n' ∧ n' ≤ n + 256 ∧ Shows pause n' x.stats ∧ Frequent pause n' l

/-- The last of some numbers. -/
def lastOr (n : Nat) (l : List Nat) : Nat := l.getLast?.getD n

/-- The counter read by the captures starts at `n`, and is `ns` (unbounded numbers) at the captures, growing by less than `bound` each time. -/
def Grows (bound : Nat) : Nat → List Nat → Prop
  | _, [] => True
  | n, n' :: l => n ≤ n' ∧ n' < n + bound ∧ Grows bound n' l

/-- After `n` collections, number `k` having ended at time `ended k` with pause `pause k`, `debug.ReadGCStats` reports the end and the pause of the
latest, and before the first a time that is not the end of one, and no pauses. -/
def DbgShows (ended : Nat → Instant) (pause : Nat → Int64) (n : Nat) (x : DbgInput) : Prop :=
  match n with
  | 0 => x.pause = []
  | k + 1 => x.lastGC = ended k ∧ x.pause.head? = some (pause k)

/-- The pauses of the latest collection at each capture, without those already seen at the capture before. -/
def latestPauses (pause : Nat → Int64) : Nat → List Nat → List Int64
  | _, [] => []
  | n, n' :: l => (if n' = n then [] else [pause (n' - 1)]) ++ latestPauses pause n' l

/-- The kinds of metrics used. -/
inductive StatKind where
  | gauge | gaugeFloat64 | histogram | timer

def RtField.kind : RtField → StatKind
  | .gcCPUFraction => .gaugeFloat64
  | .pauseNs => .histogram
  | .readMemStats => .timer
  | _ => .gauge

def DbgField.kind : DbgField → StatKind
  | .pause => .histogram
  | .readGCStats => .timer
  | _ => .gauge

/-- The Go interface type of the metric. -/
def StatKind.is : StatKind → Obj F → Bool
  | .gauge, .gauge _ => true
  | .gaugeFloat64, .gaugeF _ => true
  | .histogram, .hist _ => true
  | .timer, .timer _ => true
  | _, _ => false

/-- The documented names: the fully-qualified Go symbols. -/
def rtName : RtField → String
  | .alloc => "runtime.MemStats.Alloc"
  | .buckHashSys => "runtime.MemStats.BuckHashSys"
  | .debugGC => "runtime.MemStats.DebugGC"
  | .enableGC => "runtime.MemStats.EnableGC"
  | .frees => "runtime.MemStats.Frees"
  | .heapAlloc => "runtime.MemStats.HeapAlloc"
  | .heapIdle => "runtime.MemStats.HeapIdle"
  | .heapInuse => "runtime.MemStats.HeapInuse"
  | .heapObjects => "runtime.MemStats.HeapObjects"
  | .heapReleased => "runtime.MemStats.HeapReleased"
  | .heapSys => "runtime.MemStats.HeapSys"
  | .lastGC => "runtime.MemStats.LastGC"
  | .lookups => "runtime.MemStats.Lookups"
  | .mallocs => "runtime.MemStats.Mallocs"
  | .mCacheInuse => "runtime.MemStats.MCacheInuse"
  | .mCacheSys => "runtime.MemStats.MCacheSys"
  | .mSpanInuse => "runtime.MemStats.MSpanInuse"
  | .mSpanSys => "runtime.MemStats.MSpanSys"
  | .nextGC => "runtime.MemStats.NextGC"
  | .numGC => "runtime.MemStats.NumGC"
  | .gcCPUFraction => "runtime.MemStats.GCCPUFraction"
  | .pauseNs => "runtime.MemStats.PauseNs"
  | .pauseTotalNs => "runtime.MemStats.PauseTotalNs"
  | .stackInuse => "runtime.MemStats.StackInuse"
  | .stackSys => "runtime.MemStats.StackSys"
  | .sys => "runtime.MemStats.Sys"
  | .totalAlloc => "runtime.MemStats.TotalAlloc"
  | .numCgoCall => "runtime.NumCgoCall"
  | .numGoroutine => "runtime.NumGoroutine"
  | .numThread => "runtime.NumThread"
  | .readMemStats => "runtime.ReadMemStats"

def dbgName : DbgField → String
  | .lastGC => "debug.GCStats.LastGC"
  | .numGC => "debug.GCStats.NumGC"
  | .pause => "debug.GCStats.Pause"
  | .pauseTotal => "debug.GCStats.PauseTotal"
  | .readGCStats => "debug.ReadGCStats"

/-- What a gauge should show after a capture that read `x`, the capture before having read `prev` (all zero if there was none): 0 or 1 for a flag, the
change for the five counters that are reported as changes, and the number itself for the others (histogram, timer and GCCPUFraction: 0). -/
def rtGauge (prev x : RtInput) : RtField → Int64
  | .alloc => x.stats.alloc.toInt64
  | .buckHashSys => x.stats.buckHashSys.toInt64
  | .debugGC => if x.stats.debugGC = true then 1 else 0
  | .enableGC => if x.stats.enableGC = true then 1 else 0
  | .frees => (x.stats.frees - prev.stats.frees).toInt64
  | .heapAlloc => x.stats.heapAlloc.toInt64
  | .heapIdle => x.stats.heapIdle.toInt64
  | .heapInuse => x.stats.heapInuse.toInt64
  | .heapObjects => x.stats.heapObjects.toInt64
  | .heapReleased => x.stats.heapReleased.toInt64
  | .heapSys => x.stats.heapSys.toInt64
  | .lastGC => x.stats.lastGC.toInt64
  | .lookups => (x.stats.lookups - prev.stats.lookups).toInt64
  | .mallocs => (x.stats.mallocs - prev.stats.mallocs).toInt64
  | .mCacheInuse => x.stats.mCacheInuse.toInt64
  | .mCacheSys => x.stats.mCacheSys.toInt64
  | .mSpanInuse => x.stats.mSpanInuse.toInt64
  | .mSpanSys => x.stats.mSpanSys.toInt64
  | .nextGC => x.stats.nextGC.toInt64
  | .numGC => (x.stats.numGC - prev.stats.numGC).toUInt64.toInt64
  | .gcCPUFraction => 0
  | .pauseNs => 0
  | .pauseTotalNs => x.stats.pauseTotalNs.toInt64
  | .stackInuse => x.stats.stackInuse.toInt64
  | .stackSys => x.stats.stackSys.toInt64
  | .sys => x.stats.sys.toInt64
  | .totalAlloc => x.stats.totalAlloc.toInt64
  | .numCgoCall => x.numCgoCall - prev.numCgoCall
  | .numGoroutine => x.numGoroutine
  | .numThread => x.numThread
  | .readMemStats => 0

end GoMetrics.Spec
