import Verif.Model.Runtime
import Verif.Go.Machine

/-! Captures of runtime statistics by several goroutines: /repo/runtime.go:73-145 and debug.go:40-53 statement by statement. Both functions
use package variables without any lock, so the statements of two captures may interleave in any way.

A goroutine is idle or has statements left to execute. What `ReadMemStats`, `ReadGCStats` and the like will return in a capture is
fixed when the capture starts. A statement is executed in one step; that a statement may itself be interrupted (and that the accesses are
data races, for which the Go memory model promises little) only makes more executions possible. -/

namespace GoMetrics

/-- A goroutine with local variables `L` and statements `St` left to execute. -/
inductive Thread (L St : Type) where
  | idle
  | busy (l : L) (rest : List St)

/-- The statements of a function over package variables `S` that emits events `E`: a statement may put others in front of the rest. -/
structure Lang (S L St E : Type) where
  exec : St → S → L → S × L × List E × List St

variable {S L St E X : Type}

/-- `start x` on an idle goroutine begins a call (`prog`); any other step executes the next statement, after the last of which the
goroutine is idle again. -/
def Lang.machine (lang : Lang S L St E) (init : X → L) (prog : List St) : Machine S (Thread L St) (Option X) E where
  step _ i s th := match i, th with
    | some x, .idle => some (s, .busy (init x) prog, [])
    | none, .busy _ [] => some (s, .idle, [])
    | none, .busy l (st :: rest) =>
      let r := lang.exec st s l
      some (r.1, .busy r.2.1 (r.2.2.2 ++ rest), r.2.2.1)
    | _, _ => none

/-! ### runtime.go -/

/-- The package variables `memStats` and runtime.go:47-51. -/
structure RtShared where
  memStats : MemStats := {}
  vars : RtVars := {}

/-- The local variables `t`, `i`, `ii`, `currentNumCgoCalls` (and what the runtime will answer). -/
structure RtLocal where
  x : RtInput
  i : UInt32 := 0
  ii : UInt32 := 0

/-- The statements of `CaptureRuntimeMemStatsOnce`. -/
inductive RtStmt where
  | read                    -- 75
  | upd (f : RtField)       -- one call of `Update`
  | setI                    -- 110
  | setII                   -- 111
  | branch                  -- 112, 117
  | zeroI                   -- 113, 121
  | loop256                 -- 113-115, 118-120
  | loopTo                  -- 123-125
  | saveFrees               -- 127
  | saveLookups             -- 128
  | saveMallocs             -- 129
  | saveNumGC               -- 130
  | saveCgo                 -- 140

/-- What happened: statistics read, `Update` called on a metric. -/
inductive RtEvent (F : Type) where
  | read (m : MemStats)
  | upd (f : RtField) (c : Call F)

variable {F : Type}

/-- The argument of `Update` in the statement that updates field `f` (runtime.go:76-107, 132-144). -/
def rtArg (s : RtShared) (l : RtLocal) : RtField → Call F
  | .readMemStats => .updateSince l.x.t
  | .alloc => .update s.memStats.alloc.toInt64
  | .buckHashSys => .update s.memStats.buckHashSys.toInt64
  | .debugGC => .update (if s.memStats.debugGC then 1 else 0)
  | .enableGC => .update (if s.memStats.enableGC then 1 else 0)
  | .frees => .update (s.memStats.frees - s.vars.frees).toInt64
  | .heapAlloc => .update s.memStats.heapAlloc.toInt64
  | .heapIdle => .update s.memStats.heapIdle.toInt64
  | .heapInuse => .update s.memStats.heapInuse.toInt64
  | .heapObjects => .update s.memStats.heapObjects.toInt64
  | .heapReleased => .update s.memStats.heapReleased.toInt64
  | .heapSys => .update s.memStats.heapSys.toInt64
  | .lastGC => .update s.memStats.lastGC.toInt64
  | .lookups => .update (s.memStats.lookups - s.vars.lookups).toInt64
  | .mallocs => .update (s.memStats.mallocs - s.vars.mallocs).toInt64
  | .mCacheInuse => .update s.memStats.mCacheInuse.toInt64
  | .mCacheSys => .update s.memStats.mCacheSys.toInt64
  | .mSpanInuse => .update s.memStats.mSpanInuse.toInt64
  | .mSpanSys => .update s.memStats.mSpanSys.toInt64
  | .nextGC => .update s.memStats.nextGC.toInt64
  | .numGC => .update (s.memStats.numGC - s.vars.numGC).toUInt64.toInt64
  | .gcCPUFraction => .updateF s.memStats.gcCPUFraction
  | .pauseNs => .update (s.memStats.pauseNs l.i.toNat).toInt64
  | .pauseTotalNs => .update s.memStats.pauseTotalNs.toInt64
  | .stackInuse => .update s.memStats.stackInuse.toInt64
  | .stackSys => .update s.memStats.stackSys.toInt64
  | .sys => .update s.memStats.sys.toInt64
  | .totalAlloc => .update s.memStats.totalAlloc.toInt64
  | .numCgoCall => .update (l.x.numCgoCall - s.vars.numCgoCalls)
  | .numGoroutine => .update l.x.numGoroutine
  | .numThread => .update l.x.numThread

/-- runtime.go:73-145, one statement (an iteration of a loop is a step). -/
def rtExec (st : RtStmt) (s : RtShared) (l : RtLocal) : RtShared × RtLocal × List (RtEvent F) × List RtStmt :=
  match st with
  | .read => ({ s with memStats := l.x.stats }, l, [.read l.x.stats], [])
  | .upd f => (s, l, [.upd f (rtArg s l f)], [])
  | .setI => (s, { l with i := s.vars.numGC % 256 }, [], [])
  | .setII => (s, { l with ii := s.memStats.numGC % 256 }, [], [])
  | .branch =>
    if s.memStats.numGC - s.vars.numGC ≥ 256 then (s, l, [], [.zeroI, .loop256])
    else (s, l, [], (if l.i > l.ii then [.loop256, .zeroI] else []) ++ [.loopTo])
  | .zeroI => (s, { l with i := 0 }, [], [])
  | .loop256 => if l.i < 256 then (s, { l with i := l.i + 1 }, [.upd .pauseNs (rtArg s l .pauseNs)], [.loop256]) else (s, l, [], [])
  | .loopTo => if l.i < l.ii then (s, { l with i := l.i + 1 }, [.upd .pauseNs (rtArg s l .pauseNs)], [.loopTo]) else (s, l, [], [])
  | .saveFrees => ({ s with vars := { s.vars with frees := s.memStats.frees } }, l, [], [])
  | .saveLookups => ({ s with vars := { s.vars with lookups := s.memStats.lookups } }, l, [], [])
  | .saveMallocs => ({ s with vars := { s.vars with mallocs := s.memStats.mallocs } }, l, [], [])
  | .saveNumGC => ({ s with vars := { s.vars with numGC := s.memStats.numGC } }, l, [], [])
  | .saveCgo => ({ s with vars := { s.vars with numCgoCalls := l.x.numCgoCall } }, l, [], [])

/-- runtime.go:75-107. -/
def rtFirst : List RtStmt :=
  [.read, .upd .readMemStats, .upd .alloc, .upd .buckHashSys, .upd .debugGC, .upd .enableGC, .upd .frees, .upd .heapAlloc, .upd .heapIdle,
   .upd .heapInuse, .upd .heapObjects, .upd .heapReleased, .upd .heapSys, .upd .lastGC, .upd .lookups, .upd .mallocs, .upd .mCacheInuse,
   .upd .mCacheSys, .upd .mSpanInuse, .upd .mSpanSys, .upd .nextGC, .upd .numGC, .upd .gcCPUFraction]

/-- runtime.go:127-144. -/
def rtLast : List RtStmt :=
  [.saveFrees, .saveLookups, .saveMallocs, .saveNumGC, .upd .pauseTotalNs, .upd .stackInuse, .upd .stackSys, .upd .sys, .upd .totalAlloc,
   .upd .numCgoCall, .saveCgo, .upd .numGoroutine, .upd .numThread]

/-- runtime.go:73-145 `CaptureRuntimeMemStatsOnce`. -/
def rtProg : List RtStmt := rtFirst ++ [.setI, .setII, .branch] ++ rtLast

def rtMachine : Machine RtShared (Thread RtLocal RtStmt) (Option RtInput) (RtEvent F) :=
  (Lang.mk rtExec).machine (fun x => { x := x }) rtProg

/-! ### debug.go -/

/-- The package variable `gcStats` (debug.go:20, 78-80): `LastGC` is the zero time before the first capture. -/
structure DbgShared where
  lastGC : Option Instant := none
  numGC : Int64 := 0
  pause : List Int64 := List.replicate 11 0
  pauseTotal : Int64 := 0

/-- The local variables `lastGC` and `t` (and what the runtime will answer). -/
structure DbgLocal where
  x : DbgInput
  lastGC : Option Instant := none

/-- The statements of `CaptureDebugGCStatsOnce`. -/
inductive DbgStmt where
  | save           -- 41
  | read           -- 43
  | updRead        -- 44
  | updLastGC      -- 46
  | updNumGC       -- 47
  | test           -- 48
  | updPause       -- 49
  | updPauseTotal  -- 52

inductive DbgEvent (F : Type) where
  | read (x : DbgInput)
  | upd (f : DbgField) (c : Call F)

/-- debug.go:40-53, one statement. Line 46 comes after line 43 and `ReadGCStats` never stores the zero time, so `LastGC.UnixNano()` is that of a time
read (the `0` is unused); line 49 comes after the test of line 48, and the runtime does not go back from some pauses to none (the other `0`). -/
def dbgExec (st : DbgStmt) (s : DbgShared) (l : DbgLocal) : DbgShared × DbgLocal × List (DbgEvent F) × List DbgStmt :=
  match st with
  | .save => (s, { l with lastGC := s.lastGC }, [], [])
  | .read => ({ lastGC := some l.x.lastGC, numGC := l.x.numGC, pause := l.x.pause, pauseTotal := l.x.pauseTotal }, l, [.read l.x], [])
  | .updRead => (s, l, [.upd .readGCStats (.updateSince l.x.t)], [])
  | .updLastGC => (s, l, [.upd .lastGC (.update (Int64.ofInt (s.lastGC.getD 0)))], [])
  | .updNumGC => (s, l, [.upd .numGC (.update s.numGC)], [])
  | .test => (s, l, [], if l.lastGC ≠ s.lastGC ∧ 0 < s.pause.length then [.updPause] else [])
  | .updPause => (s, l, [.upd .pause (.update (s.pause.headD 0))], [])
  | .updPauseTotal => (s, l, [.upd .pauseTotal (.update s.pauseTotal)], [])

/-- debug.go:40-53 `CaptureDebugGCStatsOnce`. -/
def dbgProg : List DbgStmt := [.save, .read, .updRead, .updLastGC, .updNumGC, .test, .updPauseTotal]

def dbgMachine : Machine DbgShared (Thread DbgLocal DbgStmt) (Option DbgInput) (DbgEvent F) :=
  (Lang.mk dbgExec).machine (fun x => { x := x }) dbgProg

end GoMetrics
