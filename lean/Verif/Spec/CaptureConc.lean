import Verif.Model.CaptureConc
import Verif.Spec.Runtime

/-! Vocabulary for captures by several goroutines. -/

namespace GoMetrics.Spec
open GoMetrics

variable {S L X E F St : Type}

/-- Captures are made one at a time: whenever one starts, no other is going on. -/
def OneAtATime (M : Machine S (Thread L St) (Option X) E) : S → (Nat → Thread L St) → List (Nat × Option X) → Prop
  | _, _, [] => True
  | s, ls, (t, i) :: sched =>
    (i.isSome → ∀ u, ls u = .idle) ∧ ∀ s' l' es, M.step t i s (ls t) = some (s', l', es) → OneAtATime M s' (Function.update ls t l') sched

/-- The captures started, in order. -/
def started (sched : List (Nat × Option X)) : List X := sched.filterMap Prod.snd

/-- The calls made on the metrics, in order. -/
def rtCalls (es : List (RtEvent F)) : List (RtField × Call F) := es.filterMap fun | .upd f c => some (f, c) | .read _ => none

def dbgCalls (es : List (DbgEvent F)) : List (DbgField × Call F) := es.filterMap fun | .upd f c => some (f, c) | .read _ => none

/-- The gauges that show a number of the statistics as it is. -/
def rtPlain (m : MemStats) : RtField → Option Int64
  | .alloc => some m.alloc.toInt64
  | .buckHashSys => some m.buckHashSys.toInt64
  | .heapAlloc => some m.heapAlloc.toInt64
  | .heapIdle => some m.heapIdle.toInt64
  | .heapInuse => some m.heapInuse.toInt64
  | .heapObjects => some m.heapObjects.toInt64
  | .heapReleased => some m.heapReleased.toInt64
  | .heapSys => some m.heapSys.toInt64
  | .lastGC => some m.lastGC.toInt64
  | .mCacheInuse => some m.mCacheInuse.toInt64
  | .mCacheSys => some m.mCacheSys.toInt64
  | .mSpanInuse => some m.mSpanInuse.toInt64
  | .mSpanSys => some m.mSpanSys.toInt64
  | .nextGC => some m.nextGC.toInt64
  | .pauseTotalNs => some m.pauseTotalNs.toInt64
  | .stackInuse => some m.stackInuse.toInt64
  | .stackSys => some m.stackSys.toInt64
  | .sys => some m.sys.toInt64
  | .totalAlloc => some m.totalAlloc.toInt64
  | _ => none

/-- Every number such a gauge is given was in statistics read before, the number given to the pause histogram is one of the 256 pauses of statistics
read before. `seen`: what has been read. -/
def Reported : List MemStats → List (RtEvent F) → Prop
  | _, [] => True
  | seen, .read m :: es => Reported (m :: seen) es
  | seen, .upd f c :: es =>
    ((∀ v, rtPlain {} f ≠ none → c = .update v → ∃ m ∈ seen, rtPlain m f = some v) ∧
     (∀ v, f = .pauseNs → c = .update v → ∃ m ∈ seen, ∃ i < 256, v = (m.pauseNs i).toInt64)) ∧
    Reported seen es

end GoMetrics.Spec
