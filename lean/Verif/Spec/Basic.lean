import Verif.Model.Counter
import Verif.Model.Healthcheck

/-! Specifications of counters, gauges and healthchecks (they mention only the API calls, not the implementation). -/

namespace GoMetrics.Spec
open GoMetrics

/-- The contribution of a call to the net sum, as a mathematical integer. -/
def delta : CounterOp → Int
  | .inc i => i.toInt
  | .dec i => - i.toInt
  | .clear => 0

/-- The calls after the last `Clear`. -/
def sinceClear (ops : List CounterOp) : List CounterOp := (ops.reverse.takeWhile (fun o => o ≠ .clear)).reverse

/-- Net sum since the last `Clear`. -/
def net (ops : List CounterOp) : Int := ((sinceClear ops).map delta).sum

/-- The last verdict given, if any: `some e` with `e` the error (`none` = healthy). -/
def lastVerdict (vs : List Verdict) : Option GoError :=
  vs.getLast?.map fun | .healthy => none | .unhealthy e => e

end GoMetrics.Spec
