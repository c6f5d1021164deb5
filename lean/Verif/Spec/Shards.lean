import Verif.Spec.Ewma

/-! Specification of one stream of events spread over several meters. -/

namespace GoMetrics.Spec
open GoMetrics

/-- What meter `i` sees of a stream of calls in which every `Mark` goes to one of several meters (its label); ticks and `Stop`s
reach all of them. -/
def shard (i : Nat) (ops : List (MeterOp × Nat)) : List MeterOp :=
  ops.filterMap fun o => match o.1 with
    | .mark n now => if o.2 = i then some (.mark n now) else none
    | .tick now => some (.tick now)
    | .stop => some .stop

/-- The same stream sent to a single meter. -/
def whole (ops : List (MeterOp × Nat)) : List MeterOp := ops.map Prod.fst

/-- The three moving averages of a meter with their minutes. -/
def rates {F : Type} [GoFloat F] : List (Nat × (Meter F → F)) := [(1, Meter.rate1), (5, Meter.rate5), (15, Meter.rate15)]

end GoMetrics.Spec
