import Verif.Spec.StatHat

/-! Specification for C123: the StatHat statistics that the metrics of a registry are posted to. -/

namespace GoMetrics.Spec
open GoMetrics

variable {F : Type}

/-- The name of the StatHat statistic that a post goes to. -/
def postedTo : Event F → Option Str
  | .count stat _ _ | .value stat _ _ => some stat
  | .print _ => none

/-- The metrics that are one number. -/
def isNumber : Obj F → Bool
  | .counter _ | .gauge _ | .gaugeF _ => true
  | _ => false

/-- What the statistics of the other metrics are called. -/
def statWords : Obj F → List Str
  | .hist _ => ["count", "min", "max", "mean", "std-dev", "50-percentile", "75-percentile", "95-percentile", "99-percentile", "999-percentile"].map bytes
  | .meter _ => ["count", "one-minute", "five-minute", "fifteen-minute", "mean"].map bytes
  | .timer _ => ["count", "min", "max", "mean", "std-dev", "50-percentile", "75-percentile", "95-percentile", "99-percentile", "999-percentile", "one-minute", "five-minute", "fifteen-minute", "mean-rate"].map bytes
  | _ => []

variable [GoFloat F] [GoSqrt F] [GoExp F]

/-- A metric that can be seen through the registry under this name. -/
def Visible (w : World F) (g : Reg) (name : Str) (o : Obj F) : Prop :=
  ∃ id r, base g = some id ∧ gets w id name = some r ∧ (prefixes g).flatten <+: name ∧ w.objs r = some o

/-- A counter or gauge is called like a statistic of another metric: the name of that metric, a point and the word for the statistic. -/
def NamesClash (w : World F) (g : Reg) : Prop :=
  ∃ name o name' o' word, Visible w g name o ∧ isNumber o = true ∧ Visible w g name' o' ∧ word ∈ statWords o' ∧ name = name' ++ 46 :: word

end GoMetrics.Spec
