import Verif.Spec.World
import Verif.Model.GetAll

/-! Vocabulary for statements about registries: which metric a name is bound to, and which calls bind and free a name. -/

namespace GoMetrics.Spec
open GoMetrics

variable {F : Type} [GoFloat F] [GoSqrt F] [GoExp F]

/-- What `Get(name)` on the standard registry `id` returns. -/
def gets (w : World F) (id : Nat) (name : Str) : Option Ref :=
  match (regCall (envAt 0) (.std id) (.get name) w).2 with
  | .ok (.metric r) => some r
  | _ => none

/-- The prefixes between a registry and its base, the one next to the base first. -/
def prefixes : Reg → List Str
  | .prefixed u p => prefixes u ++ [p]
  | _ => []

/-- The name under which the base registry knows `name`. -/
def baseName (g : Reg) (name : Str) : Str := (prefixes g).flatten ++ name

/-- The seven metric kinds: Counter, Gauge, GaugeFloat64, Healthcheck, Histogram, Meter, Timer. -/
def metricKind : Obj F → Bool
  | .sample _ | .ewma _ => false
  | _ => true

/-- The constructors of metrics. -/
def makesMetric : NewOp F → Bool
  | .uniform _ | .exp _ _ | .sampleSnap _ _ | .ewma _ => false
  | _ => true

/-- The value given to `Register` or `GetOrRegister` in the state `w` is, or (a function, `GetOrRegister` only) yields, the metric `r`. -/
def yields (w : World F) (env : Env F) : RegOp F → Str → Ref → Prop
  | .register n (.obj x), name, r => n = name ∧ x = r ∧ ∃ o, w.objs r = some o ∧ metricKind o = true
  | .getOrRegister n (.obj x), name, r => n = name ∧ x = r ∧ ∃ o, w.objs r = some o ∧ metricKind o = true
  | .getOrRegister n (.ctor c), name, r => n = name ∧ makesMetric c = true ∧ (construct env c w).2 = .ok r
  | _, _, _ => False

/-- The call binds `name` in the standard registry `id` to the metric `r`. -/
def binds (w : World F) (env : Env F) : Op F → Nat → Str → Ref → Prop
  | .reg g o, id, name, r => base g = some id ∧ gets w id name = none ∧ ∃ n, baseName g n = name ∧ yields w env o n r
  | _, _, _, _ => False

/-- The call frees `name` in the standard registry `id`. -/
def frees : Op F → Nat → Str → Prop
  | .reg g (.unregister n), id, name => base g = some id ∧ baseName g n = name
  | .reg g .unregisterAll, id, _ => base g = some id
  | _, _, _ => False

/-- The callback `f`, which writes the names and metrics it is given into a log. -/
def logged {U : Type} (f : Callback F U) : Callback F (U × List (Str × Ref)) := fun name r x =>
  let y := f name r (x.1, x.2.1)
  ((y.1.1, (y.1.2, x.2.2 ++ [(name, r)])), y.2)

/-- How many names of the standard registry `id` are bound to the object `r`. -/
def timesRegistered (w : World F) (id : Nat) (r : Ref) : Nat := ((w.regs id).filter fun e => e.2 = r).length

/-- The fields that `GetAll` gives for a metric of each kind, with the accessor each of them is named after. -/
def fieldsOf : Obj F → List (String × Call F)
  | .counter _ => [("count", .count)]
  | .gauge _ | .gaugeF _ => [("value", .value)]
  | .health _ => [("error", .error)]
  | .hist _ => distribution
  | .meter _ => ("count", .count) :: rates
  | .timer _ => distribution ++ rates
  | _ => []
where
  distribution : List (String × Call F) :=
    [("count", .count), ("min", .stat .min), ("max", .stat .max), ("mean", .stat .mean), ("stddev", .stat .stdDev),
     ("median", .stat (.percentile (GoFloat.lit (1 / 2)))), ("75%", .stat (.percentile (GoFloat.lit (3 / 4)))),
     ("95%", .stat (.percentile (GoFloat.lit (19 / 20)))), ("99%", .stat (.percentile (GoFloat.lit (99 / 100)))),
     ("99.9%", .stat (.percentile (GoFloat.lit (999 / 1000))))]
  rates : List (String × Call F) :=
    [("1m.rate", .rates .rate1), ("5m.rate", .rates .rate5), ("15m.rate", .rates .rate15), ("mean.rate", .rates .rateMean)]

/-- The state in which the accessors of `r` are read: for a healthcheck, after `Check()`. -/
def checked (env : Env F) (w : World F) (r : Ref) : World F :=
  match w.objs r with
  | some (.health _) => (call env r .check w).1
  | _ => w

/-- The value stored for the result of an accessor: an integer, a float, the text of an error or nil. -/
def shows : Res (Out F) → GoMetrics.Field F → Prop
  | .ok (.int n), f => f = .int n
  | .ok (.bits b), f => f = .bits b
  | .ok (.float x), f => f = .float x
  | .ok (.err (some e)), f => f = .errText e
  | .ok (.err none), f => f = .nil
  | _, _ => False

/-- The values behind a histogram or timer, if it has any (`nil`: a stub). -/
def sampleRecorded (w : World F) (s : Ref) : Option (List Int64) :=
  match w.objs s with
  | some (.sample (.uniform u)) => some u.values
  | some (.sample (.exp e)) => some e.vals
  | some (.sample (.snap _ a)) => some (w.arrs a)
  | _ => none
def histRecorded (w : World F) (r : Ref) : Option (List Int64) :=
  match w.objs r with
  | some (.hist (.std s)) | some (.hist (.snap s)) => sampleRecorded w s
  | _ => none
def recorded (w : World F) (r : Ref) : Option (List Int64) :=
  match w.objs r with
  | some (.timer (.std h _)) | some (.timer (.snap h _)) => histRecorded w h
  | _ => histRecorded w r

/-- `StdDev` of these values once they are sorted (percentile reads of a snapshot sort it; rounding may depend on the order). -/
def sortedDev : Option (List Int64) → F
  | some l => sampleStdDev (sortInts l)
  | none => GoFloat.lit 0

/-- The metric is of the kind that `GetOrRegisterX` is about. -/
def isA (k : Kind) (o : Obj F) : Prop :=
  match k with
  | .counter => ∃ x, o = .counter x
  | .gauge => ∃ x, o = .gauge x
  | .gaugeF => ∃ x, o = .gaugeF x
  | .hist _ => ∃ x, o = .hist x
  | .meter => ∃ x, o = .meter x
  | .timer => ∃ x, o = .timer x

end GoMetrics.Spec
