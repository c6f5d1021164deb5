import Verif.Model.Registry

/-! Model of `GetAll` (registry.go:127-185, 318-320), and of the functions `GetOrRegisterX` and `NewRegisteredX`. -/

namespace GoMetrics
open GoFloat

variable {F : Type} [GoFloat F] [GoSqrt F] [GoExp F]

/-- What `GetAll` stores under a field name: an int64, a float64 (the bits, for the value of a GaugeFloat64), the text of an error
(`err.Error()` for the error with that number), or nil. -/
inductive Field (F : Type) where
  | int (n : Int64)
  | bits (b : FloatBits)
  | float (x : F)
  | errText (e : Nat)
  | nil

/-- The dynamic type of the result of an accessor. -/
def Out.field : Out F → Field F
  | .int n => .int n
  | .bits b => .bits b
  | .float x => .float x
  | _ => .nil

/-- `ps[i]` of a result of `Percentiles`. -/
def Out.at (o : Out F) (i : Nat) : Res (Field F) :=
  match o with
  | .floats ps => match ps[i]? with
    | some x => .ok (.float x)
    | none => .error .index
  | _ => .ok .nil

/-- `values["k"] = metric.M()`. -/
def setField (env : Env F) (k : String) (r : Ref) (c : Call F) : Act F (String × Field F) := do
  return (k, (← call env r c).field)

/-- registry.go:146, 166 `[]float64{0.5, 0.75, 0.95, 0.99, 0.999}`. -/
def getAllPercentiles : List F := [lit (1 / 2), lit (75 / 100), lit (95 / 100), lit (99 / 100), lit (999 / 1000)]

/-- registry.go:146-156 and 166-176: the fields of a histogram snapshot, or of the histogram part of a timer snapshot. -/
def histFields (env : Env F) (q : Ref) : Act F (List (String × Field F)) := do
  let ps ← call env q (.stat (.percentiles getAllPercentiles))
  let count ← setField env "count" q .count
  let min ← setField env "min" q (.stat .min)
  let max ← setField env "max" q (.stat .max)
  let mean ← setField env "mean" q (.stat .mean)
  let stddev ← setField env "stddev" q (.stat .stdDev)
  let p0 ← Act.lift (ps.at 0)
  let p1 ← Act.lift (ps.at 1)
  let p2 ← Act.lift (ps.at 2)
  let p3 ← Act.lift (ps.at 3)
  let p4 ← Act.lift (ps.at 4)
  return [count, min, max, mean, stddev, ("median", p0), ("75%", p1), ("95%", p2), ("99%", p3), ("99.9%", p4)]

/-- registry.go:160-163 and 177-180. -/
def rateFields (env : Env F) (q : Ref) : Act F (List (String × Field F)) := do
  let r1 ← setField env "1m.rate" q (.rates .rate1)
  let r5 ← setField env "5m.rate" q (.rates .rate5)
  let r15 ← setField env "15m.rate" q (.rates .rate15)
  let rm ← setField env "mean.rate" q (.rates .rateMean)
  return [r1, r5, r15, rm]

/-- The object returned by `Snapshot()`. -/
def snapshotOf (env : Env F) (r : Ref) : Act F Ref := do
  match ← call env r .snapshot with
  | .ref q => return q
  | _ => return r

/-- registry.go:129-182: the callback of `GetAll`; the healthcheck is run, and its error read twice. -/
def valuesOf (env : Env F) (r : Ref) : Act F (List (String × Field F)) := do
  match ← getObj r with
  | some (.counter _) => return [← setField env "count" r .count]
  | some (.gauge _) => return [← setField env "value" r .value]
  | some (.gaugeF _) => return [← setField env "value" r .value]
  | some (.health _) =>
    let _ ← call env r .check
    match ← call env r .error with
    | .err (some _) =>
      match ← call env r .error with
      | .err (some e) => return [("error", .errText e)]
      | _ => Act.fail .nilDeref
    | _ => return [("error", .nil)]
  | some (.hist _) =>
    let h ← snapshotOf env r
    histFields env h
  | some (.meter _) =>
    let m ← snapshotOf env r
    let count ← setField env "count" m .count
    return count :: (← rateFields env m)
  | some (.timer _) =>
    let t ← snapshotOf env r
    return (← histFields env t) ++ (← rateFields env t)
  | _ => return []

/-- The result of `GetAll`: a map from names to maps from field names to values. -/
abbrev Data (F : Type) := List (Str × List (String × Field F))

/-- registry.go:127-185 as a callback of `Each`: `data[name] = values` (names are visited once each, so nothing is overwritten). -/
def getAllCallback (env : Env F) : Callback F (Data F) := fun name r x =>
  match valuesOf env r x.1 with
  | (w, .ok values) => ((w, x.2 ++ [(name, values)]), none)
  | (w, .error p) => ((w, x.2), some p)

/-- registry.go:127-185 `GetAll`; 318-320: a prefixed registry passes the call on. `none`: the call goes to user code. -/
def getAll (env : Env F) : Reg → World F → World F × Res (Option (Data F))
  | .std id, w =>
    match each env (.std id) (getAllCallback env) (w, []) with
    | ((w', data), .ok _) => (w', .ok (some data))
    | ((w', _), .error p) => (w', .error p)
  | .prefixed u _, w => getAll env u w
  | .foreign, w => (w, .ok none)

/-- The kinds with a `GetOrRegisterX` function. Histograms are given a sample. -/
inductive Kind where
  | counter
  | gauge
  | gaugeF
  | hist (s : Ref)
  | meter
  | timer
  deriving DecidableEq

/-- The constructor each of them uses. -/
def Kind.ctor : Kind → NewOp F
  | .counter => .counter
  | .gauge => .gauge
  | .gaugeF => .gaugeF
  | .hist s => .hist s
  | .meter => .meter
  | .timer => .timer

/-- The type assertion `.(X)` on the result. -/
def Kind.is : Kind → Obj F → Bool
  | .counter, .counter _ => true
  | .gauge, .gauge _ => true
  | .gaugeF, .gaugeF _ => true
  | .hist _, .hist _ => true
  | .meter, .meter _ => true
  | .timer, .timer _ => true
  | _, _ => false

/-- counter.go:16-21, gauge.go:14-19, gauge_float64.go:17-22 (here the metric is constructed before the call), histogram.go:22-27,
meter.go:27-32, timer.go:34-39: `GetOrRegisterX(name, r)`; `none` is a nil registry. A foreign registry may return anything: left out. -/
def getOrRegisterTyped (env : Env F) (k : Kind) (name : Str) (g : Option Reg) : Act F Ref := do
  let v ← match k with
    | .gaugeF => (do return .obj (← construct env .gaugeF) : Act F (Val F))
    | k => pure (.ctor k.ctor)
  match ← regCall env (g.getD defaultRegistry) (.getOrRegister name v) with
  | .metric r =>
    match ← getObj r with
    | some o => if k.is o then return r else Act.fail .typeAssert
    | none => Act.fail .typeAssert
  | _ => Act.fail .typeAssert

/-- The constructors that have a `NewRegisteredX` function (there is none for healthchecks, samples and EWMAs). -/
def NewOp.registered : NewOp F → Bool
  | .counter | .gauge | .funcGauge _ | .gaugeF | .funcGaugeF _ | .hist _ | .meter | .timer => true
  | _ => false

/-- counter.go:32-39, gauge.go:30-37, 48-55, gauge_float64.go:35-42, 53-60, histogram.go:39-46, meter.go:55-62, timer.go:56-63:
`NewRegisteredX(name, r)`: the error of `Register` is ignored. -/
def newRegistered (env : Env F) (c : NewOp F) (name : Str) (g : Option Reg) : Act F Ref := do
  let r ← construct env c
  let _ ← regCall env (g.getD defaultRegistry) (.register name (.obj r))
  return r

end GoMetrics
