import Verif.Model.Export

/-!
Model of /repo/librato/librato.go: `NewReporter`, `BuildRequest`, `sumSquares`, `sumSquaresTimer`.

Elsewhere: the endless loop `Run` and the HTTP client (Model/LibratoClient), the texts of `translateTimerAttributes` (Model/Units): here the
attributes of timers are one symbol. Metrics are read through their interfaces in the order
of the Go statements; `fmt.Sprintf("%s.%s", a, b)` of two strings is written as a concatenation.
-/

namespace GoMetrics
open GoFloat

variable {F : Type} [GoFloat F] [GoSqrt F] [GoExp F]

/-- `measurement[Attributes]`: absent, the attributes "operations" (librato.go:102-106, 146-150, …), or `self.TimerAttributes`. -/
inductive LibratoAttrs where
  | none
  | operations
  | timer
  deriving DecidableEq

/-- `Measurement` (client.go:58, a map) with the keys that `BuildRequest` sets; `none` = key absent. -/
structure Measurement (F : Type) where
  name : List (Piece (Field F))
  value : Option (Field F) := none
  count : Option UInt64 := none
  sum : Option F := none
  max : Option F := none
  min : Option F := none
  sumSquares : Option F := none
  period : Field F
  attributes : LibratoAttrs := .none

/-- `Batch` (client.go:61-66). -/
structure Batch (F : Type) where
  measureTime : Int64
  source : Str
  counters : List (Measurement F)
  gauges : List (Measurement F)

/-- The fields of `Reporter` (librato.go:24-33) that `BuildRequest` uses. -/
structure Reporter (F : Type) where
  namesp : Str
  source : Str
  interval : Int64
  percentiles : List F
  intervalSec : Int64

/-- librato.go:35-37 `NewReporter` (the namespace is set by the user afterwards). -/
def newReporter (d : Int64) (s : Str) (p : List F) : Reporter F :=
  { namesp := [], source := s, interval := d, percentiles := p, intervalSec := d / 1000000000 }

/-- `time.Duration.Seconds` (Go package time): `float64(d/Second) + float64(d%Second)/1e9`. -/
def durationSeconds (d : Int64) : F :=
  add (ofInt (d / 1000000000).toInt) (div (ofInt (d % 1000000000).toInt) (lit 1000000000))

/-- A call that returns an int64, a float64, the bits of a GaugeFloat64. -/
def readInt (env : Env F) (r : Ref) (c : Call F) : Act F Int64 := do
  match ← call env r c with
  | .int n => return n
  | _ => return 0
def readFloat (env : Env F) (r : Ref) (c : Call F) : Act F F := do
  match ← call env r c with
  | .float x => return x
  | _ => return lit 0
def readBits (env : Env F) (r : Ref) (c : Call F) : Act F FloatBits := do
  match ← call env r c with
  | .bits b => return b
  | _ => return 0

/-- `math.Pow(x, 2)`: the square (Go package math; it multiplies the mantissas, which gives the rounded product unless that is subnormal). -/
def pow2 (x : F) : F := mul x x

/-- `math.IsNaN`. -/
def isNaN (x : F) : Bool := !(le x x)

/-- librato.go:63-71 `sumSquares` of a sample, 72-80 `sumSquaresTimer` of a timer: the same statements. -/
def sumSquares (env : Env F) (s : Ref) : Act F F := do
  let count : F := ofInt (← readInt env s .count).toInt
  let sumSquared := pow2 (mul count (← readFloat env s (.stat .mean)))
  let sumSquares := add (pow2 (mul count (← readFloat env s (.stat .stdDev)))) (div sumSquared count)
  if isNaN sumSquares then return lit 0
  return sumSquares

/-- The loops over `self.Percentiles` (librato.go:128-134, 190-197). -/
def percentileGauges (env : Env F) (x : Ref) (mk : F → F → Measurement F) : List F → Act F (List (Measurement F))
  | [] => return []
  | p :: ps => do
    let v ← readFloat env x (.stat (.percentile p))
    return mk p v :: (← percentileGauges env x mk ps)

/-- librato.go:142-171, 200-229: the gauges for the three rates; the suffix is different for meters and timers. -/
def rateGauge (env : Env F) (cfg : Reporter F) (name : Str) (r : Ref) (suffix : String) (c : RateCall) : Act F (Measurement F) := do
  let v ← readFloat env r (.rates c)
  return { name := textOf (name ++ bytes suffix), value := some (.float v), period := .int (Int64.ofInt (toInt (durationSeconds cfg.interval : F))), attributes := .operations }

/-- librato.go:92-232, the body of the callback of `Each`: what is appended to `snapshot.Counters` and to `snapshot.Gauges` for one metric. -/
def libratoMetric (env : Env F) (cfg : Reporter F) (name0 : Str) (r : Ref) (o : Obj F) : Act F (List (Measurement F) × List (Measurement F)) :=
  let name := if cfg.namesp ≠ [] then cfg.namesp ++ bytes "." ++ name0 else name0
  let period : Field F := .float (durationSeconds cfg.interval)
  let periodInt : Field F := .int (Int64.ofInt (toInt (durationSeconds cfg.interval : F)))
  match o with
  -- 98-108
  | .counter _ => do
    if (← readInt env r .count) > 0 then
      let n ← readInt env r .count
      return ([{ name := textOf (name ++ bytes ".count"), value := some (.float (ofInt n.toInt)), period, attributes := .operations }], [])
    else return ([], [])
  -- 109-112
  | .gauge _ => do
    let n ← readInt env r .value
    return ([], [{ name := textOf name, value := some (.float (ofInt n.toInt)), period }])
  -- 113-116
  | .gaugeF _ => do
    let b ← readBits env r .value
    return ([], [{ name := textOf name, value := some (.bits b), period }])
  -- 117-136
  | .hist _ => do
    if (← readInt env r .count) > 0 then
      match ← call env r .sample with
      | .ref s =>
        let count ← readInt env s .count
        let max ← readInt env s (.stat .max)
        let min ← readInt env s (.stat .min)
        let sum ← readInt env s (.stat .sum)
        let sq ← sumSquares env s
        let g : Measurement F :=
          { name := textOf (name ++ bytes ".hist"), count := some count.toUInt64, max := some (ofInt max.toInt), min := some (ofInt min.toInt), sum := some (ofInt sum.toInt), sumSquares := some sq, period }
        let ps ← percentileGauges env s (fun p v => { name := sprintf "%s.%.2f" [.str (name ++ bytes ".hist"), .val (.float p)], value := some (.float v), period }) cfg.percentiles
        return ([], g :: ps)
      | _ => return ([], [])
    else return ([], [])
  -- 137-172
  | .meter _ => do
    let n ← readInt env r .count
    let r1 ← rateGauge env cfg name r ".1min" .rate1
    let r5 ← rateGauge env cfg name r ".5min" .rate5
    let r15 ← rateGauge env cfg name r ".15min" .rate15
    return ([{ name := textOf name, value := some (.float (ofInt n.toInt)), period }], [r1, r5, r15])
  -- 173-231
  | .timer _ => do
    let n ← readInt env r .count
    let c : Measurement F := { name := textOf name, value := some (.float (ofInt n.toInt)), period }
    if (← readInt env r .count) > 0 then
      let count ← readInt env r .count
      let mean ← readFloat env r (.stat .mean)
      let count' ← readInt env r .count
      let max ← readInt env r (.stat .max)
      let min ← readInt env r (.stat .min)
      let sq ← sumSquares env r
      let g : Measurement F :=
        { name := textOf (name ++ bytes ".timer.mean"), count := some count.toUInt64, sum := some (mul mean (ofInt count'.toInt)), max := some (ofInt max.toInt), min := some (ofInt min.toInt), sumSquares := some sq, period := periodInt, attributes := .timer }
      let ps ← percentileGauges env r (fun p v => { name := sprintf "%s.timer.%2.0f" [.str name, .val (.float (mul p (lit 100)))], value := some (.float v), period := periodInt, attributes := .timer }) cfg.percentiles
      let r1 ← rateGauge env cfg name r ".rate.1min" .rate1
      let r5 ← rateGauge env cfg name r ".rate.5min" .rate5
      let r15 ← rateGauge env cfg name r ".rate.15min" .rate15
      return ([c], g :: ps ++ [r1, r5, r15])
    else return ([c], [])
  -- no default case
  | _ => return ([], [])

/-- The callback. -/
def libratoCallback (env : Env F) (cfg : Reporter F) : Callback F (List (Measurement F) × List (Measurement F)) := fun name r y =>
  match y.1.objs r with
  | some o =>
    match libratoMetric env cfg name r o y.1 with
    | (w, .ok b) => ((w, (y.2.1 ++ b.1, y.2.2 ++ b.2)), none)
    | (w, .error p) => ((w, y.2), some p)
  | none => (y, none)

/-- librato.go:82-235 `BuildRequest`; `now` = `now.Unix()`. The integer division panics if the interval has no full second. -/
def buildRequest (env : Env F) (cfg : Reporter F) (now : Int64) (g : Reg) (w : World F) : World F × Res (Batch F) :=
  if cfg.intervalSec = 0 then (w, .error .divZero)
  else
    match each env g (libratoCallback env cfg) (w, ([], [])) with
    | ((w', b), .ok ()) => (w', .ok { measureTime := now / cfg.intervalSec * cfg.intervalSec, source := cfg.source, counters := b.1, gauges := b.2 })
    | ((w', _), .error p) => (w', .error p)

end GoMetrics
