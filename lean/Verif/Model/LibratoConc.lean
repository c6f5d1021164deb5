import Verif.Model.ExportConc
import Verif.Model.Librato

/-!
Model of Librato's `BuildRequest` (/repo/librato/librato.go:63-80, 82-235) while other goroutines go on using the metrics and the registry; like `Verif/Model/Librato.lean`, with the schedules of `Verif/Model/ExportConc.lean`.
`BuildRequest` takes no snapshots: others may change the metric between any two of the calls. The same simplifications.
-/

namespace GoMetrics
open GoFloat

variable {F : Type} [GoFloat F] [GoSqrt F] [GoExp F]

/-- Like `readInt`, `readFloat`, `readBits`. -/
def readIntLive (r : Ref) (c : Call F) : Live F Int64 := do
  match ← liveCall r c with
  | .int n => return n
  | _ => return 0
def readFloatLive (r : Ref) (c : Call F) : Live F F := do
  match ← liveCall r c with
  | .float x => return x
  | _ => return lit 0
def readBitsLive (r : Ref) (c : Call F) : Live F FloatBits := do
  match ← liveCall r c with
  | .bits b => return b
  | _ => return 0

/-- librato.go:63-71 `sumSquares`, 72-80 `sumSquaresTimer`, like `sumSquares`. -/
def sumSquaresLive (s : Ref) : Live F F := do
  let count : F := ofInt (← readIntLive s .count).toInt
  let sumSquared := pow2 (mul count (← readFloatLive s (.stat .mean)))
  let sumSquares := add (pow2 (mul count (← readFloatLive s (.stat .stdDev)))) (div sumSquared count)
  if isNaN sumSquares then return lit 0
  return sumSquares

/-- librato.go:128-134, 190-197, like `percentileGauges`. -/
def percentileGaugesLive (x : Ref) (mk : F → F → Measurement F) : List F → Live F (List (Measurement F))
  | [] => return []
  | p :: ps => do
    let v ← readFloatLive x (.stat (.percentile p))
    return mk p v :: (← percentileGaugesLive x mk ps)

/-- librato.go:142-171, 200-229, like `rateGauge`. -/
def rateGaugeLive (cfg : Reporter F) (name : Str) (r : Ref) (suffix : String) (c : RateCall) : Live F (Measurement F) := do
  let v ← readFloatLive r (.rates c)
  return { name := textOf (name ++ bytes suffix), value := some (.float v), period := .int (Int64.ofInt (toInt (durationSeconds cfg.interval : F))), attributes := .operations }

/-- librato.go:92-232, like `libratoMetric`; `o` is only used for the type switch. -/
def libratoMetricLive (cfg : Reporter F) (name0 : Str) (r : Ref) (o : Obj F) : Live F (List (Measurement F) × List (Measurement F)) :=
  let name := if cfg.namesp ≠ [] then cfg.namesp ++ bytes "." ++ name0 else name0
  let period : Field F := .float (durationSeconds cfg.interval)
  let periodInt : Field F := .int (Int64.ofInt (toInt (durationSeconds cfg.interval : F)))
  match o with
  -- 98-108
  | .counter _ => do
    if (← readIntLive r .count) > 0 then
      let n ← readIntLive r .count
      return ([{ name := textOf (name ++ bytes ".count"), value := some (.float (ofInt n.toInt)), period, attributes := .operations }], [])
    else return ([], [])
  -- 109-112
  | .gauge _ => do
    let n ← readIntLive r .value
    return ([], [{ name := textOf name, value := some (.float (ofInt n.toInt)), period }])
  -- 113-116
  | .gaugeF _ => do
    let b ← readBitsLive r .value
    return ([], [{ name := textOf name, value := some (.bits b), period }])
  -- 117-136
  | .hist _ => do
    if (← readIntLive r .count) > 0 then
      match ← liveCall r .sample with
      | .ref s =>
        let count ← readIntLive s .count
        let max ← readIntLive s (.stat .max)
        let min ← readIntLive s (.stat .min)
        let sum ← readIntLive s (.stat .sum)
        let sq ← sumSquaresLive s
        let g : Measurement F :=
          { name := textOf (name ++ bytes ".hist"), count := some count.toUInt64, max := some (ofInt max.toInt), min := some (ofInt min.toInt), sum := some (ofInt sum.toInt), sumSquares := some sq, period }
        let ps ← percentileGaugesLive s (fun p v => { name := sprintf "%s.%.2f" [.str (name ++ bytes ".hist"), .val (.float p)], value := some (.float v), period }) cfg.percentiles
        return ([], g :: ps)
      | _ => return ([], [])
    else return ([], [])
  -- 137-172
  | .meter _ => do
    let n ← readIntLive r .count
    let r1 ← rateGaugeLive cfg name r ".1min" .rate1
    let r5 ← rateGaugeLive cfg name r ".5min" .rate5
    let r15 ← rateGaugeLive cfg name r ".15min" .rate15
    return ([{ name := textOf name, value := some (.float (ofInt n.toInt)), period }], [r1, r5, r15])
  -- 173-231
  | .timer _ => do
    let n ← readIntLive r .count
    let c : Measurement F := { name := textOf name, value := some (.float (ofInt n.toInt)), period }
    if (← readIntLive r .count) > 0 then
      let count ← readIntLive r .count
      let mean ← readFloatLive r (.stat .mean)
      let count' ← readIntLive r .count
      let max ← readIntLive r (.stat .max)
      let min ← readIntLive r (.stat .min)
      let sq ← sumSquaresLive r
      let g : Measurement F :=
        { name := textOf (name ++ bytes ".timer.mean"), count := some count.toUInt64, sum := some (mul mean (ofInt count'.toInt)), max := some (ofInt max.toInt), min := some (ofInt min.toInt), sumSquares := some sq, period := periodInt, attributes := .timer }
      let ps ← percentileGaugesLive r (fun p v => { name := sprintf "%s.timer.%2.0f" [.str name, .val (.float (mul p (lit 100)))], value := some (.float v), period := periodInt, attributes := .timer }) cfg.percentiles
      let r1 ← rateGaugeLive cfg name r ".rate.1min" .rate1
      let r5 ← rateGaugeLive cfg name r ".rate.5min" .rate5
      let r15 ← rateGaugeLive cfg name r ".rate.15min" .rate15
      return ([c], g :: ps ++ [r1, r5, r15])
    else return ([c], [])
  -- no default case
  | _ => return ([], [])

/-- The callback, like `libratoCallback`. -/
def libratoCallbackLive (s : Nat → Turn F) (cfg : Reporter F) : LiveCallback F (List (Measurement F) × List (Measurement F)) := fun name r y =>
  match (World.init.run y.1.log : World F).objs r with
  | some o =>
    match libratoMetricLive cfg name r o s y.1 with
    | (w, .ok b) => ((w, (y.2.1 ++ b.1, y.2.2 ++ b.2)), none)
    | (w, .error p) => ((w, y.2), some p)
  | none => (y, none)

/-- librato.go:82-235 `BuildRequest`, like `buildRequest`. -/
def buildRequestLive (s : Nat → Turn F) (cfg : Reporter F) (now : Int64) (g : Reg) (h : List (Env F × Op F)) : LiveState F × Res (Batch F) :=
  if cfg.intervalSec = 0 then (⟨h, 0⟩, .error .divZero)
  else
    match eachLive s g (fun l => l) (libratoCallbackLive s cfg) ([], []) h with
    | ((st, b), .ok ()) => (st, .ok { measureTime := now / cfg.intervalSec * cfg.intervalSec, source := cfg.source, counters := b.1, gauges := b.2 })
    | ((st, _), .error p) => (st, .error p)

end GoMetrics
