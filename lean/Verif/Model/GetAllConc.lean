import Verif.Model.ExportConc
import Verif.Model.Json

/-!
Model of `GetAll` (/repo/registry.go:127-185, 318-320) and of the JSON export (/repo/json.go) while other goroutines go on using the metrics and the registry; like `Verif/Model/GetAll.lean` and `Verif/Model/Json.lean`, with the schedules of
`Verif/Model/ExportConc.lean`. The same simplifications.
-/

namespace GoMetrics
open GoFloat

variable {F : Type} [GoFloat F] [GoSqrt F] [GoExp F]

/-- Like `setField`. -/
def setFieldLive (k : String) (r : Ref) (c : Call F) : Live F (String × Field F) := do
  return (k, (← liveCall r c).field)

/-- registry.go:146-156 and 166-176, like `histFields`. -/
def histFieldsLive (q : Ref) : Live F (List (String × Field F)) := do
  let ps ← liveCall q (.stat (.percentiles getAllPercentiles))
  let count ← setFieldLive "count" q .count
  let min ← setFieldLive "min" q (.stat .min)
  let max ← setFieldLive "max" q (.stat .max)
  let mean ← setFieldLive "mean" q (.stat .mean)
  let stddev ← setFieldLive "stddev" q (.stat .stdDev)
  let p0 ← Live.lift (ps.at 0)
  let p1 ← Live.lift (ps.at 1)
  let p2 ← Live.lift (ps.at 2)
  let p3 ← Live.lift (ps.at 3)
  let p4 ← Live.lift (ps.at 4)
  return [count, min, max, mean, stddev, ("median", p0), ("75%", p1), ("95%", p2), ("99%", p3), ("99.9%", p4)]

/-- registry.go:160-163 and 177-180, like `rateFields`. -/
def rateFieldsLive (q : Ref) : Live F (List (String × Field F)) := do
  let r1 ← setFieldLive "1m.rate" q (.rates .rate1)
  let r5 ← setFieldLive "5m.rate" q (.rates .rate5)
  let r15 ← setFieldLive "15m.rate" q (.rates .rate15)
  let rm ← setFieldLive "mean.rate" q (.rates .rateMean)
  return [r1, r5, r15, rm]

/-- registry.go:129-182, like `valuesOf`; `o` is only used for the type switch. Between the two reads of the error of a healthcheck others may change it. -/
def valuesOfLive (r : Ref) (o : Obj F) : Live F (List (String × Field F)) :=
  match o with
  | .counter _ => do return [← setFieldLive "count" r .count]
  | .gauge _ => do return [← setFieldLive "value" r .value]
  | .gaugeF _ => do return [← setFieldLive "value" r .value]
  | .health _ => do
    let _ ← liveCall r .check
    match ← liveCall r .error with
    | .err (some _) =>
      match ← liveCall r .error with
      | .err (some e) => return [("error", .errText e)]
      | _ => Live.lift (.error .nilDeref)
    | _ => return [("error", .nil)]
  | .hist _ => do
    let h ← snapshotOfLive r
    histFieldsLive h
  | .meter _ => do
    let m ← snapshotOfLive r
    let count ← setFieldLive "count" m .count
    return count :: (← rateFieldsLive m)
  | .timer _ => do
    let t ← snapshotOfLive r
    return (← histFieldsLive t) ++ (← rateFieldsLive t)
  | _ => return []

/-- The callback of `GetAll`, like `getAllCallback`. -/
def getAllCallbackLive (s : Nat → Turn F) : LiveCallback F (Data F) := fun name r x =>
  match (World.init.run x.1.log : World F).objs r with
  | some o =>
    match valuesOfLive r o s x.1 with
    | (st, .ok values) => ((st, x.2 ++ [(name, values)]), none)
    | (st, .error p) => ((st, x.2), some p)
  | none => ((x.1, x.2 ++ [(name, [])]), none)

/-- registry.go:127-185, 318-320 `GetAll`, like `getAll`: a prefixed registry passes the call on; `none`: the call goes to user code. -/
def getAllLive (s : Nat → Turn F) : Reg → List (Env F × Op F) → LiveState F × Res (Option (Data F))
  | .std id, h =>
    match eachLive s (.std id) (fun l => l) (getAllCallbackLive s) [] h with
    | ((st, data), .ok _) => (st, .ok (some data))
    | ((st, _), .error p) => (st, .error p)
  | .prefixed u _, h => getAllLive s u h
  | .foreign, h => (⟨h ++ (s 0).others, 1⟩, .ok none)

/-- json.go:11-13, 29-31 `MarshalJSON`, like `marshalJSON`. -/
def marshalJSONLive (s : Nat → Turn F) (t : JsonText F) (srt : KeySorter) (g : Reg) (h : List (Env F × Op F)) : LiveState F × Res (Option Str) :=
  match getAllLive s g h with
  | (st, .ok (some data)) => (st, .ok (jsonMarshal t srt data))
  | (st, .ok none) => (st, .ok none)
  | (st, .error p) => (st, .error p)

/-- json.go:25-27 `WriteJSONOnce`, like `writeJSONOnce`. -/
def writeJSONOnceLive (s : Nat → Turn F) (t : JsonText F) (srt : KeySorter) (g : Reg) (h : List (Env F × Op F)) : LiveState F × Res Str :=
  match marshalJSONLive s t srt g h with
  | (st, .ok (some text)) => (st, .ok (text ++ [10]))
  | (st, .ok none) => (st, .ok [])
  | (st, .error p) => (st, .error p)

end GoMetrics
