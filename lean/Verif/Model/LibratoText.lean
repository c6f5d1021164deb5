import Verif.Go.Json
import Verif.Model.LibratoClient
import Verif.Model.Units

/-!
The body of the request of /repo/librato/client.go: `json.Marshal(batch)` (line 79), byte by byte, for the types of lines 58-66 and the values that `BuildRequest` puts in them.

`encoding/json` writes the fields of a struct in the order of their declaration and leaves out an `omitempty` slice that is empty; it writes the keys of a map in byte order. (The keys of the maps
here are constants: they are listed in that order.) A number that is NaN or infinite is an error, which ends the encoding.
-/

namespace GoMetrics

/-- The members of an object, one after the other; `none` is an error. -/
def objectMembers (quote : Str → Str) : Bool → List (String × Option Str) → Option Str
  | _, [] => some []
  | first, (k, v) :: l => do
    let v ← v
    let rest ← objectMembers quote false l
    return (if first then [] else bytes ",") ++ quote (bytes k) ++ bytes ":" ++ v ++ rest
def objectText (quote : Str → Str) (l : List (String × Option Str)) : Option Str := do
  let m ← objectMembers quote true l
  return bytes "{" ++ m ++ bytes "}"

/-- The elements of an array. -/
def arrayElements : Bool → List (Option Str) → Option Str
  | _, [] => some []
  | first, v :: l => do
    let v ← v
    let rest ← arrayElements false l
    return (if first then [] else bytes ",") ++ v ++ rest
def arrayText (l : List (Option Str)) : Option Str := do
  let m ← arrayElements true l
  return bytes "[" ++ m ++ bytes "]"

/-- A key that is there only if there is a value. -/
def optMember {α : Type} (k : String) (text : α → Option Str) : Option α → List (String × Option Str)
  | some v => [(k, text v)]
  | none => []

/-- `measurement[Attributes]`: librato.go:102-106 (and 146-150, …), `translateTimerAttributes` (17-22). -/
def attributesText (t : JsonText F64) (timer : TimerAttributes) : LibratoAttrs → List (String × Option Str)
  | .none => []
  | .operations => [("attributes", objectText t.quote
      [("display_min", some (t.quote (bytes "0"))), ("display_units_long", some (t.quote (bytes "operations"))), ("display_units_short", some (t.quote (bytes "ops")))])]
  | .timer => [("attributes", objectText t.quote
      [("display_transform", some (t.quote timer.displayTransform)), ("display_units_short", some (t.quote timer.displayUnitsShort))])]

/-- client.go:58 a `Measurement` of `BuildRequest`: a map. -/
def measurementText (t : JsonText F64) (timer : TimerAttributes) (m : Measurement F64) : Option Str :=
  let float (x : F64) : Option Str := jsonValue t (.float x)
  objectText t.quote (attributesText t timer m.attributes ++ optMember "count" (fun n : UInt64 => some (fmtInt n.toNat)) m.count ++ optMember "max" float m.max ++
    optMember "min" float m.min ++ [("name", some (t.quote (render t.errText m.name))), ("period", jsonValue t m.period)] ++ optMember "sum" float m.sum ++
    optMember "sum_squares" float m.sumSquares ++ optMember "value" (jsonValue t) m.value)

/-- client.go:61-64 a slice of measurements with `omitempty`. -/
def measurementsText (t : JsonText F64) (timer : TimerAttributes) (k : String) (ms : List (Measurement F64)) : List (String × Option Str) :=
  if ms.length = 0 then [] else [(k, arrayText (ms.map (measurementText t timer)))]

/-- client.go:61-66, 79 a `Batch`. -/
def batchText (t : JsonText F64) (timer : TimerAttributes) (b : Batch F64) : Option Str :=
  objectText t.quote (measurementsText t timer "gauges" b.gauges ++ measurementsText t timer "counters" b.counters ++
    [("measure_time", some (t.int b.measureTime)), ("source", some (t.quote b.source))])

/-- The text, for Model/LibratoClient; it is only used if there is no error. -/
def libratoBody (t : JsonText F64) (timer : TimerAttributes) (b : Batch F64) : Str := (batchText t timer b).getD []

end GoMetrics
