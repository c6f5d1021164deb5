import Verif.Spec.JsonDoc
import Verif.Spec.PercentNames
import Verif.Model.Units

/-! What a server should find in the requests for Librato (C92), in the terms of the API of Librato: a document with the members `measure_time`, `source`, `counters` and `gauges`. -/

namespace GoMetrics.Spec
open GoMetrics

/-- A key of an object. -/
def keyOf (s : String) : List Nat := s.toList.map Char.toNat

/-- The object has one member with this key, of which `P` holds, or none if there is no value. -/
def Has {α : Type} (j : Json) (k : String) (v : Option α) (P : α → Json → Prop) : Prop :=
  match v with
  | none => j.member (keyOf k) = []
  | some v => ∃ x, j.member (keyOf k) = [x] ∧ P v x

def IsText (s : Str) (j : Json) : Prop := j = .str (chars s)
def IsNumber : GoMetrics.Field F64 → Json → Prop := Denotes fun _ => []
def IsFloat (x : F64) (j : Json) : Prop := IsNumber (.float x) j

/-- No other keys. -/
def Only (ks : List String) (j : Json) : Prop := ∀ k, j.member k ≠ [] → ∃ s ∈ ks, k = keyOf s

/-- The display attributes: a unit of events per interval, or the unit of the durations of timers. -/
def AttributesDenote (timer : TimerAttributes) : LibratoAttrs → Json → Prop
  | .none, j => j.member (keyOf "attributes") = []
  | .operations, j => ∃ a, j.member (keyOf "attributes") = [a] ∧ Only ["display_units_long", "display_units_short", "display_min"] a ∧
      Has a "display_units_long" (some (bytes "operations")) IsText ∧ Has a "display_units_short" (some (bytes "ops")) IsText ∧ Has a "display_min" (some (bytes "0")) IsText
  | .timer, j => ∃ a, j.member (keyOf "attributes") = [a] ∧ Only ["display_transform", "display_units_short"] a ∧
      Has a "display_transform" (some timer.displayTransform) IsText ∧ Has a "display_units_short" (some timer.displayUnitsShort) IsText

/-- The JSON value is the measurement. -/
def MeasurementDenotes (timer : TimerAttributes) (m : Measurement F64) (j : Json) : Prop :=
  Only ["name", "value", "count", "sum", "max", "min", "sum_squares", "period", "attributes"] j ∧
  Has j "name" (some (nameText m)) IsText ∧ Has j "value" m.value IsNumber ∧ Has j "count" m.count (fun n x => x = .num n.toNat) ∧ Has j "sum" m.sum IsFloat ∧ Has j "max" m.max IsFloat ∧
  Has j "min" m.min IsFloat ∧ Has j "sum_squares" m.sumSquares IsFloat ∧ Has j "period" (some m.period) IsNumber ∧ AttributesDenote timer m.attributes j

/-- The JSON value is the list of measurements; an empty one is left out. -/
def MeasurementsDenote (timer : TimerAttributes) (doc : Json) (k : String) (ms : List (Measurement F64)) : Prop :=
  Has doc k (if ms = [] then none else some ms) fun ms x => ∃ js, x = .arr js ∧ List.Forall₂ (MeasurementDenotes timer) ms js

/-- The document is the batch. -/
def BatchDenotes (timer : TimerAttributes) (b : Batch F64) (doc : Json) : Prop :=
  Only ["measure_time", "source", "counters", "gauges"] doc ∧
  Has doc "measure_time" (some b.measureTime) (fun n x => x = .num n.toInt) ∧ Has doc "source" (some b.source) IsText ∧
  MeasurementsDenote timer doc "counters" b.counters ∧ MeasurementsDenote timer doc "gauges" b.gauges

/-- The elements of an array that is a member of the document. -/
def elements (doc : Json) (k : String) : List Json :=
  (doc.member (keyOf k)).flatMap fun
    | .arr js => js
    | _ => []

end GoMetrics.Spec
