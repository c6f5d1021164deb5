import Verif.Go.Digits
import Verif.Spec.Json
import Verif.Spec.JsonRead

/-! What a JSON parser should find in the output of `WriteJSONOnce`. -/

namespace GoMetrics.Spec
open GoMetrics

/-- A text that is UTF-8. -/
def ValidText (s : Str) : Prop := ∃ cs, (∀ c ∈ cs, Scalar c) ∧ s = utf8Text cs

/-- The JSON value denotes the value of a field: an integer exactly, a float by a number to which it is nearest (and that of a GaugeFloat64 exactly), an error by its text, and no error by null. -/
def Denotes (errText : Nat → Str) : GoMetrics.Field F64 → Json → Prop
  | .int n, j => j = .num n.toInt
  | .float x, j => ∃ q r : ℚ, x = .fin q ∧ j = .num r ∧ F64.round r = F64.round q
  | .bits b, j => ∃ r : ℚ, j = .num r ∧ F64.round r = F64.ofBits b
  | .errText e, j => j = .str (chars (errText e))
  | .nil, j => j = .null

/-- The text is an object with one member for every bound name, that is an object with one member for every field of the metric, whose value denotes that of the accessor the field is named
after. -/
def ReadsAs [GoSqrt F64] [GoExp F64] (errText : Nat → Str) (w : World F64) (env : Env F64) (id : Nat) (text : Str) : Prop :=
  ∃ ms : List (Str × List (Str × Json)), readJson text = some (.obj (ms.map fun m => (chars m.1, .obj (m.2.map fun f => (chars f.1, f.2))))) ∧
    (ms.map Prod.fst).Nodup ∧ (∀ name, name ∈ ms.map Prod.fst ↔ gets w id name ≠ none) ∧
    ∀ name fs, (name, fs) ∈ ms → ∃ r o, gets w id name = some r ∧ w.objs r = some o ∧
      ∃ fs', fs'.Perm fs ∧ List.Forall₂ (fun (kc : String × Call F64) (f : Str × Json) => f.1 = bytes kc.1 ∧ ∃ v, Holds w env r kc.2 v ∧ Denotes errText v f.2) (fieldsOf o) fs'

end GoMetrics.Spec
