import Verif.Model.Json
import Verif.Spec.Export

/-! What `WriteJSONOnce` should write. -/

namespace GoMetrics.Spec
open GoMetrics

variable {F : Type}

/-- A JSON object with these members. -/
def jsonObject (quote : Str → Str) (members : List (Str × Str)) : Str :=
  [123] ++ List.intercalate [44] (members.map fun m => quote m.1 ++ 58 :: m.2) ++ [125]

/-- The text for a value. -/
def jsonText (t : JsonText F) : GoMetrics.Field F → Str
  | .int n => t.int n
  | .float x => t.float x
  | .bits b => t.bits b
  | .errText e => t.quote (t.errText e)
  | .nil => [110, 117, 108, 108]

/-- A number that JSON can represent: it lies between two finite float64. -/
def representable [GoFloat F] : GoMetrics.Field F → Prop
  | .float x => GoFloat.le x x = true ∧ GoFloat.lt (GoFloat.lit ((2 ^ 53 - 1) * 2 ^ 971)) x = false ∧ GoFloat.lt x (GoFloat.lit (-((2 ^ 53 - 1) * 2 ^ 971))) = false
  | .bits b => b.toNat / 2 ^ 52 % 2 ^ 11 ≠ 2 ^ 11 - 1
  | _ => True

/-- The text is the JSON of everything in the registry `id`: an object with a member for every bound name, in byte order, that is an object with a member for
every field of the metric (in byte order), whose value is that of the accessor the field is named after. -/
def JsonOf [GoFloat F] [GoSqrt F] [GoExp F] (t : JsonText F) (w : World F) (env : Env F) (id : Nat) (text : Str) : Prop :=
  ∃ ms : List (Str × List (Str × GoMetrics.Field F)), text = jsonObject t.quote (ms.map fun m => (m.1, jsonObject t.quote (m.2.map fun f => (f.1, jsonText t f.2)))) ∧
    (ms.map Prod.fst).Pairwise Before ∧ (∀ name, name ∈ ms.map Prod.fst ↔ gets w id name ≠ none) ∧
    ∀ name fs, (name, fs) ∈ ms → ∃ r o, gets w id name = some r ∧ w.objs r = some o ∧ (fs.map Prod.fst).Pairwise Before ∧
      ∃ fs', fs'.Perm fs ∧ List.Forall₂ (fun (kc : String × Call F) f => f.1 = bytes kc.1 ∧ Holds w env r kc.2 f.2) (fieldsOf o) fs'

end GoMetrics.Spec
