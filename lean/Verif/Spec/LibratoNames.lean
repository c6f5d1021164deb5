import Verif.Spec.Librato
import Verif.Spec.StatNames

/-! Specification for C124: the Librato counters of the metrics of a registry. -/

namespace GoMetrics.Spec
open GoMetrics

variable {F : Type}

/-- The metrics that are posted as a counter under their own name. -/
def countsUnderName : Obj F → Bool
  | .meter _ | .timer _ => true
  | _ => false

variable [GoFloat F] [GoSqrt F] [GoExp F]

/-- A meter or timer is called like a counter (which has counted something), a point and "count". -/
def CountersClash (w : World F) (env : Env F) (g : Reg) : Prop :=
  ∃ id name r c name' o', base g = some id ∧ gets w id name = some r ∧ (prefixes g).flatten <+: name ∧ w.objs r = some (.counter c) ∧ 0 < countOf w env r ∧
    Visible w g name' o' ∧ countsUnderName o' = true ∧ name' = name ++ bytes ".count"

end GoMetrics.Spec
