import Verif.Spec.Librato
import Mathlib.Data.Real.Basic

/-! What Librato shows for a summary gauge (C121). Librato's API takes `count` and `sum` of a multi-sample gauge and shows `sum / count` as its value. -/

namespace GoMetrics.Spec
open GoMetrics

/-- The value Librato shows for a measurement that has a count and a sum and no value. -/
noncomputable def shownMean (m : Measurement ℝ) : Option ℝ :=
  match m.value, m.count, m.sum with
  | none, some c, some s => some (s / (c.toNat : ℝ))
  | _, _, _ => none

end GoMetrics.Spec
