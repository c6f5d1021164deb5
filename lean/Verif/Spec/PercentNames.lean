import Verif.Go.Digits
import Verif.Model.Librato
import Verif.Spec.Wire

/-! What the names of percentiles should say (C89). -/

namespace GoMetrics.Spec
open GoMetrics

/-- The text of a name of the batch. -/
def nameText (m : Measurement F64) : Str := render (fun _ => []) m.name

/-- The name of a gauge for a percentile: a text, spaces, and a number that reads as `value`. -/
def PercentName (pre : Str) (value : ℚ) (t : Str) : Prop :=
  ∃ k digits, t = pre ++ List.replicate k 32 ++ digits ∧ readNumber digits = some (.num value)

end GoMetrics.Spec
