import Verif.Spec.World

/-! When an operation can have an effect on a metric (C93). -/

namespace GoMetrics.Spec
open GoMetrics

variable {F : Type}

/-- The two objects have a part in common, or report the values of the same slice. -/
def shares (w : World F) (x y : Ref) : Prop := (∃ p, partOf w x p ∧ partOf w y p) ∨ ∃ a, slice w x = some a ∧ slice w y = some a

/-- The operation may change what the object `y` reports: a call of a method of an object sharing parts with `y`; a write by user code to the
slice whose values `y` reports; the clock, if `y` is or has a meter that ticks; `RunHealthchecks` of a registry with the healthcheck
`y`; `Unregister` and `UnregisterAll`, if they stop `y` or the meter of `y`. -/
def touches (w : World F) (o : Op F) (y : Ref) : Prop :=
  match o with
  | .call x _ => shares w x y
  | .slice (.set a _ _) => slice w y = some a
  | .tick => ∃ m, partOf w y m ∧ live w m
  | .reg g .runHealthchecks => ∃ id name h, base g = some id ∧ (name, y) ∈ w.regs id ∧ w.objs y = some (.health h)
  | .reg g (.unregister n) => ∃ m, partOf w y m ∧ stops w (.reg g (.unregister n)) m
  | .reg g .unregisterAll => ∃ m, partOf w y m ∧ stops w (.reg g .unregisterAll) m
  | _ => False

/-- No operation of the history may change what `y` reports. -/
def Untouched [GoFloat F] [GoSqrt F] [GoExp F] (w : World F) : List (Env F × Op F) → Ref → Prop
  | [], _ => True
  | (env, o) :: h, y => ¬ touches w o y ∧ Untouched (step env o w).1 h y

/-- The constructor is given nothing that other metrics may use: no sample, histogram, meter or slice. -/
def selfContained : NewOp F → Bool
  | .hist _ | .customTimer _ _ | .sampleSnap _ _ => false
  | _ => true

end GoMetrics.Spec
