import Verif.Spec.Sample

/-! Specification for C115: how the values of a decaying sample go away. -/

namespace GoMetrics.Spec

/-- The calls that give these updates to a sample, one after the other. -/
def updates {F : Type} (l : List (Given F)) : List (ExpOp F) := l.map fun g => .update g.t g.v g.u

/-- Every one of the new updates comes at least `gap` nanoseconds after every one of the old ones. -/
def Silence {F : Type} (gap : Int) (old new : List (Given F)) : Prop := ∀ x ∈ old, ∀ y ∈ new, x.t + gap ≤ y.t

end GoMetrics.Spec
