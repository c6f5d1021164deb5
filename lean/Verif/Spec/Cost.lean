import Verif.Model.ExpDecay

/-! Vocabulary for C110: the number and the times of the calls on a sample. -/

namespace GoMetrics.Spec
open GoMetrics

/-- The time at which a call is made. -/
def opTime {F : Type} : ExpOp F → Instant
  | .update t _ _ => t
  | .clear now => now

/-- The number of calls of `Update`. -/
def updateCalls {F : Type} (ops : List (ExpOp F)) : Nat := ops.countP fun | .update .. => true | _ => false

/-- The calls are made one after the other, from `from_` to `to_`, by a clock that does not go back. -/
def InOrder {F : Type} (from_ to_ : Instant) (ops : List (ExpOp F)) : Prop :=
  (ops.map opTime).Pairwise (· ≤ ·) ∧ ∀ o ∈ ops, from_ ≤ opTime o ∧ opTime o ≤ to_

/-- The full hours between two times. -/
def hoursBetween (from_ to_ : Instant) : Nat := ((to_ - from_) / (3600 * 10 ^ 9)).toNat

end GoMetrics.Spec
