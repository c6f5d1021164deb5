import Verif.Go.Basic
import Mathlib.Algebra.Order.Field.Basic
import Mathlib.Algebra.BigOperators.Group.List.Basic

/-! Specifications of the statistics: the textbook definitions, over the integers and an exact field. -/

namespace GoMetrics.Spec

/-- The mathematical sum. -/
def total (vs : List Int64) : Int := (vs.map Int64.toInt).sum

/-- The mathematical sum fits in int64. -/
def SumFits (vs : List Int64) : Prop := -2 ^ 63 ≤ total vs ∧ total vs < 2 ^ 63

instance (vs : List Int64) : Decidable (SumFits vs) := inferInstanceAs (Decidable (_ ∧ _))

/-- Sum of squares. -/
def totalSq (vs : List Int64) : Int := (vs.map (fun v => v.toInt * v.toInt)).sum

/-- `xs` is the increasing rearrangement of `vs`. -/
def SortedOf (xs vs : List Int64) : Prop := xs.Perm vs ∧ xs.Pairwise (fun a b => a.toInt ≤ b.toInt)

end GoMetrics.Spec
