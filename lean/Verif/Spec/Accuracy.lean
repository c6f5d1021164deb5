import Verif.Spec.Stats
import Mathlib.Data.Rat.Cast.Order
import Mathlib.Algebra.Order.Field.Rat
import Mathlib.Data.Rat.Floor

/-! The exact statistics of a slice, as rational numbers, against which the float64 results are measured. -/

namespace GoMetrics.Spec

/-- Unit roundoff of float64: half the distance from 1 to the next number. -/
def uu : ℚ := 1 / 2 ^ 53

/-- The mean of the values. -/
def trueMean (vs : List Int64) : ℚ := total vs / vs.length

/-- The sum of the squared distances from `c`. -/
def squares (c : ℚ) (vs : List Int64) : ℚ := (vs.map fun v => ((v.toInt : ℚ) - c) ^ 2).sum

/-- The variance of the values: the mean squared distance from the mean. -/
def trueVariance (vs : List Int64) : ℚ := squares (trueMean vs) vs / vs.length

/-- The value at the rank `r` (counted from 1) of the sorted values `xs`: linear between neighbours, constant outside. -/
def rankValue (xs : List Int64) (r : ℚ) : ℚ :=
  let nth (i : Nat) : ℚ := (xs.getD i 0).toInt
  if r < 1 then nth 0
  else if xs.length ≤ r then nth (xs.length - 1)
  else nth (⌊r⌋.toNat - 1) + (r - ⌊r⌋) * (nth ⌊r⌋.toNat - nth (⌊r⌋.toNat - 1))

/-- No two neighbours of the sorted values `xs` are more than `g` apart. -/
def GapsAtMost (g : ℚ) (xs : List Int64) : Prop := ∀ i, i + 1 < xs.length → ((xs.getD (i + 1) 0).toInt : ℚ) - (xs.getD i 0).toInt ≤ g

end GoMetrics.Spec
