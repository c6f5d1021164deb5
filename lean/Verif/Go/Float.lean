import Mathlib.Algebra.Order.Floor.Ring
import Mathlib.Data.Rat.Floor

/-
The floating-point operations used by the modelled code, as an interface.

The code that computes with float64 is modelled once, over this interface, and then used at two instances:
* `exactFloat`: any linearly ordered field with a floor (ℚ or ℝ): the operations without rounding;
* `F64` (file `Go/F64.lean`): IEEE-754 binary64 with round-to-nearest-even.
-/

namespace GoMetrics

/-- Operations on float64 that appear in the code. `ofInt` is the conversion `float64(i)`, `toInt` is `int(x)`
(truncation; Go leaves the result implementation-defined when `x` is NaN or out of range). -/
class GoFloat (F : Type) where
  /-- an untyped constant of the program text converted to float64 -/
  lit : ℚ → F
  ofInt : Int → F
  add : F → F → F
  sub : F → F → F
  neg : F → F
  mul : F → F → F
  div : F → F → F
  lt : F → F → Bool
  le : F → F → Bool
  floor : F → F
  toInt : F → Int

/-- `math.Sqrt`, only used by `SampleStdDev`. -/
class GoSqrt (F : Type) where
  sqrt : F → F

/-- `math.Exp`, used for the EWMA constants and the sample priorities. -/
class GoExp (F : Type) where
  exp : F → F

/-- Exact arithmetic: no rounding. (A field has no NaN or infinities; division by zero gives 0 here, and every
theorem about the exact instance that involves a division is stated where the divisor is non-zero.) -/
instance exactFloat {K : Type} [Field K] [LinearOrder K] [FloorRing K] : GoFloat K where
  lit q := (q : K)
  ofInt i := (i : K)
  add a b := a + b
  sub a b := a - b
  neg a := -a
  mul a b := a * b
  div a b := a / b
  lt a b := decide (a < b)
  le a b := decide (a ≤ b)
  floor a := (⌊a⌋ : K)
  toInt a := if 0 ≤ a then ⌊a⌋ else ⌈a⌉

end GoMetrics
