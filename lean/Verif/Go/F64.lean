import Verif.Go.Basic
import Verif.Go.Float
import Mathlib.Data.Int.Log
import Mathlib.Analysis.Real.Sqrt
import Mathlib.Analysis.SpecialFunctions.Exp
import Mathlib.Algebra.Order.Archimedean.Real.Basic

/-
IEEE-754 binary64 with round-to-nearest, ties-to-even (the arithmetic of Go's float64; Go spec "Numeric types").

Simplifications:
* the two zeros are identified (so x/0 is +Inf for x > 0 and -Inf for x < 0, i.e. the divisor is taken to be +0);
* NaN is a single value (payloads are kept only in the bit-level model of `GaugeFloat64`);
* fused multiply-add is not modelled (the amd64 compiler does not fuse; the Go spec allows it elsewhere).
-/

namespace GoMetrics

/-- Round to the nearest integer, ties to even. -/
def roundEven {K : Type} [Field K] [LinearOrder K] [FloorRing K] (x : K) : ℤ :=
  if x - ⌊x⌋ < 1 / 2 then ⌊x⌋
  else if 1 / 2 < x - ⌊x⌋ then ⌊x⌋ + 1
  else if ⌊x⌋ % 2 = 0 then ⌊x⌋ else ⌊x⌋ + 1

/-- Exponent of the unit in the last place used to represent `x`: 53-bit significands, least exponent -1074. -/
def ulpExp {K : Type} [Field K] [LinearOrder K] [FloorRing K] (x : K) : ℤ :=
  max (Int.log 2 |x| - 52) (-1074)

/-- The nearest number with a 53-bit significand and exponent at least -1074 (no upper bound on the exponent). -/
def rnd {K : Type} [Field K] [LinearOrder K] [FloorRing K] (x : K) : ℚ :=
  (roundEven (x / (2 : K) ^ ulpExp x) : ℚ) * (2 : ℚ) ^ ulpExp x

/-- binary64 values. -/
inductive F64 where
  | nan
  | inf (neg : Bool)
  | fin (q : ℚ)
  deriving DecidableEq

namespace F64

/-- 2^1024: the least magnitude that overflows. -/
@[irreducible] def overflowAt : ℚ := 2 ^ 1024

/-- Round an exact result to binary64; magnitudes that round to 2^1024 or more overflow to an infinity. -/
def round {K : Type} [Field K] [LinearOrder K] [FloorRing K] (x : K) : F64 :=
  if overflowAt ≤ rnd x then inf false
  else if rnd x ≤ -overflowAt then inf true
  else fin (rnd x)

/-- A rational is a finite binary64 value. -/
def Representable (q : ℚ) : Prop := round q = fin q

def add : F64 → F64 → F64
  | nan, _ => nan
  | _, nan => nan
  | inf a, inf b => if a = b then inf a else nan
  | inf a, fin _ => inf a
  | fin _, inf b => inf b
  | fin a, fin b => round (a + b)

def neg : F64 → F64
  | nan => nan
  | inf a => inf (!a)
  | fin a => fin (-a)

def sub (a b : F64) : F64 := add a (neg b)

def mul : F64 → F64 → F64
  | nan, _ => nan
  | _, nan => nan
  | inf a, inf b => inf (a != b)
  | inf a, fin q => if q = 0 then nan else inf (a != decide (q < 0))
  | fin q, inf a => if q = 0 then nan else inf (a != decide (q < 0))
  | fin a, fin b => round (a * b)

def div : F64 → F64 → F64
  | nan, _ => nan
  | _, nan => nan
  | inf _, inf _ => nan
  | inf a, fin q => inf (a != decide (q < 0))
  | fin _, inf _ => fin 0
  | fin a, fin b =>
    if b = 0 then (if a = 0 then nan else inf (decide (a < 0))) else round (a / b)

/-- `a <= b`: false if either is NaN. -/
def le : F64 → F64 → Bool
  | nan, _ => false
  | _, nan => false
  | inf true, _ => true
  | _, inf false => true
  | inf false, _ => false
  | _, inf true => false
  | fin a, fin b => decide (a ≤ b)

/-- `a < b`: false if either is NaN. -/
def lt : F64 → F64 → Bool
  | nan, _ => false
  | _, nan => false
  | inf false, _ => false
  | _, inf true => false
  | inf true, _ => true
  | _, inf false => true
  | fin a, fin b => decide (a < b)

def floor : F64 → F64
  | fin a => fin ⌊a⌋
  | x => x

/-- `int(x)`: truncation; NaN, infinities and values outside int64 give the amd64 result 0x8000000000000000. -/
def toInt : F64 → Int
  | fin a =>
    let t := if 0 ≤ a then ⌊a⌋ else ⌈a⌉
    if minInt64 ≤ t ∧ t ≤ maxInt64 then t else minInt64
  | _ => minInt64

/-- `math.Sqrt`: correctly rounded; NaN below zero. -/
noncomputable def sqrt : F64 → F64
  | nan => nan
  | inf true => nan
  | inf false => inf false
  | fin q => if q < 0 then nan else round (Real.sqrt (q : ℝ))

/-- `math.Exp`, taken to be correctly rounded (Go documents an error below one ulp; simplification). -/
noncomputable def exp : F64 → F64
  | nan => nan
  | inf true => fin 0
  | inf false => inf false
  | fin q => round (Real.exp (q : ℝ))

def IsNaN : F64 → Prop
  | nan => True
  | _ => False

def IsFinite : F64 → Prop
  | fin _ => True
  | _ => False

/-- `float64(i)` for an integer. -/
def ofInt (i : Int) : F64 := round (i : ℚ)

instance : GoFloat F64 where
  lit := round
  ofInt := ofInt
  add := add
  sub := sub
  neg := neg
  mul := mul
  div := div
  lt := lt
  le := le
  floor := floor
  toInt := toInt

noncomputable instance : GoSqrt F64 where
  sqrt := sqrt

noncomputable instance : GoExp F64 where
  exp := exp

end F64

/-- Exact square root on the reals. -/
noncomputable instance : GoSqrt ℝ where
  sqrt := Real.sqrt

/-- Exact exponential on the reals. -/
noncomputable instance : GoExp ℝ where
  exp := Real.exp

end GoMetrics
