import Verif.Go.Float

/-! The operations of the exact float instance, as simp lemmas. -/

namespace GoMetrics
variable {K : Type} [Field K] [LinearOrder K] [FloorRing K]

@[simp] theorem exact_lit (q : ℚ) : (GoFloat.lit q : K) = (q : K) := rfl
@[simp] theorem exact_ofInt (i : Int) : (GoFloat.ofInt i : K) = (i : K) := rfl
@[simp] theorem exact_add (a b : K) : GoFloat.add a b = a + b := rfl
@[simp] theorem exact_sub (a b : K) : GoFloat.sub a b = a - b := rfl
@[simp] theorem exact_neg (a : K) : GoFloat.neg a = -a := rfl
@[simp] theorem exact_mul (a b : K) : GoFloat.mul a b = a * b := rfl
@[simp] theorem exact_div (a b : K) : GoFloat.div a b = a / b := rfl
@[simp] theorem exact_lt (a b : K) : GoFloat.lt a b = decide (a < b) := rfl
@[simp] theorem exact_le (a b : K) : GoFloat.le a b = decide (a ≤ b) := rfl
@[simp] theorem exact_floor (a : K) : GoFloat.floor a = (⌊a⌋ : K) := rfl
@[simp] theorem exact_toInt (a : K) : GoFloat.toInt a = if 0 ≤ a then ⌊a⌋ else ⌈a⌉ := rfl

end GoMetrics
