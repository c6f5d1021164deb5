import Verif.Go.Digits
import Verif.Spec.Expvar
import Verif.Spec.JsonDoc

/-! What a JSON parser should find in the response of the expvar handler. -/

namespace GoMetrics.Spec
open GoMetrics

/-- A character that `%q` writes as JSON can read it: no control character except \b, \t, \n, \f, \r, not U+007F, and beyond the basic plane only printable characters. -/
def JsonSafe (printable : Nat → Bool) (c : Nat) : Prop := (32 ≤ c ∧ c ≠ 127 ∧ (c < 0x10000 ∨ printable c = true)) ∨ c = 8 ∨ c = 9 ∨ c = 10 ∨ c = 12 ∨ c = 13
/-- A name in UTF-8 of such characters. -/
def SafeName (printable : Nat → Bool) (s : Str) : Prop := ∃ cs, (∀ c ∈ cs, Scalar c ∧ JsonSafe printable c) ∧ s = utf8Text cs

/-- A variable that is not NaN or infinite. -/
def FiniteVar : Var F64 → Prop
  | .int _ => True
  | .float (.float x) => ∃ q, x = .fin q
  | .float (.bits b) => ∃ q, F64.ofBits b = .fin q
  | .float _ => False
  | .other => True

/-- The JSON value denotes the content of a variable. -/
def VarDenotes : Var F64 → Json → Prop
  | .int n, j => j = .num n.toInt
  | .float (.float x), j => ∃ q r : ℚ, x = .fin q ∧ j = .num r ∧ F64.round r = F64.round q
  | .float (.bits b), j => ∃ r : ℚ, j = .num r ∧ F64.round r = F64.ofBits b
  | .float _, _ => False
  | .other, _ => True

/-- The names of all variables. -/
def AllKeys (keys : List Str) (vars : Str → Option (Var F64)) : Prop := keys.Nodup ∧ ∀ n, n ∈ keys ↔ vars n ≠ none

end GoMetrics.Spec
