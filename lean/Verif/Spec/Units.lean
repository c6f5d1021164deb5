import Verif.Spec.Wire

/-! What unit names mean to a reader. -/

namespace GoMetrics.Spec
open GoMetrics

/-- The units of time that are printed without a number, and how many nanoseconds they are. -/
def unitNames : List (Str × Int) :=
  [(bytes "ns", 1), (bytes "µs", 1000), (bytes "ms", 1000000), (bytes "s", 1000000000), (bytes "m", 60000000000), (bytes "h", 3600000000000)]

/-- The text `s` after a number is understood as the unit of `n` nanoseconds. -/
def Names (s : Str) (n : Int) : Prop := (s, n) ∈ unitNames

/-- The number that a transform `x/number` divides by. -/
def divisor : Str → Option Int
  | 120 :: 47 :: s => readInt s
  | _ => none

end GoMetrics.Spec
