import Verif.Model.ExpDecay
import Verif.Model.Uniform

/-! Vocabulary for C111: the same calls with other values. -/

namespace GoMetrics.Spec
open GoMetrics

/-- The same call with `f v` in place of every value `v`; random draws and times stay. -/
def withValue (f : Int64 → Int64) : UniformOp → UniformOp
  | .update v d => .update (f v) d
  | o => o

def withValueE {F : Type} (f : Int64 → Int64) : ExpOp F → ExpOp F
  | .update t v u => .update t (f v) u
  | o => o

/-- `f` keeps the order. -/
def Increasing (f : Int64 → Int64) : Prop := ∀ a b : Int64, a.toInt ≤ b.toInt → (f a).toInt ≤ (f b).toInt

/-- On the values `vs`, `f` is the change of unit and origin `x ↦ a·x + b`. -/
def ChangesUnit (a b : Int) (f : Int64 → Int64) (vs : List Int64) : Prop := ∀ v ∈ vs, (f v).toInt = a * v.toInt + b

end GoMetrics.Spec
