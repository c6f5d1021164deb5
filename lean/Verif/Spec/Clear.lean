import Verif.Spec.TimeShift
import Verif.Spec.World

/-! Vocabulary for C106: replacing a metric by a new one. -/

namespace GoMetrics.Spec
open GoMetrics

variable {F : Type} [GoFloat F] [GoSqrt F] [GoExp F]

/-- The object that a constructor makes at `env` (with `UseNilMetrics` false). -/
def freshObj (env : Env F) (c : NewOp F) : Option (Obj F) :=
  match construct env c (World.init : World F) with
  | (w, .ok r) => w.objs r
  | _ => none

/-- The object at `r` was made by this constructor call: a counter; a sample with this reservoir size and this alpha. -/
def madeBy : Obj F → NewOp F → Prop
  | .counter (.std _), .counter => True
  | .sample (.uniform s), .uniform k => s.reservoirSize = k
  | .sample (.exp s), .exp k a => s.reservoirSize = k ∧ s.alpha = a
  | _, _ => False

/-- The state in which there is a new object at `r`; everything else is as in `w`. -/
def replaced (w : World F) (r : Ref) (o : Obj F) : World F := { w with objs := fun q => if q = r then some o else w.objs q }

end GoMetrics.Spec
