import Verif.Go.Body

/-! Notions about methods of an object with one mutex. -/

namespace GoMetrics.Spec
open GoMetrics

/-- The calls invoked in a trace. -/
def invoked {Op R : Type} (tr : List (CEv Op R)) : List Op := (invs tr).map Prod.snd

/-- The goroutine is about to use the fields of the object. -/
def touching {Op S X R : Type} : BodyL Op S X R → Prop
  | .run _ (.act _ _) => True
  | _ => False

end GoMetrics.Spec
