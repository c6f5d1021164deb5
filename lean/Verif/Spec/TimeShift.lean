import Verif.Model.Registry

/-! Vocabulary for C105: the same history at another time. -/

namespace GoMetrics.Spec
open GoMetrics

variable {F : Type}

/-- The same environment with a clock that shows `d` more. -/
def envLater (d : Int) (env : Env F) : Env F := { env with now := env.now + d }

/-- The same operation with the instant passed to `UpdateSince` moved by `d`. -/
def opLater (d : Int) : Op F → Op F
  | .call r (.updateSince ts) => .call r (.updateSince (ts + d))
  | o => o

/-- The same history `d` later: what was done at `t` is done at `t + d`. -/
def historyLater (d : Int) (l : List (Env F × Op F)) : List (Env F × Op F) := l.map fun x => (envLater d x.1, opLater d x.2)

/-- What all the operations of a history return, from the first to the last. -/
def results [GoFloat F] [GoSqrt F] [GoExp F] (w : World F) : List (Env F × Op F) → List (Res (OpOut F))
  | [] => []
  | (env, o) :: l => (step env o w).2 :: results (step env o w).1 l

end GoMetrics.Spec
