import Verif.Spec.Expvar

/-! Vocabulary for C117: programs with several expvar handlers. -/

namespace GoMetrics.Spec
open GoMetrics
variable {F : Type} [GoFloat F] [GoSqrt F] [GoExp F]

/-- What a program can reach from `y0` when `reg i` is the registry of handler `i`: by the operations of the package, by variables that other code publishes, by requests to any of the handlers. -/
inductive HandlersFrom (reg : Nat → Reg) (y0 : World F × Handlers F) : World F × Handlers F → Prop
  | start : HandlersFrom reg y0 y0
  | op {w s} (env o) : HandlersFrom reg y0 (w, s) → HandlersFrom reg y0 ((step env o w).1, s)
  | publish {w s} (n x) : HandlersFrom reg y0 (w, s) → s.vars n = none → HandlersFrom reg y0 (w, { s with vars := Function.update s.vars n (some x) })
  | request {y} (env i) : HandlersFrom reg y0 y → HandlersFrom reg y0 (expHandlerOf env (reg i) i y).1
/-- Reachable from the start, when no mutex is locked. -/
def HandlersReach (reg : Nat → Reg) (y : World F × Handlers F) : Prop := ∃ vars, HandlersFrom reg (World.init, { vars, held := fun _ => false }) y

/-- There is nothing to publish for the registry. -/
def Nothing (w : World F) (id : Nat) (pre : Str) : Prop := ∀ name, pre <+: name → gets w id name = none

end GoMetrics.Spec
