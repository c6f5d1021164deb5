import Verif.Spec.Expvar

/-! Vocabulary for C113: what becomes of the variables of metrics that are no longer registered. -/

namespace GoMetrics.Spec
open GoMetrics
variable {F : Type} [GoFloat F] [GoSqrt F] [GoExp F]

/-- Every variable of `vars` is in `vars'` and is an integer, a float or something else as before. -/
def Stays (vars vars' : Str → Option (Var F)) : Prop := ∀ n x, vars n = some x → ∃ x', vars' n = some x' ∧ ∀ b, hasKind b x' = hasKind b x

/-- A program goes on from `y0`, and at no request is there a registered metric to which the variable `n` belongs; the conditions of `ExpRun` hold. -/
inductive Unowned (kind : Str → Option Bool) (n : Str) (y0 : World F × Expvar F) : World F × Expvar F → Prop
  | start : Unowned kind n y0 y0
  | op {w s} (env o) : Unowned kind n y0 (w, s) → Unowned kind n y0 ((step env o w).1, s)
  | publish {w s} (m x) : Unowned kind n y0 (w, s) → s.vars m = none → (∀ b, kind m = some b → hasKind b x = true) → m ≠ n →
      Unowned kind n y0 (w, { s with vars := Function.update s.vars m (some x) })
  | request {w s} (env g id) : Unowned kind n y0 (w, s) → base g = some id → NoHealth w id (prefixes g).flatten → SnapshotsReturn w env id (prefixes g).flatten → SamplesFit w →
      Kinds kind w id (prefixes g).flatten → (∀ name r o label, ¬ Owns w id (prefixes g).flatten n name r o label) → Unowned kind n y0 (expHandler env g (w, s)).1

end GoMetrics.Spec
