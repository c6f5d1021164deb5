import Verif.Model.Expvar
import Verif.Spec.Export

/-! What the expvar endpoint should publish. -/

namespace GoMetrics.Spec
open GoMetrics

variable {F : Type}

/-- The labels of the variables of a metric. -/
def distributionVars : List String :=
  ["count", "min", "max", "mean", "std-dev", "50-percentile", "75-percentile", "95-percentile", "99-percentile", "999-percentile"]
def expLabels : Obj F → List String
  | .counter _ | .gauge _ | .gaugeF _ => [""]
  | .hist _ => distributionVars
  | .meter _ => ["count", "one-minute", "five-minute", "fifteen-minute", "mean"]
  | .timer _ => distributionVars ++ ["one-minute", "five-minute", "fifteen-minute", "mean-rate"]
  | _ => []

/-- The name of a variable: the name of the metric, with the label after a dot. -/
def varName (name : Str) (label : String) : Str := name ++ if label = "" then [] else 46 :: bytes label

/-- Counts and the values of integer gauges are integers, everything else is a float. -/
def isIntVar : Obj F → String → Bool
  | .counter _, _ | .gauge _, _ => true
  | .gaugeF _, _ => false
  | _, l => l == "count"

/-- The content of a variable. -/
def varOf : GoMetrics.Field F → Var F
  | .int n => .int n
  | v => .float v
/-- `x` is an integer variable (`b`) or a float variable (not `b`). -/
def hasKind (b : Bool) : Var F → Bool
  | .int _ => b
  | .float _ => !b
  | .other => false

variable [GoFloat F] [GoSqrt F] [GoExp F]

/-- The content `x` is the statistic named by the label. -/
def ShowsVar (w : World F) (env : Env F) (r : Ref) (o : Obj F) (label : String) (x : Var F) : Prop :=
  ∃ c v, means o label = some c ∧ Holds w env r c v ∧ x = varOf (if isIntVar o label then v else asFloat v)

/-- The variable `n` belongs to the metric `r` of the registry, with the label `label`. -/
def Owns (w : World F) (id : Nat) (pre : Str) (n name : Str) (r : Ref) (o : Obj F) (label : String) : Prop :=
  gets w id name = some r ∧ pre <+: name ∧ w.objs r = some o ∧ label ∈ expLabels o ∧ varName name label = n

/-- After the request the variables are: every variable of a metric shows the current value of a metric it belongs to; the others are unchanged. -/
def Published (w : World F) (env : Env F) (id : Nat) (pre : Str) (vars vars' : Str → Option (Var F)) : Prop :=
  ∀ n, (∃ name r o label x, Owns w id pre n name r o label ∧ ShowsVar w env r o label x ∧ vars' n = some x) ∨
    ((∀ name r o label, ¬ Owns w id pre n name r o label) ∧ vars' n = vars n)

/-- No healthcheck is registered. -/
def NoHealth (w : World F) (id : Nat) (pre : Str) : Prop := ∀ name r o, gets w id name = some r → pre <+: name → w.objs r = some o → isHealth o = false

/-- Every variable that the metrics need has the kind given by `kind`. -/
def Kinds (kind : Str → Option Bool) (w : World F) (id : Nat) (pre : Str) : Prop :=
  ∀ n name r o label, Owns w id pre n name r o label → kind n = some (isIntVar o label)

/-- The published variables agree with `kind`. -/
def VarKinds (kind : Str → Option Bool) (vars : Str → Option (Var F)) : Prop := ∀ n x b, vars n = some x → kind n = some b → hasKind b x = true

/-- What a program that uses metrics and an expvar handler can reach from `y0`: by the operations of the package, by variables that other code publishes, by requests to the handler, and by requests to other handlers, which
have mutexes of their own (`held'`: the state of that one). -/
inductive ExpFrom (y0 : World F × Expvar F) : World F × Expvar F → Prop
  | start : ExpFrom y0 y0
  | op {w s} (env o) : ExpFrom y0 (w, s) → ExpFrom y0 ((step env o w).1, s)
  | publish {w s} (n x) : ExpFrom y0 (w, s) → s.vars n = none → ExpFrom y0 (w, { s with vars := Function.update s.vars n (some x) })
  | request {y} (env g) : ExpFrom y0 y → ExpFrom y0 (expHandler env g y).1
  | other {w s} (env g held') : ExpFrom y0 (w, s) →
      ExpFrom y0 ((expHandler env g (w, { s with held := held' })).1.1, { vars := (expHandler env g (w, { s with held := held' })).1.2.vars, held := s.held })
/-- Reachable from the start. -/
def ExpReach (y : World F × Expvar F) : Prop := ∃ vars, ExpFrom (World.init, { vars, held := false }) y

/-- The same for programs in which every request finds good conditions: the operations of the package, variables published by other code, requests. The metrics registered at the time of each request
are no healthchecks, `Snapshot()` works on them, and the kinds of the variables are those of `kind`. -/
inductive ExpRun (kind : Str → Option Bool) : World F × Expvar F → Prop
  | init {vars} : VarKinds kind vars → ExpRun kind (World.init, { vars, held := false })
  | op {w s} (env o) : ExpRun kind (w, s) → ExpRun kind ((step env o w).1, s)
  | publish {w s} (n x) : ExpRun kind (w, s) → s.vars n = none → (∀ b, kind n = some b → hasKind b x = true) →
      ExpRun kind (w, { s with vars := Function.update s.vars n (some x) })
  | request {w s} (env g id) : ExpRun kind (w, s) → base g = some id → NoHealth w id (prefixes g).flatten → SnapshotsReturn w env id (prefixes g).flatten → SamplesFit w →
      Kinds kind w id (prefixes g).flatten → ExpRun kind (expHandler env g (w, s)).1

end GoMetrics.Spec
