import Verif.Model.StatHat
import Verif.Spec.Export

/-! Specification for C120: what a StatHat counter shows. -/

namespace GoMetrics.Spec
open GoMetrics

variable {F : Type}

/-- A StatHat counter adds up the counts that are posted to it (with the user's key). -/
def statTotal (stat key : Str) (l : List (Event F)) : Int :=
  (l.map fun
    | .count s k (.int n) => if s = stat ∧ k = key then n.toInt else 0
    | _ => 0).sum

/-- The StatHat counter for a metric: the name of a counter; for the other kinds that count, the name with `.count`. -/
def counterStat (name : Str) : Obj F → Option Str
  | .counter _ => some name
  | .hist _ | .meter _ | .timer _ => some (name ++ bytes ".count")
  | _ => none

variable [GoFloat F] [GoSqrt F] [GoExp F]

/-- The metric `r` is visible through the registry under a name that belongs to this StatHat counter. -/
def Feeds (w : World F) (g : Reg) (stat : Str) (r : Ref) : Prop :=
  ∃ id name o, base g = some id ∧ gets w id name = some r ∧ (prefixes g).flatten <+: name ∧ w.objs r = some o ∧ counterStat name o = some stat

/-- The number that `Count()` returns. -/
def countOf (w : World F) (env : Env F) (r : Ref) : Int :=
  match observe w env r .count with
  | .ok (.int n) => n.toInt
  | _ => 0

/-- The states in which the reports are made, with what each report gets from the environment. -/
def reports (key : Str) (g : Reg) : List (ShRound F) → World F → List (World F × Env F)
  | [], _ => []
  | x :: xs, w => (w.run x.before, x.env) :: reports key g xs (stathatOnce x.env key g (w.run x.before)).1.1

/-- The increase since the previous report, times the number of reports from this one on, added up. -/
def countedAgain : Int → List Int → Int
  | _, [] => 0
  | previous, c :: cs => (c - previous) * (cs.length + 1) + countedAgain c cs

end GoMetrics.Spec
