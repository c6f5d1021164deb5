import Verif.Model.HealthConc
import Verif.Spec.Basic

/-! What has been seen of a healthcheck. -/

namespace GoMetrics.Spec

/-- Who did it. -/
def HealthEv.by_ : HealthEv → Nat
  | .call t _ => t
  | .wrote t _ => t
  | .reported t _ => t
  | .done t => t

/-- The verdicts given so far. -/
def verdicts (tr : List HealthEv) : List Verdict := tr.filterMap fun | .wrote _ v => some v | _ => none

/-- The status after these events; a new healthcheck is healthy. -/
def statusAfter (tr : List HealthEv) : GoError := (lastVerdict (verdicts tr)).getD none

/-- `tr` ends in the middle of a call `c` of goroutine `t` that began after `before`; in `asked` the user function ran, then came `after`, in which `t` did nothing visible. -/
def reporting (t : Nat) (c : HealthCall) (tr before asked after : List HealthEv) : Prop :=
  tr = before ++ .call t c :: (asked ++ after) ∧ (∀ e ∈ asked, HealthEv.by_ e = t → ∃ v, e = .wrote t v) ∧ ∀ e ∈ after, HealthEv.by_ e ≠ t

end GoMetrics.Spec
