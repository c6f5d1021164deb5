import Verif.Model.ExpvarConc

/-! Reading the trace of concurrent expvar requests; the programs for which they are safe. -/

namespace GoMetrics.Spec
open GoMetrics

variable {V : Type}

/-- The goroutine of an event. -/
def byGoroutine : XEv V → Nat
  | .call t _ _ | .set t _ _ | .ret t _ _ | .panic t _ | .foreign t _ _ => t

/-- The values set by goroutine `t`, in order. -/
def setBy (t : Nat) (tr : List (XEv V)) : List (Str × V) := tr.filterMap fun
  | .set u n v => if u = t then some (n, v) else none
  | _ => none

/-- The values stored under `n` by anybody, in order. -/
def storedAt (n : Str) (tr : List (XEv V)) : List V := tr.filterMap fun
  | .set _ m v | .foreign _ m v => if m = n then some v else none
  | _ => none

/-- The discipline: `own n` gives the handler that publishes the variable `n` and the kind of the variable. Every request publishes only variables of its handler, always with the same kind; other
code publishes only names that no handler uses. -/
def Disciplined (own : Str → Option (Nat × VarKind)) : XIn V → Prop
  | .request h jobs => ∀ j ∈ jobs, own j.name = some (h, j.kind)
  | .publish n _ _ => own n = none
  | .step => True

/-- What the table contains at first has the right kinds. -/
def KindsFit (own : Str → Option (Nat × VarKind)) (vars : Str → Option (VarKind × V)) : Prop :=
  ∀ n h k x, own n = some (h, k) → vars n = some x → x.1 = k

/-- The number of steps that a request may need: at most five for a statement, one to return. -/
def allowed : XIn V → Nat
  | .request _ jobs => 5 * jobs.length + 1
  | _ => 0
/-- The steps that goroutine `t` takes in a schedule, and the steps allowed for the requests it makes. -/
def stepsOf (t : Nat) (sched : List (Nat × XIn V)) : Nat := sched.countP fun x => decide (x.1 = t) && (match x.2 with | .step => true | _ => false)
def allowedFor (t : Nat) (sched : List (Nat × XIn V)) : Nat := ((sched.filter fun x => x.1 = t).map fun x => allowed x.2).sum

end GoMetrics.Spec
