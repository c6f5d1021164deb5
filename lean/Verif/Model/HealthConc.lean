import Verif.Model.Healthcheck
import Verif.Go.Machine
import Mathlib.Control.Monad.Basic

/-!
One `*StandardHealthcheck` used by any number of goroutines. It has no lock: its `err` field (healthcheck.go:38) is read and written as it is. A read or a write of the field is one step
(simplification: an interface value has two words, a torn read is not modelled).

A report is what an exporter does with a healthcheck: `Check`, then `Error` (writer.go:39-41, log.go:54-56, syslog.go:23-25), and in `GetAll` a second `Error` whose result is dereferenced (registry.go:139-143).
-/

namespace GoMetrics

/-- What a goroutine does with the healthcheck. -/
inductive HealthCall where
  /-- `Healthy()` or `Unhealthy(err)` -/
  | set (v : Verdict)
  /-- `Check()`, as in `RunHealthchecks` -/
  | check
  /-- `Check()`, then print `Error()` -/
  | print
  /-- the healthcheck case of `GetAll` -/
  | getAll
  deriving DecidableEq

/-- Where a goroutine is in its call. -/
inductive HealthL where
  | idle
  /-- calls of the user function on the healthcheck that are still to come -/
  | checking (c : HealthCall) (vs : List Verdict)
  /-- about to call `Error()` -/
  | reading (c : HealthCall)
  /-- registry.go:142: about to call `Error()` again -/
  | again
  deriving DecidableEq

/-- An idle goroutine begins a call, during which the user function will make the calls `vs` (ignored for `set`); otherwise a goroutine goes on. -/
inductive HealthIn where
  | call (c : HealthCall) (vs : List Verdict)
  | step
  deriving DecidableEq

inductive HealthEv where
  | call (t : Nat) (c : HealthCall)
  /-- goroutine `t` wrote the status -/
  | wrote (t : Nat) (v : Verdict)
  /-- a report ended with this status (`none`: healthy), or with a panic -/
  | reported (t : Nat) (r : Res GoError)
  /-- another call ended -/
  | done (t : Nat)
  deriving DecidableEq

/-- The status that a verdict writes: healthcheck.go:53-55, 59-61. -/
def Verdict.status : Verdict → GoError
  | .healthy => none
  | .unhealthy e => e

/-- One step of goroutine `t`; the shared state is the field `err`. -/
def healthStep (t : Nat) : HealthIn → GoError → HealthL → Option (GoError × HealthL × List HealthEv)
  -- healthcheck.go:53-61
  | .call (.set v) _, _, .idle => some (v.status, .idle, [.call t (.set v), .wrote t v, .done t])
  | .call c vs, err, .idle => some (err, .checking c vs, [.call t c])
  -- healthcheck.go:43-45: the user function
  | .step, _, .checking c (v :: vs) => some (v.status, .checking c vs, [.wrote t v])
  | .step, err, .checking .check [] => some (err, .idle, [.done t])
  | .step, err, .checking c [] => some (err, .reading c, [])
  -- registry.go:141
  | .step, err, .reading .getAll => match err with
    | none => some (err, .idle, [.reported t (.ok none)])
    | some _ => some (err, .again, [])
  | .step, err, .reading _ => some (err, .idle, [.reported t (.ok err)])
  -- registry.go:142 `metric.Error().Error()`
  | .step, err, .again => match err with
    | none => some (err, .idle, [.reported t (.error .nilDeref)])
    | some e => some (err, .idle, [.reported t (.ok (some e))])
  | _, _, _ => none

def healthMachine : Machine GoError HealthL HealthIn HealthEv := ⟨healthStep⟩

end GoMetrics
