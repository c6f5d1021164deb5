import Verif.Go.Basic

/-! Model of /repo/healthcheck.go. -/

namespace GoMetrics

/-- A Go `error` value, identified by a number; `none` is the nil error. -/
abbrev GoError := Option Nat

/-- What a healthcheck function does to the healthcheck it is given: each element is one call of
`h.Healthy()` or `h.Unhealthy(err)` (healthcheck.go:4-9). Simplification: the function does not call `h.Check()` recursively. -/
inductive Verdict where
  | healthy
  | unhealthy (e : GoError)
  deriving DecidableEq

/-- Values of interface type `Healthcheck`: `*StandardHealthcheck` (healthcheck.go:37-40; `f` identifies the user function),
`NilHealthcheck` (healthcheck.go:21). -/
inductive Health where
  | std (err : GoError) (f : Nat)
  | nil
  deriving DecidableEq

namespace Health

/-- healthcheck.go:13-18 `NewHealthcheck`. -/
def new (useNil : Bool) (f : Nat) : Health := if useNil then .nil else .std none f

/-- `Error`: healthcheck.go:48-50, 27. -/
def error : Health → GoError
  | .std e _ => e
  | .nil => none

/-- `Healthy`: healthcheck.go:53-55, 30. -/
def healthy : Health → Health
  | .std _ f => .std none f
  | .nil => .nil

/-- `Unhealthy`: healthcheck.go:59-61, 33. -/
def unhealthy : Health → GoError → Health
  | .std _ f, e => .std e f
  | .nil, _ => .nil

/-- One call made by the user function on its argument. -/
def verdict (h : Health) : Verdict → Health
  | .healthy => h.healthy
  | .unhealthy e => h.unhealthy e

/-- `Check`: healthcheck.go:43-45 `h.f(h)`: the calls the user function `f` makes this time are `env f`; 24 (nil). -/
def check (env : Nat → List Verdict) : Health → Health
  | .std e f => (env f).foldl verdict (.std e f)
  | .nil => .nil

end Health
end GoMetrics
