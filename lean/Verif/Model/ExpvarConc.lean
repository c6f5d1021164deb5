import Verif.Go.Basic
import Verif.Go.Machine

/-!
Any number of simultaneous requests to any number of expvar handlers (exp/exp.go:19-35, 48-79): the lock operations, `expvar.Get`, `expvar.Publish` and `Set` are separate steps.

Each handler (`ExpHandler`) has its own mutex; the table of package expvar is shared by the whole program. A request is the sequence of variables that it publishes, with their kinds and values
(what they are is in Model/Expvar; reading the metrics takes no part in what follows). `expvar.Get` and `expvar.Publish` are atomic (a `sync.Map`: `Load`, `LoadOrStore`); `Publish` of a name
that is taken panics (`log.Panicln`), and so does the type assertion of a variable of another type. net/http recovers from the panic of a handler: the goroutine is gone, the mutex stays locked.
Other code may publish variables at any time.
-/

namespace GoMetrics

/-- What is published under a name: its kind (`*expvar.Int`, `*expvar.Float`, something else) and its value. -/
inductive VarKind where
  | int
  | float
  | other
  deriving DecidableEq

/-- One statement `exp.getInt(name).Set(v)` or `exp.getFloat(name).Set(v)`. -/
structure ExpJob (V : Type) where
  name : Str
  kind : VarKind
  value : V
  deriving DecidableEq

/-- Where a goroutine is. `h`: the handler; `all`: all statements of the request; `todo`: those still to be executed. -/
inductive XFrame (V : Type) where
  | idle
  /-- exp.go:55, 69: before `Lock` for the first statement of `todo`; about to return if there is none. -/
  | next (h : Nat) (all todo : List (ExpJob V))
  /-- exp.go:56-58, 70-72: the mutex is held; before `Get` and the type assertion. -/
  | get (h : Nat) (all : List (ExpJob V)) (j : ExpJob V) (todo : List (ExpJob V))
  /-- exp.go:61, 75: before `Publish`. -/
  | publish (h : Nat) (all : List (ExpJob V)) (j : ExpJob V) (todo : List (ExpJob V))
  /-- exp.go:63, 77. -/
  | unlock (h : Nat) (all : List (ExpJob V)) (j : ExpJob V) (todo : List (ExpJob V))
  /-- Before `Set`. -/
  | set (h : Nat) (all : List (ExpJob V)) (j : ExpJob V) (todo : List (ExpJob V))
  /-- The handler has panicked with the mutex held. -/
  | dead (h : Nat)
  deriving DecidableEq

/-- What the environment decides: that an idle goroutine begins a request, or publishes a variable of its own; otherwise a goroutine goes on. -/
inductive XIn (V : Type) where
  | request (h : Nat) (jobs : List (ExpJob V))
  | publish (name : Str) (kind : VarKind) (v : V)
  | step

inductive XEv (V : Type) where
  | call (t h : Nat) (jobs : List (ExpJob V))
  | set (t : Nat) (name : Str) (v : V)
  | ret (t h : Nat) (jobs : List (ExpJob V))
  | panic (t h : Nat)
  /-- Other code publishes a variable. -/
  | foreign (t : Nat) (name : Str) (v : V)
  deriving DecidableEq

/-- The mutexes of the handlers (who holds them) and the table. -/
structure ExpS (V : Type) where
  mutex : Nat → Option Nat
  vars : Str → Option (VarKind × V)

variable {V : Type}

/-- `zero`: the value of `new(expvar.Int)`, `new(expvar.Float)`. -/
def expvarStep (zero : V) (t : Nat) : XIn V → ExpS V → XFrame V → Option (ExpS V × XFrame V × List (XEv V))
  | .request h jobs, s, .idle => some (s, .next h jobs jobs, [.call t h jobs])
  | .publish n k v, s, .idle => if s.vars n = none then some ({ s with vars := Function.update s.vars n (some (k, v)) }, .idle, [.foreign t n v]) else none
  | .step, s, .next h all [] => some (s, .idle, [.ret t h all])
  | .step, s, .next h all (j :: todo) => if s.mutex h = none then some ({ s with mutex := Function.update s.mutex h (some t) }, .get h all j todo, []) else none
  | .step, s, .get h all j todo =>
    match s.vars j.name with
    | none => some (s, .publish h all j todo, [])
    | some x => if x.1 = j.kind then some (s, .unlock h all j todo, []) else some (s, .dead h, [.panic t h])
  | .step, s, .publish h all j todo =>
    match s.vars j.name with
    | none => some ({ s with vars := Function.update s.vars j.name (some (j.kind, zero)) }, .unlock h all j todo, [])
    | some _ => some (s, .dead h, [.panic t h])
  | .step, s, .unlock h all j todo => some ({ s with mutex := Function.update s.mutex h none }, .set h all j todo, [])
  | .step, s, .set h all j todo => some ({ s with vars := Function.update s.vars j.name (some (j.kind, j.value)) }, .next h all todo, [.set t j.name j.value])
  | _, _, _ => none

def expvarMachine (zero : V) : Machine (ExpS V) (XFrame V) (XIn V) (XEv V) := ⟨expvarStep zero⟩

/-- Nobody is using the handlers; the table may have entries. -/
def ExpS.init (vars : Str → Option (VarKind × V)) : ExpS V := { mutex := fun _ => none, vars }

end GoMetrics
