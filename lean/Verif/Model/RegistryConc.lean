import Verif.Go.Basic
import Verif.Go.Conc
import Verif.Go.Machine
import Verif.Go.RWMutex

/-!
The methods of one `StandardRegistry` called by any number of goroutines (registry.go:55-240): lock operations, reads and writes of the map,
and calls of user functions are separate steps.

The values of the map are of an arbitrary type `V`. User functions (callbacks of `Each`, healthchecks, lazy constructors) take
any time and may call the registry: such a nested call is an ordinary call made under another goroutine number, since Go's locks
do not depend on the goroutine. What a step reads under the read lock, or does under the write lock, between two calls of user
functions is one step, because the lock excludes others.
-/

namespace GoMetrics

/-- The type switches of the registry: registry.go:209-210 (the seven metric interfaces), 236 (`Stoppable`), 120 (`Healthcheck`). -/
structure Kinds (V : Type) where
  metric : V → Bool
  stoppable : V → Bool
  health : V → Bool

/-- The second argument of `GetOrRegister`: a value, or a function that makes one. -/
inductive Arg (V : Type) where
  | val (v : V)
  | fn
  deriving DecidableEq

inductive ROp (V : Type) where
  | get (name : Str)
  | getOrRegister (name : Str) (a : Arg V)
  | register (name : Str) (v : V)
  | unregister (name : Str)
  | unregisterAll
  | each
  | runHealthchecks
  deriving DecidableEq

/-- Results: of `Get` and `GetOrRegister` a value (or nil); of `GetOrRegister` also a panic of the function; of `Register` whether it was a
`DuplicateMetric`; of `Unregister` and `UnregisterAll` which metrics they stopped; of `Each` and `RunHealthchecks` which entries they pass to user functions. -/
inductive RRes (V : Type) where
  | value (v : Option V)
  | panic
  | dup (b : Bool)
  | stopped (l : List (Str × V))
  | visit (l : List (Str × V))
  deriving DecidableEq

/-- Looking up a name in the map. -/
def find {V : Type} (m : List (Str × V)) (name : Str) : Option V := (m.find? (·.1 == name)).map (·.2)

/-- Where a goroutine is in a call. -/
inductive Frame (V : Type) where
  | idle
  | rlock (o : ROp V)
  | reading (o : ROp V)
  | runlock (next : Frame V)
  | lock (o : ROp V)
  | pending (o : ROp V)
  | locked (o : ROp V)
  | inCtor (name : Str)
  | clearing (rest stopped : List (Str × V))
  | unlock (o : ROp V) (r : RRes V)
  | visiting (l rest : List (Str × V))
  | inVisit (l rest : List (Str × V))
  | checking (l rest : List (Str × V))
  | inCheck (l rest : List (Str × V))
  | ret (o : ROp V) (r : RRes V)
  deriving DecidableEq

/-- What the environment decides: the next call, the order of a map iteration, how a user function ends. -/
inductive RIn (V : Type) where
  | call (o : ROp V)
  | step
  | order (f : List (Str × V) → List (Str × V)) (perm : ∀ l, (f l).Perm l)
  | returns (v : V)
  | panics

/-- Events: calls; the user functions called. -/
inductive REv (V : Type) where
  | call (e : CEv (ROp V) (RRes V))
  | visit (t : Nat) (name : Str) (v : V)
  | check (t : Nat) (name : Str) (v : V)
  | ctor (t : Nat) (name : Str)

structure RegS (V : Type) where
  rw : RWMutex
  metrics : List (Str × V)
  deriving DecidableEq

variable {V : Type}

/-- registry.go:205-214 `register`, with the write lock held. -/
def RegS.register (K : Kinds V) (s : RegS V) (name : Str) (v : V) : RegS V :=
  match find s.metrics name with
  | some _ => s
  | none => if K.metric v then { s with metrics := (name, v) :: s.metrics } else s

/-- The first statement of each method: `RLock` in registry.go:76, 87, 117, 222; `Lock` in 110, 189, 197. -/
def startFrame : ROp V → Frame V
  | .get name => .rlock (.get name)
  | .getOrRegister name a => .rlock (.getOrRegister name a)
  | .register name v => .lock (.register name v)
  | .unregister name => .lock (.unregister name)
  | .unregisterAll => .lock .unregisterAll
  | .each => .rlock .each
  | .runHealthchecks => .rlock .runHealthchecks

def regStep (K : Kinds V) (t : Nat) : RIn V → RegS V → Frame V → Option (RegS V × Frame V × List (REv V))
  | .call o, s, .idle => some (s, startFrame o, [.call (.inv t o)])
  | .step, s, .rlock o => (s.rw.rlock t).map fun m => ({ s with rw := m }, .reading o, [])
  -- registry.go:78
  | .step, s, .reading (.get name) =>
    some (s, .runlock (.ret (.get name) (.value (find s.metrics name))), [.call (.lin t (.get name) (.value (find s.metrics name)))])
  -- registry.go:88-92
  | .step, s, .reading (.getOrRegister name a) =>
    match find s.metrics name with
    | some v => some (s, .runlock (.ret (.getOrRegister name a) (.value (some v))), [.call (.lin t (.getOrRegister name a) (.value (some v)))])
    | none => some (s, .runlock (.lock (.getOrRegister name a)), [])
  -- registry.go:224-231: the copy; 68: the loop comes after `RUnlock`
  | .order f _, s, .reading .each => some (s, .runlock (.visiting (f s.metrics) (f s.metrics)), [.call (.lin t .each (.visit (f s.metrics)))])
  -- registry.go:119-123: the loop runs with the read lock held
  | .order f _, s, .reading .runHealthchecks =>
    some (s, .checking ((f s.metrics).filter (K.health ·.2)) ((f s.metrics).filter (K.health ·.2)),
      [.call (.lin t .runHealthchecks (.visit ((f s.metrics).filter (K.health ·.2))))])
  | .step, s, .runlock next => some ({ s with rw := s.rw.runlock t }, next, [])
  | .step, s, .lock o => (s.rw.announce t).map fun m => ({ s with rw := m }, .pending o, [])
  | .step, s, .pending o => (s.rw.acquire t).map fun m => ({ s with rw := m }, .locked o, [])
  -- registry.go:97-104
  | .step, s, .locked (.getOrRegister name a) =>
    match find s.metrics name with
    | some v => some (s, .unlock (.getOrRegister name a) (.value (some v)), [.call (.lin t (.getOrRegister name a) (.value (some v)))])
    | none =>
      match a with
      | .val v => some (s.register K name v, .unlock (.getOrRegister name a) (.value (some v)), [.call (.lin t (.getOrRegister name a) (.value (some v)))])
      | .fn => some (s, .inCtor name, [.ctor t name])
  -- registry.go:101 returns, 103-104
  | .returns v, s, .inCtor name =>
    some (s.register K name v, .unlock (.getOrRegister name .fn) (.value (some v)), [.call (.lin t (.getOrRegister name .fn) (.value (some v)))])
  -- the function panics: only the deferred `Unlock` runs (registry.go:96)
  | .panics, s, .inCtor name => some (s, .unlock (.getOrRegister name .fn) .panic, [.call (.lin t (.getOrRegister name .fn) .panic)])
  -- registry.go:112
  | .step, s, .locked (.register name v) =>
    some (s.register K name v, .unlock (.register name v) (.dup (find s.metrics name).isSome), [.call (.lin t (.register name v) (.dup (find s.metrics name).isSome))])
  -- registry.go:191-192
  | .step, s, .locked (.unregister name) =>
    let stopped := ((find s.metrics name).toList.filter K.stoppable).map fun v => (name, v)
    some ({ s with metrics := s.metrics.filter (·.1 != name) }, .unlock (.unregister name) (.stopped stopped), [.call (.lin t (.unregister name) (.stopped stopped))])
  -- registry.go:199-202
  | .order f _, s, .locked .unregisterAll => some (s, .clearing (f s.metrics) [], [])
  | .step, s, .clearing ((name, v) :: rest) stopped =>
    some ({ s with metrics := s.metrics.filter (·.1 != name) }, .clearing rest (if K.stoppable v then (name, v) :: stopped else stopped), [])
  | .step, s, .clearing [] stopped => some (s, .unlock .unregisterAll (.stopped stopped), [.call (.lin t .unregisterAll (.stopped stopped))])
  | .step, s, .unlock o r => some ({ s with rw := s.rw.unlock }, .ret o r, [])
  -- registry.go:68-71
  | .step, s, .visiting l ((name, v) :: rest) => some (s, .inVisit l rest, [.visit t name v])
  | .step, s, .visiting l [] => some (s, .ret .each (.visit l), [])
  | .step, s, .inVisit l rest => some (s, .visiting l rest, [])
  | .panics, s, .inVisit l _ => some (s, .ret .each (.visit l), [])
  -- registry.go:119-123
  | .step, s, .checking l ((name, v) :: rest) => some (s, .inCheck l rest, [.check t name v])
  | .step, s, .checking l [] => some (s, .runlock (.ret .runHealthchecks (.visit l)), [])
  | .step, s, .inCheck l rest => some (s, .checking l rest, [])
  | .panics, s, .inCheck l _ => some (s, .runlock (.ret .runHealthchecks (.visit l)), [])
  | .step, s, .ret o r => some (s, .idle, [.call (.ret t o r)])
  | _, _, _ => none

def regMachine (K : Kinds V) : Machine (RegS V) (Frame V) (RIn V) (REv V) := ⟨regStep K⟩

/-- A registry with the given entries that nobody is using. -/
def RegS.init (m : List (Str × V)) : RegS V := { rw := .free, metrics := m }

end GoMetrics
