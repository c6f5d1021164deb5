import Verif.Go.Basic
import Verif.Go.Machine
import Verif.Go.RWMutex

/-!
The locks of the library, and which of them each call takes in which order (the rest of what the calls do is left out).

`sync.Mutex` is a `RWMutex` that is only locked for writing. A program is the sequence of lock operations that a goroutine performs in a call,
as its branches, loops and user functions turn out. Theorems are about all programs of the forms below, so about all
ways in which they may turn out.
-/

namespace GoMetrics

/-- registry.go:57 (one per registry), timer.go:145, sample.go:40, 402, ewma.go:84 (one per object), meter.go:226-231 (`arbiter`), exp/exp.go:15,
the locks inside `sync.Once` (runtime.go:54, debug.go:21). -/
inductive LockId where
  | once (n : Nat)
  | registry (id : Nat)
  | timer (r : Nat)
  | sample (r : Nat)
  | arbiter
  | ewma (r : Nat)
  | expvar
  deriving DecidableEq

inductive LockOp where
  | rlock (l : LockId)
  | runlock (l : LockId)
  | lock (l : LockId)
  | unlock (l : LockId)
  deriving DecidableEq

/-- A goroutine: what it still has to do; whether it has announced the `Lock` it is at (what it holds is recorded in the locks). -/
structure LockLocal where
  todo : List LockOp
  announced : Bool
  deriving DecidableEq

def LockLocal.idle : LockLocal := ⟨[], false⟩

/-- One step: an idle goroutine starts a program; others perform their next lock operation (`none`: they have to wait). -/
def lockStep (t : Nat) (i : Option (List LockOp)) (s : LockId → RWMutex) (x : LockLocal) : Option ((LockId → RWMutex) × LockLocal × List Unit) :=
  match i, x.todo with
  | some p, [] => some (s, ⟨p, false⟩, [])
  | none, .rlock l :: p => ((s l).rlock t).map fun m => (Function.update s l m, ⟨p, false⟩, [])
  | none, .runlock l :: p => if t ∈ (s l).readers then some (Function.update s l ((s l).runlock t), ⟨p, false⟩, []) else none
  | none, .lock l :: p =>
    if x.announced then ((s l).acquire t).map fun m => (Function.update s l m, ⟨p, false⟩, [])
    else ((s l).announce t).map fun m => (Function.update s l m, ⟨.lock l :: p, true⟩, [])
  | none, .unlock l :: p => if (s l).writer = some t then some (Function.update s l (s l).unlock, ⟨p, false⟩, []) else none
  | _, _ => none

def lockMachine : Machine (LockId → RWMutex) LockLocal (Option (List LockOp)) Unit := ⟨lockStep⟩

/-! ### The programs of the library -/

/-- `l.RLock(); p; l.RUnlock()` and `l.Lock(); p; l.Unlock()` (also with `defer`). -/
def reading (l : LockId) (p : List LockOp) : List LockOp := .rlock l :: (p ++ [.runlock l])
def locking (l : LockId) (p : List LockOp) : List LockOp := .lock l :: (p ++ [.unlock l])

/-- What a call on a metric does with locks; and sequences of such calls. Counters, gauges, healthchecks, snapshots and the `Nil` types use no locks. -/
inductive MetricProg : List LockOp → Prop where
  | nil : MetricProg []
  | append {p q} : MetricProg p → MetricProg q → MetricProg (p ++ q)
  /-- Methods of samples and histograms: sample.go:63-78, 108-186, 420-541. (`Max` and others of `ExpDecaySample` take the lock in `Values`.) -/
  | sample (r : Nat) : MetricProg (locking (.sample r) [])
  /-- ewma.go:100-120 `Tick`, when it is the first; otherwise no lock. -/
  | firstTick (r : Nat) : MetricProg (locking (.ewma r) [])
  /-- meter.go:41-47: `NewMeter` (and `NewTimer`), meter.go:146-152: `Stop` that wins the race; `Timer.Stop` is that of its meter (timer.go:215-217). -/
  | arbiter : MetricProg (locking .arbiter [])
  /-- meter.go:245-251 `tickMeters`: `Tick` of the averages of all meters, of which those ticked for the first time (`first`) take their lock. -/
  | tickMeters (first : List Nat) : MetricProg (reading .arbiter (first.flatMap fun e => locking (.ewma e) []))
  /-- timer.go:200-207, 232-245: `Update`, `UpdateSince`, `Snapshot` of a timer whose histogram has a sample with a lock (or not, `none`). -/
  | timer (r : Nat) (s : Option Nat) : MetricProg (locking (.timer r) (match s with | some s => locking (.sample s) [] | none => []))
  /-- exp/exp.go:54-83. -/
  | expvar : MetricProg (locking .expvar [])

/-- Calls on registries, and sequences of such calls and calls on metrics, made while holding the lock of registry `c` (`none`: of no registry).

User functions are called on the way: callbacks of `Each` after the lock has been released, so what they do is just more calls in the sequence;
healthcheck functions and lazy constructors under the lock. `ok c id`: such functions, called under the lock of registry `c`, may use registry `id`. -/
inductive UserProg (ok : Nat → Nat → Prop) : Option Nat → List LockOp → Prop where
  | nil {c} : UserProg ok c []
  | append {c p q} : UserProg ok c p → UserProg ok c q → UserProg ok c (p ++ q)
  | metric {c p} : MetricProg p → UserProg ok c p
  /-- registry.go:75-79 `Get`; 85-93 `GetOrRegister` of a bound name; 221-232: the first part of `Each`, `GetAll` (the callbacks come after it). -/
  | read {c} (id : Nat) : (∀ j ∈ c, ok j id) → UserProg ok c (reading (.registry id) [])
  /-- registry.go:85-105 `GetOrRegister` of a name that is free at first; the constructor does `f` (nothing, if the name is bound meanwhile). -/
  | getOrRegister {c} (id : Nat) {f} : (∀ j ∈ c, ok j id) → UserProg ok (some id) f →
      UserProg ok c (reading (.registry id) [] ++ locking (.registry id) f)
  /-- registry.go:109-113 `Register`. -/
  | register {c} (id : Nat) : (∀ j ∈ c, ok j id) → UserProg ok c (locking (.registry id) [])
  /-- registry.go:188-203 `Unregister`, `UnregisterAll`: `Stop` of `n` meters or timers. -/
  | unregister {c} (id n : Nat) : (∀ j ∈ c, ok j id) → UserProg ok c (locking (.registry id) ((List.replicate n (locking .arbiter [])).flatten))
  /-- registry.go:116-124 `RunHealthchecks`: the healthcheck functions do `f`. -/
  | runHealthchecks {c} (id : Nat) {f} : (∀ j ∈ c, ok j id) → UserProg ok (some id) f → UserProg ok c (reading (.registry id) f)
  /-- runtime.go:150-216, debug.go:58-75: `RegisterRuntimeMemStats`, `RegisterDebugGCStats`: `NewTimer` and `Register` calls inside `sync.Once`
  (none of them when the function has been called before). Only by functions not called under the lock of a registry. -/
  | once (n id j k : Nat) :
      UserProg ok none (locking (.once n) ((List.replicate j (locking .arbiter [])).flatten ++ (List.replicate k (locking (.registry id) [])).flatten))

end GoMetrics
