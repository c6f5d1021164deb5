import Verif.Go.Basic
import Verif.Go.Machine
import Verif.Go.RWMutex

/-!
The shared clock of meters (`arbiter`, meter.go:226-252) with `NewMeter` and `Stop` called by any number of goroutines: lock operations, the test and
the setting of `started`, the `go` statement, the change of the map, the compare-and-swap of `stopped`, and the tick of each meter are separate steps.

What a tick does to a meter is in Model/Meter. When the ticker fires is up to the environment. `UseNilMetrics` is false.
-/

namespace GoMetrics

/-- Where a goroutine is. -/
inductive AFrame where
  | idle
  /-- `NewMeter`, meter.go:41 (before `Lock`; `Lock` announced), 43, 44 (test), 45, 46, 42 (deferred `Unlock`). -/
  | newLock (m : Nat)
  | newPend (m : Nat)
  | newInsert (m : Nat)
  | newTest (m : Nat)
  | newSet (m : Nat)
  | newGo (m : Nat)
  | newUnlock (m : Nat)
  /-- `Stop`, meter.go:147, 148 (before `Lock`; announced), 149, 150. -/
  | stopCas (m : Nat)
  | stopLock (m : Nat)
  | stopPend (m : Nat)
  | stopDelete (m : Nat)
  | stopUnlock (m : Nat)
  /-- A goroutine started at meter.go:46: waiting for the ticker or for the read lock (236-246), iterating (248-250; the meters seen so far). -/
  | wait
  | range (seen : List Nat)
  deriving DecidableEq

/-- What the environment decides: which call an idle goroutine makes; that an idle goroutine is the one started by `go`; which meter the iteration comes to next. -/
inductive AIn where
  | new
  | stop (m : Nat)
  | begin
  | visit (m : Nat)
  | step
  deriving DecidableEq

/-- Events: calls and returns (`Stop`: whether this call is the one that stops the meter); the `go` statement; begin and end of the iteration over the meters; ticks. -/
inductive AEv where
  | callNew (t : Nat)
  | retNew (t m : Nat)
  | callStop (t m : Nat)
  | retStop (t m : Nat) (won : Bool)
  | go (t : Nat)
  | roundBegin (t : Nat)
  | tick (t m : Nat)
  | roundEnd (t : Nat)
  deriving DecidableEq

/-- meter.go:226-231 `meterArbiter`; the `stopped` fields of the meters (133); the number of meters allocated; those that `NewMeter` has returned;
how many goroutines have been started by `go` that have not run yet. -/
structure ArbS where
  rw : RWMutex
  started : Bool
  meters : List Nat
  stopped : Nat → Bool
  next : Nat
  returned : List Nat
  spawned : Nat

def ArbS.init : ArbS := ⟨.free, false, [], fun _ => false, 0, [], 0⟩

def arbStep (t : Nat) : AIn → ArbS → AFrame → Option (ArbS × AFrame × List AEv)
  | .new, s, .idle => some ({ s with next := s.next + 1 }, .newLock s.next, [.callNew t])
  | .stop m, s, .idle => if m ∈ s.returned then some (s, .stopCas m, [.callStop t m]) else none
  | .begin, s, .idle => if 0 < s.spawned then some ({ s with spawned := s.spawned - 1 }, .wait, []) else none
  -- NewMeter, meter.go:41-48
  | .step, s, .newLock m => (s.rw.announce t).map fun rw => ({ s with rw := rw }, .newPend m, [])
  | .step, s, .newPend m => (s.rw.acquire t).map fun rw => ({ s with rw := rw }, .newInsert m, [])
  | .step, s, .newInsert m => some ({ s with meters := m :: s.meters }, .newTest m, [])
  | .step, s, .newTest m => some (s, if s.started then .newUnlock m else .newSet m, [])
  | .step, s, .newSet m => some ({ s with started := true }, .newGo m, [])
  | .step, s, .newGo m => some ({ s with spawned := s.spawned + 1 }, .newUnlock m, [.go t])
  | .step, s, .newUnlock m => some ({ s with rw := s.rw.unlock, returned := m :: s.returned }, .idle, [.retNew t m])
  -- Stop, meter.go:146-152
  | .step, s, .stopCas m =>
    if s.stopped m then some (s, .idle, [.retStop t m false]) else some ({ s with stopped := Function.update s.stopped m true }, .stopLock m, [])
  | .step, s, .stopLock m => (s.rw.announce t).map fun rw => ({ s with rw := rw }, .stopPend m, [])
  | .step, s, .stopPend m => (s.rw.acquire t).map fun rw => ({ s with rw := rw }, .stopDelete m, [])
  | .step, s, .stopDelete m => some ({ s with meters := s.meters.filter (· != m) }, .stopUnlock m, [])
  | .step, s, .stopUnlock m => some ({ s with rw := s.rw.unlock }, .idle, [.retStop t m true])
  -- tickMeters, meter.go:245-251
  | .step, s, .wait => (s.rw.rlock t).map fun rw => ({ s with rw := rw }, .range [], [.roundBegin t])
  | .visit m, s, .range seen => if m ∈ s.meters ∧ m ∉ seen then some (s, .range (m :: seen), [.tick t m]) else none
  | .step, s, .range seen => if ∀ m ∈ s.meters, m ∈ seen then some ({ s with rw := s.rw.runlock t }, .wait, [.roundEnd t]) else none
  | _, _, _ => none

def arbMachine : Machine ArbS AFrame AIn AEv := ⟨arbStep⟩

end GoMetrics
