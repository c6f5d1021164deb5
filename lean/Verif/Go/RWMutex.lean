import Mathlib.Data.List.Basic

/-!
The semantics of `sync.RWMutex` (Go standard library, `sync/rwmutex.go`), as atomic operations of goroutines.

`RLock` waits while a goroutine holds the lock for writing *or has called `Lock` and waits for readers* (a pending writer blocks new readers).
`Lock` first waits for other writers, then announces itself, then waits until all readers have left. The locks are not reentrant
and do not know who holds them; the goroutine numbers are recorded only for stating invariants (what an operation does depends only on
whether there is a reader, a writer, a pending writer). A goroutine holding the read lock twice is in the list twice.

One liveness guarantee of the real lock is left out (readers waiting when a writer unlocks get the lock before the next writer), so the
model has more executions than the code.
-/

namespace GoMetrics

structure RWMutex where
  readers : List Nat
  writer : Option Nat
  pending : Option Nat
  deriving DecidableEq

namespace RWMutex

def free : RWMutex := ⟨[], none, none⟩

/-- `RLock()` returns. -/
def rlock (m : RWMutex) (t : Nat) : Option RWMutex :=
  if m.writer = none ∧ m.pending = none then some { m with readers := t :: m.readers } else none
/-- `RUnlock()`. -/
def runlock (m : RWMutex) (t : Nat) : RWMutex := { m with readers := m.readers.erase t }
/-- The first part of `Lock()`: no other writer; from now on no new readers. -/
def announce (m : RWMutex) (t : Nat) : Option RWMutex :=
  if m.writer = none ∧ m.pending = none then some { m with pending := some t } else none
/-- `Lock()` returns: all readers have left. -/
def acquire (m : RWMutex) (t : Nat) : Option RWMutex :=
  if m.pending = some t ∧ m.readers = [] then some { m with writer := some t, pending := none } else none
/-- `Unlock()`. -/
def unlock (m : RWMutex) : RWMutex := { m with writer := none }

end RWMutex

end GoMetrics
