import Verif.Model.Locks

/-! What it means that a set of programs does not deadlock. -/

namespace GoMetrics.Spec
open GoMetrics

/-- Executions of goroutines that start programs satisfying `progs`, from the state in which all locks are free. -/
def Reaches (progs : List LockOp → Prop) (s : LockId → RWMutex) (ls : Nat → LockLocal) : Prop :=
  ∃ sched tr, (∀ x ∈ sched, ∀ p ∈ x.2, progs p) ∧ lockMachine.run (fun _ => .free) (fun _ => .idle) sched = some (s, ls, tr)

/-- Some goroutine can move, unless all of them have finished their programs and all locks are free. -/
def CanGoOn (s : LockId → RWMutex) (ls : Nat → LockLocal) : Prop :=
  (∃ t, lockMachine.step t none s (ls t) ≠ none) ∨ ((∀ t, (ls t).todo = []) ∧ ∀ l, s l = .free)

/-- Whatever the programs and however they are interleaved, there is always somebody who can go on; and if from some point on no new program is
started, all that have been started finish, in whatever order the goroutines move: after a number of steps known beforehand nobody has anything left to do. -/
def NoDeadlock (progs : List LockOp → Prop) : Prop :=
  ∀ s ls, Reaches progs s ls → CanGoOn s ls ∧
    ∃ n, ∀ sched s' ls' tr, (∀ x ∈ sched, x.2 = none) → lockMachine.run s ls sched = some (s', ls', tr) → sched.length ≤ n ∧ CanGoOn s' ls'

/-- The goroutine has not finished its program and never will, whatever the others do or start. -/
def StuckForever (s : LockId → RWMutex) (ls : Nat → LockLocal) (t : Nat) : Prop :=
  ∀ sched s' ls' tr, lockMachine.run s ls sched = some (s', ls', tr) → (ls' t).todo ≠ []

end GoMetrics.Spec
