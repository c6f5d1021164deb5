import Mathlib.Logic.Function.Basic

/-!
Interleaved execution of any number of goroutines (numbered by `Nat`).

A machine says what one goroutine does in one atomic step (one `sync/atomic` call, one lock operation, one read or write of a
shared field): from the shared state and its own local state (program counter and local variables) to new ones, emitting the
visible events of the step. `none` means that the goroutine cannot take a step now (blocked on a lock). A step may
depend on an input `I` supplied by the environment (which call an idle goroutine makes next, what the clock shows).
An execution is given by a schedule: which goroutine moves, with which input. Theorems quantify over all schedules.
-/

namespace GoMetrics

structure Machine (S L I E : Type) where
  step : Nat → I → S → L → Option (S × L × List E)

variable {S L I E : Type}

/-- Run a schedule from a configuration; `none` if it asks a blocked goroutine to move. -/
def Machine.run (M : Machine S L I E) : S → (Nat → L) → List (Nat × I) → Option (S × (Nat → L) × List E)
  | s, ls, [] => some (s, ls, [])
  | s, ls, (t, i) :: sched =>
    match M.step t i s (ls t) with
    | none => none
    | some (s', l', es) =>
      match M.run s' (Function.update ls t l') sched with
      | none => none
      | some (s'', ls'', es') => some (s'', ls'', es ++ es')

end GoMetrics
