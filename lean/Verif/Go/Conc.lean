import Mathlib.Data.List.Basic

/-
Concurrent histories of calls on a shared object.

A trace is a sequence of events of any number of goroutines (numbered by `Nat`): `inv` a call starts, `lin` the one
moment inside the call at which it takes effect, `ret` the call returns. `Wf` says that every goroutine makes
one call at a time and that the effect lies between invocation and return. A history (`inv`/`ret` events only) is
linearizable (Herlihy & Wing) when such effect points can be inserted so that the calls, in the order of their
effect points, are a run of the sequential specification.
-/

namespace GoMetrics

inductive CEv (Op R : Type) where
  | inv (t : Nat) (o : Op)
  | lin (t : Nat) (o : Op) (r : R)
  | ret (t : Nat) (o : Op) (r : R)

/-- What a goroutine is doing. -/
inductive TS (Op R : Type) where
  | idle
  | pend (o : Op)
  | done (o : Op) (r : R)

/-- One event from one assignment of goroutine states to the next. -/
inductive TStep {Op R : Type} : (Nat → TS Op R) → CEv Op R → (Nat → TS Op R) → Prop where
  | inv {st t o} : st t = .idle → TStep st (.inv t o) (Function.update st t (.pend o))
  | lin {st t o r} : st t = .pend o → TStep st (.lin t o r) (Function.update st t (.done o r))
  | ret {st t o r} : st t = .done o r → TStep st (.ret t o r) (Function.update st t .idle)

/-- Well-formed traces. -/
inductive Wf {Op R : Type} : (Nat → TS Op R) → List (CEv Op R) → (Nat → TS Op R) → Prop where
  | nil {st} : Wf st [] st
  | cons {st st' st'' e tr} : TStep st e st' → Wf st' tr st'' → Wf st (e :: tr) st''

/-- All goroutines idle. -/
def allIdle {Op R : Type} : Nat → TS Op R := fun _ => .idle

/-- The calls in the order in which they take effect. -/
def linSeq {Op R : Type} (tr : List (CEv Op R)) : List (Op × R) :=
  tr.filterMap fun | .lin _ o r => some (o, r) | _ => none

/-- A run of a sequential specification `S` (relation: state, call, result, next state). -/
inductive LegalRun {σ Op R : Type} (S : σ → Op → R → σ → Prop) : σ → List (Op × R) → σ → Prop where
  | nil {s} : LegalRun S s [] s
  | cons {s s' s'' o r l} : S s o r s' → LegalRun S s' l s'' → LegalRun S s ((o, r) :: l) s''

/-- Observable events. -/
inductive HEv (Op R : Type) where
  | inv (t : Nat) (o : Op)
  | ret (t : Nat) (o : Op) (r : R)

def hist {Op R : Type} (tr : List (CEv Op R)) : List (HEv Op R) :=
  tr.filterMap fun | .inv t o => some (.inv t o) | .ret t o r => some (.ret t o r) | .lin .. => none

/-- Linearizability of a history with respect to a sequential specification and an initial state. -/
def Linearizable {σ Op R : Type} (S : σ → Op → R → σ → Prop) (s0 : σ) (h : List (HEv Op R)) : Prop :=
  ∃ tr st s', hist tr = h ∧ Wf allIdle tr st ∧ LegalRun S s0 (linSeq tr) s'

/-- The calls invoked / with effect / returned in a trace, with their goroutine. -/
def invs {Op R : Type} (tr : List (CEv Op R)) : List (Nat × Op) :=
  tr.filterMap fun | .inv t o => some (t, o) | _ => none
def lins {Op R : Type} (tr : List (CEv Op R)) : List (Nat × Op) :=
  tr.filterMap fun | .lin t o _ => some (t, o) | _ => none
def rets {Op R : Type} (tr : List (CEv Op R)) : List (Nat × Op) :=
  tr.filterMap fun | .ret t o _ => some (t, o) | _ => none

end GoMetrics
