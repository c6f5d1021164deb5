import Verif.Spec.World

/-! Specification for C119: what a program that only records, reads and reports keeps in memory. -/

namespace GoMetrics.Spec
open GoMetrics

variable {F : Type}

/-- The room made for values when the object was made: the reservoir size given to the constructor of a sample. -/
def room : Obj F → Nat
  | .sample (.uniform s) => s.reservoirSize.toNat
  | .sample (.exp s) => s.reservoirSize.toNat
  | _ => 0

/-- The samples that take values. -/
def takesValues : Obj F → Bool
  | .sample (.uniform _) | .sample (.exp _) => true
  | _ => false

/-- The values that the object itself keeps (a snapshot keeps its values in a slice, which is counted apart). -/
def keptValues : Obj F → Nat
  | .sample (.uniform s) => s.values.length
  | .sample (.exp s) => s.values.s.length
  | _ => 0

/-- The values kept by the whole program: in the samples, and in the slices of snapshots and of user code. -/
def valuesKept (w : World F) : Nat :=
  ((List.range w.nextObj).map fun r => ((w.objs r).map keptValues).getD 0).sum + ((List.range w.nextArr).map fun a => (w.arrs a).length).sum

/-- The room made for them. -/
def roomMade (w : World F) : Nat :=
  ((List.range w.nextObj).map fun r => ((w.objs r).map room).getD 0).sum + ((List.range w.nextArr).map fun a => (w.arrs a).length).sum

/-- The name is taken in the registry. -/
def taken (w : World F) (g : Reg) (name : Str) : Prop := ∃ id q, base g = some id ∧ (fullName g name, q) ∈ w.regs id

/-- The methods that record, read or reset: all but `Snapshot` and `Values`, which make copies on purpose, and `Sample`, which makes a `NilSample` for a `NilHistogram`. -/
def copiesNothing : Call F → Bool
  | .snapshot | .values | .sample => false
  | _ => true

/-- What a program does when it is set up: records and reads values, lets the clock tick, writes to elements of slices it has, looks names up, also by `GetOrRegister` and `Register` with names that are
taken, unregisters names and runs healthchecks. -/
def Routine (w : World F) : Op F → Prop
  | .setNil _ => True
  | .new _ => False
  | .call _ c => copiesNothing c = true
  | .slice (.make _) => False
  | .slice (.set _ _ _) => True
  | .tick => True
  | .reg g (.getOrRegister name _) => taken w g name
  | .reg g (.register name _) => taken w g name
  | .reg _ _ => True

/-- All operations are of this kind, each in the state in which it is done. -/
def RoutineFrom [GoFloat F] [GoSqrt F] [GoExp F] (w : World F) : List (Env F × Op F) → Prop
  | [] => True
  | (env, o) :: l => Routine w o ∧ RoutineFrom (step env o w).1 l

/-- What the second state needs no more of than the first: the same objects with the same room, the same slices, no more entries in any registry and no more meters in the set of the clock. -/
structure NoMore (w w' : World F) : Prop where
  objects : w'.nextObj = w.nextObj
  slices : w'.nextArr = w.nextArr
  lengths : ∀ a, (w'.arrs a).length = (w.arrs a).length
  rooms : ∀ r, (w'.objs r).map room = (w.objs r).map room
  entries : ∀ id, (w'.regs id).length ≤ (w.regs id).length
  meters : w'.meters.length ≤ w.meters.length

end GoMetrics.Spec
