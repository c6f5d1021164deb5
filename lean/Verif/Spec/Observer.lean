import Verif.Spec.TimeShift
import Verif.Spec.World

/-! Vocabulary for C107: a history after something was looked at. -/

namespace GoMetrics.Spec
open GoMetrics

variable {F : Type}

/-- Objects and slices are numbered in the order in which they are made. If `k` objects are made when there are `n`, and `j` slices when there are `m`, the later ones get
other numbers than they would have got. -/
structure Move where
  n : Nat
  k : Nat
  m : Nat
  j : Nat

/-- The new number of an object. -/
def Move.ref (M : Move) (r : Ref) : Ref := if r < M.n then r else r + M.k
/-- The new number of a slice. -/
def Move.arr (M : Move) (a : ArrId) : ArrId := if a < M.m then a else a + M.j

/-- The same constructor call on the same objects. -/
def Move.new (M : Move) : NewOp F → NewOp F
  | .sampleSnap n a => .sampleSnap n (M.arr a)
  | .hist s => .hist (M.ref s)
  | .customTimer h m => .customTimer (M.ref h) (M.ref m)
  | c => c

def Move.val (M : Move) : Val F → Val F
  | .obj r => .obj (M.ref r)
  | .ctor c => .ctor (M.new c)
  | v => v

def Move.regOp (M : Move) : RegOp F → RegOp F
  | .getOrRegister name v => .getOrRegister name (M.val v)
  | .register name v => .register name (M.val v)
  | o => o

/-- The same operation on the same objects. -/
def Move.op (M : Move) : Op F → Op F
  | .new c => .new (M.new c)
  | .call r c => .call (M.ref r) c
  | .slice (.set a i v) => .slice (.set (M.arr a) i v)
  | .reg g o => .reg g (M.regOp o)
  | o => o

/-- The same result. -/
def Move.out (M : Move) : Out F → Out F
  | .slice a => .slice (M.arr a)
  | .ref r => .ref (M.ref r)
  | o => o

def Move.regOut (M : Move) : RegOut F → RegOut F
  | .metric r => .metric (M.ref r)
  | .given v => .given (M.val v)
  | o => o

def Move.opOut (M : Move) : OpOut F → OpOut F
  | .out o => .out (M.out o)
  | .reg o => .reg (M.regOut o)

/-- The renumbering when the store was `w` before and is `w'` now. -/
def Move.between (w w' : World F) : Move := ⟨w.nextObj, w'.nextObj - w.nextObj, w.nextArr, w'.nextArr - w.nextArr⟩

/-- The order in which `range` visits a map depends on the places of its entries only. (For the one loop an operation runs this is no restriction: any order of the entries of one list
is given by an order of their places.) -/
def positional (env : Env F) : Prop := ∀ {α β : Type} (f : α → β) (l : List α), env.order (l.map f) = (env.order l).map f

/-- Nothing that the program does later can tell `w'` from `w`: the same history gives the same results, up to the numbering of new objects. -/
def Indistinguishable [GoFloat F] [GoSqrt F] [GoExp F] (w w' : World F) : Prop :=
  ∀ l : List (Env F × Op F), (∀ x ∈ l, positional x.1) →
    results w' (l.map fun x => (x.1, (Move.between w w').op x.2)) = (results w l).map (Except.map (Move.between w w').opOut)

/-- All samples in `r` are exponentially decaying ones (or `NilSample`s): not the ones whose values a percentile read puts in order. -/
def decaying (w : World F) (r : Ref) : Prop := ∀ x y, partOf w r x → w.objs x = some (.sample y) → (∃ s, y = .exp s) ∨ y = .nil

/-- Calls that read something, or give a copy of it. -/
def looks : Call F → Bool
  | .count | .value | .rate | .stat _ | .size | .rates _ | .error | .snapshot | .values | .sample => true
  | _ => false

/-- `Percentile` and `Percentiles`. -/
def isPercentile : Call F → Bool
  | .stat (.percentile _) | .stat (.percentiles _) => true
  | _ => false

end GoMetrics.Spec
