import Verif.Spec.Export

/-! A program that asks for no metrics (`UseNilMetrics`). -/

namespace GoMetrics.Spec
open GoMetrics

variable {F : Type}

/-- The program sets `UseNilMetrics` before anything else and never resets it. -/
def NilProgram : List (Env F × Op F) → Prop
  | (_, .setNil true) :: rest => ∀ x ∈ rest, x.2 ≠ .setNil false
  | _ => False

/-- A zero, or no error. -/
def isNothing [GoFloat F] (v : GoMetrics.Field F) : Prop := v = .int 0 ∨ v = .float (GoFloat.lit 0) ∨ v = .bits 0 ∨ v = .nil

/-- Every statistic of the metric (with the percentiles `ps`) is in the rows, once, and each is a zero, converted by `conv`. -/
def AllZero [GoFloat F] (o : Obj F) (ps : List F) (conv : Call F → GoMetrics.Field F → GoMetrics.Field F) (rows : List (String × GoMetrics.Field F)) : Prop :=
  (rows.map fun x => means o x.1).Perm ((statsOf ps o).map some) ∧ ∀ x ∈ rows, ∃ c v, means o x.1 = some c ∧ isNothing v ∧ x.2 = conv c v

/-- The operations that may panic although there are no metrics: a method of a `SampleSnapshot`, which `NewSampleSnapshot` makes also with `UseNilMetrics`, and a
`GetOrRegister` whose function cannot be called or panics. -/
def mayPanic (w : World F) : Op F → Prop
  | .call r _ => ∃ n a, w.objs r = some (.sample (.snap n a))
  | .reg _ (.getOrRegister _ .badFn) => True
  | _ => False

end GoMetrics.Spec
