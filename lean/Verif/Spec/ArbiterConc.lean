import Verif.Model.ArbiterConc

/-! Reading the trace of the shared clock. -/

namespace GoMetrics.Spec
open GoMetrics

/-- How many `go` statements have been executed. -/
def goes (tr : List AEv) : Nat := (tr.filter fun | .go _ => true | _ => false).length

/-- The meter ticked by goroutine `t` in an event. -/
def tickOf (t : Nat) : AEv → Option Nat
  | .tick u m => if u = t then some m else none
  | _ => none

/-- The meters ticked by goroutine `t`, in order. -/
def ticked (t : Nat) (tr : List AEv) : List Nat := tr.filterMap (tickOf t)

end GoMetrics.Spec
