import Verif.Spec.Ewma
import Verif.Lemmas.Conc

/-! Specification of concurrent calls on a meter (in terms of the calls and their results only). -/

namespace GoMetrics.Spec
open GoMetrics

variable {F : Type}

/-- The call events of a trace. -/
def callsOf (tr : List (MEv F)) : List (CEv MCall (MRes F)) := tr.filterMap MEv.call?

/-- The events marked by a call that was counted. -/
def countedEvents : Nat × MCall × MRes F → Int
  | (_, .mark n, .marked true) => n.toInt
  | _ => 0

/-- The events of all returned `Mark`s that were counted. -/
def returnedMarks (tr : List (MEv F)) : Int := ((retsR (callsOf tr)).map countedEvents).sum

/-- The events taken by the clock from one of the averages. -/
def takenFrom (a : Avg) (tr : List (MEv F)) : Int :=
  (tr.map fun | .took b c => if b = a then c.toInt else 0 | _ => 0).sum

/-- A `Stop` has taken effect. -/
def Stopped (tr : List (CEv MCall (MRes F))) : Prop := ∃ t r, CEv.lin t .stop r ∈ tr

/-- The five numbers shown by a meter. -/
def MShared.shown (s : MShared F) : MeterSnapshot F := ⟨s.count, s.rate1, s.rate5, s.rate15, s.rateMean⟩

end GoMetrics.Spec
