import Verif.Spec.Ewma
import Verif.Spec.Shards
import Verif.Model.TickLoop
import Mathlib.Data.Real.Basic

/-! Vocabulary for C112: the traffic of a meter and the times at which the shared clock ticks it. -/

namespace GoMetrics.Spec
open GoMetrics

/-- The intervals between ticks, oldest first, each with its length in nanoseconds and the number of events marked in it. The first
one begins when the meter is made (`last`); `cur`: events of the interval in progress. -/
def spans : (last : Instant) → (cur : Int) → List MeterOp → List (Int × Int)
  | _, _, [] => []
  | last, cur, .mark n _ :: ops => spans last (cur + n.toInt) ops
  | last, cur, .tick t :: ops => (t - last, cur) :: spans t 0 ops
  | last, cur, .stop :: ops => spans last cur ops

/-- `lam` events per second, give or take `e` events in each interval. -/
def SteadyTraffic (lam e : ℝ) (l : List (Int × Int)) : Prop := ∀ p ∈ l, |(p.2 : ℝ) - lam * (p.1 / 10 ^ 9)| ≤ e

/-- The ticks are 5 seconds apart, give or take `late` seconds; the first one may come earlier. -/
def Punctual (late : ℝ) : List (Int × Int) → Prop
  | [] => True
  | p :: l => 0 ≤ p.1 ∧ (p.1 : ℝ) / 10 ^ 9 ≤ 5 + late ∧ ∀ q ∈ l, |(q.1 : ℝ) / 10 ^ 9 - 5| ≤ late

/-- The times at which rounds of a loop began. -/
def startTimes : List TickEv → List Int
  | [] => []
  | .started t :: tr => t :: startTimes tr
  | _ :: tr => startTimes tr

/-- In a run that never leaves the ticks of the clock alone for longer than `late`: whenever the timer is due, it fires at most that
much later, and the round begins at most that much after the tick was due. -/
def NeverLate (period late : Int) (s : TickS) (is : List TickIn) : Prop :=
  ∀ is₁ is₂ s₁ tr₁, is = is₁ ++ is₂ → tickerRun period false s is₁ = some (s₁, tr₁) →
    s₁.now ≤ s₁.due + late ∧ (s₁.full = true → s₁.now ≤ s₁.due - period + late)

end GoMetrics.Spec
