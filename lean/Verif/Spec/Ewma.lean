import Verif.Model.Ewma
import Verif.Model.Meter
import Mathlib.Algebra.Order.Field.Basic

/-! Specification of moving averages: they mention only the calls made. -/

namespace GoMetrics.Spec
open GoMetrics

/-- The number of events of every interval closed by a `Tick`, oldest first (`cur`: events of the interval in progress). -/
def intervalsFrom (cur : Int) : List EwmaOp → List Int
  | [] => []
  | .update n :: ops => intervalsFrom (cur + n.toInt) ops
  | .tick :: ops => cur :: intervalsFrom 0 ops

def intervals (ops : List EwmaOp) : List Int := intervalsFrom 0 ops

/-- Exponentially weighted moving average of a sequence, started with its first element. -/
def movingAvg {K : Type} [Field K] (alpha : K) : List K → K
  | [] => 0
  | x :: xs => xs.foldl (fun r x => r + alpha * (x - r)) x

/-- A meter's ticks, as the calls seen by its moving averages. -/
def ticksOf (ops : List MeterOp) : List EwmaOp := ops.filterMap fun | .tick _ => some .tick | _ => none

/-- The time of the last tick (`t` if there is none). -/
def lastTick (t : Option Instant) (ops : List MeterOp) : Option Instant :=
  ops.foldl (fun t o => match o with | .tick now => some now | _ => t) t

/-- A meter's `Mark`s (before a `Stop`) and ticks, as the calls seen by its moving averages. -/
def marksAndTicks : List MeterOp → List EwmaOp
  | [] => []
  | .mark n _ :: ops => .update n :: marksAndTicks ops
  | .tick _ :: ops => .tick :: marksAndTicks ops
  | .stop :: ops => ticksOf ops

/-- The sum of the arguments of the `Mark`s before a `Stop`. -/
def markedSum : List MeterOp → Int
  | [] => 0
  | .mark n _ :: ops => n.toInt + markedSum ops
  | .tick _ :: ops => markedSum ops
  | .stop :: _ => 0

/-- The time of the last `Mark` (before a `Stop`) or tick. -/
def lastActivity : Option Instant → List MeterOp → Option Instant
  | t, [] => t
  | _, .mark _ now :: ops => lastActivity (some now) ops
  | _, .tick now :: ops => lastActivity (some now) ops
  | t, .stop :: ops => lastTick t ops

end GoMetrics.Spec

namespace GoMetrics.Spec
open GoMetrics

/-! Traces of concurrent calls on one moving average. -/

variable {F : Type}

/-- The events passed to `Update` by a call. -/
def EwmaCall.events : EwmaCall → Int
  | .update n => n.toInt
  | _ => 0

/-- The numbers of events taken by `Tick`s, in order. -/
def tookList (tr : List (CEv EwmaCall (EwmaRes F))) : List Int64 :=
  tr.filterMap fun | .lin _ .tick (.took c) => some c | _ => none

/-- The number of `Tick`s that have returned. -/
def ticksReturned (tr : List (CEv EwmaCall (EwmaRes F))) : Nat :=
  tr.countP fun | .ret _ .tick _ => true | _ => false

/-- The sum of the events of all `Update`s invoked. -/
def givenSum (tr : List (CEv EwmaCall (EwmaRes F))) : Int := ((invs tr).map fun x => EwmaCall.events x.2).sum

/-- All ticks are made by goroutine `T`. -/
def OnlyTicker (T : Nat) (tr : List (CEv EwmaCall (EwmaRes F))) : Prop := ∀ t, CEv.inv t .tick ∈ tr → t = T

/-- No negative update. -/
def NonnegUpdates (tr : List (CEv EwmaCall (EwmaRes F))) : Prop := ∀ t n, CEv.inv t (.update n) ∈ tr → 0 ≤ n.toInt

end GoMetrics.Spec
