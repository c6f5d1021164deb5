import Verif.Spec.Meter

/-! Specification of the rates of a meter that is used by several goroutines at a time. -/

namespace GoMetrics.Spec
open GoMetrics

variable {F : Type} [GoFloat F]

/-- What `Rate1`, `Rate5`, `Rate15` return. -/
def MShared.rate (s : MShared F) : Avg → F
  | .m1 => s.rate1
  | .m5 => s.rate5
  | .m15 => s.rate15

/-- What a moving average amounts to at the moment, in events per second. -/
def MShared.average (s : MShared F) (a : Avg) : F := GoFloat.mul (s.avg a).rate (GoFloat.lit (10 ^ 9))

/-- The meter after the first `i` steps of an execution. -/
def stateAfter (k : MConst F) (s : MShared F) (ls : Nat → MPc F) (sched : List (Nat × MIn)) (i : Nat) : Option (MShared F) :=
  ((meterMachine k).run s ls (sched.take i)).map fun x => x.1

/-- At some moment of the execution the average `a` was `x`. -/
def AverageWas (k : MConst F) (s : MShared F) (ls : Nat → MPc F) (sched : List (Nat × MIn)) (a : Avg) (x : F) : Prop :=
  ∃ i m, i ≤ sched.length ∧ stateAfter k s ls sched i = some m ∧ x = MShared.average m a

/-- At some moment of the execution the count divided by the seconds since the construction (read from the clock at this moment) was `x`. -/
def MeanWas (k : MConst F) (s : MShared F) (ls : Nat → MPc F) (sched : List (Nat × MIn)) (x : F) : Prop :=
  ∃ i m t inp, sched[i]? = some (t, inp) ∧ stateAfter k s ls sched i = some m ∧
    x = GoFloat.div (GoFloat.ofInt m.count.toInt) (seconds (timeSub inp.now k.start))

/-- A `Mark` that was counted or a tick has returned. -/
def Updated (tr : List (MEv F)) : Prop := ∃ t, (∃ n, .call (.ret t (.mark n) (.marked true)) ∈ tr) ∨ ∃ r, .call (.ret t .tick r) ∈ tr

/-- The events that ticks took from an average, in order. -/
def tookFrom (a : Avg) (tr : List (MEv F)) : List Int64 := tr.filterMap fun | .took b c => if b = a then some c else none | _ => none

/-- The number of ticks that have returned. -/
def ticksDone (tr : List (MEv F)) : Nat := (callsOf tr).countP fun | .ret _ .tick _ => true | _ => false

/-- All ticks are made by goroutine `T` (in the library: the one that serves the shared ticker, C38). -/
def TickedBy (T : Nat) (tr : List (MEv F)) : Prop := ∀ t, .call (.inv t .tick) ∈ tr → t = T

/-- The call that goroutine `t` has invoked and that has not returned. -/
def running (t : Nat) (tr : List (CEv MCall (MRes F))) : Option MCall :=
  tr.foldl (fun c e => match e with
    | .inv u o => if u = t then some o else c
    | .ret u _ _ => if u = t then none else c
    | .lin _ _ _ => c) none

/-- The calls that change the rates. -/
def MCall.writes : MCall → Bool
  | .mark _ => true
  | .tick => true
  | _ => false

/-- At any moment at most one `Mark` or tick is running (and any number of calls of the other methods). -/
def OneWriter (tr : List (MEv F)) : Prop := ∀ a, a <+: tr → ∀ t u c d, running t (callsOf a) = some c → running u (callsOf a) = some d →
  MCall.writes c = true → MCall.writes d = true → t = u

/-- The `Mark`s that were counted and the ticks, in the order of their effects. -/
def writesOf (tr : List (MEv F)) : List MCall := (callsOf tr).filterMap fun
  | .lin _ (.mark n) (.marked true) => some (.mark n)
  | .lin _ .tick _ => some .tick
  | _ => none

/-- The call and the time of an operation of a history. -/
def callOf : MeterOp → MCall
  | .mark n _ => .mark n
  | .tick _ => .tick
  | .stop => .stop
def timeOf : MeterOp → Option Instant
  | .mark _ now => some now
  | .tick now => some now
  | .stop => none

/-- The constants of a meter made by `NewMeter` at time `t0`. -/
def standardConst [GoExp F] (t0 : Instant) : MConst F := ⟨ewmaAlpha 1, ewmaAlpha 5, ewmaAlpha 15, t0⟩

end GoMetrics.Spec
