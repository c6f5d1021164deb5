import Verif.Go.Basic
import Verif.Go.Float
import Verif.Go.Conc
import Verif.Go.Machine

/-! Model of /repo/ewma.go: the methods run one at a time, and the atomic steps of concurrent calls. -/

namespace GoMetrics
open GoFloat

/-- ewma.go:79-85 `type StandardEWMA struct`. `rate` holds the float whose bits are stored; the mutex is not part of the
sequential state. -/
structure StandardEWMA (F : Type) where
  uncounted : Int64
  alpha : F
  rate : F
  init : Bool

/-- The values of interface type `EWMA` (ewma.go:11-16): `*StandardEWMA`, `EWMASnapshot` (line 42), `NilEWMA` (line 62). -/
inductive Ewma (F : Type) where
  | std (a : StandardEWMA F)
  | snap (r : F)
  | nil

variable {F : Type} [GoFloat F]

namespace StandardEWMA

/-- ewma.go:23 `&StandardEWMA{alpha: alpha}`: the other fields are zero (the zero bits are the float 0). -/
def new (alpha : F) : StandardEWMA F := { uncounted := 0, alpha := alpha, rate := lit 0, init := false }

/-- ewma.go:88-91. -/
def rateOf (a : StandardEWMA F) : F := mul a.rate (lit (10 ^ 9))

/-- ewma.go:136-138. -/
def update (a : StandardEWMA F) (n : Int64) : StandardEWMA F := { a with uncounted := a.uncounted + n }

/-- ewma.go:125: `float64(count) / float64(5e9)`. -/
def instantRate (count : Int64) : F := div (ofInt count.toInt) (lit (5 * 10 ^ 9))

/-- ewma.go:122-127 `fetchInstantRate`: the rate of the interval and the new state. -/
def fetchInstantRate (a : StandardEWMA F) : F × StandardEWMA F :=
  let count := a.uncounted
  (instantRate count, { a with uncounted := a.uncounted + (-count) })

/-- ewma.go:131: `currentRate += a.alpha * (instantRate - currentRate)`. -/
def newRate (alpha currentRate instant : F) : F := add currentRate (mul alpha (sub instant currentRate))

/-- ewma.go:129-133 `updateRate`. -/
def updateRate (a : StandardEWMA F) (instant : F) : StandardEWMA F := { a with rate := newRate a.alpha a.rate instant }

/-- ewma.go:100-120 `Tick`, run without interference. -/
def tick (a : StandardEWMA F) : StandardEWMA F :=
  if a.init then
    let (r, a) := a.fetchInstantRate
    a.updateRate r
  else
    let a := { a with init := true }
    let (r, a) := a.fetchInstantRate
    { a with rate := r }

end StandardEWMA

namespace Ewma

/-- ewma.go:19-24 `NewEWMA`; `useNil` is the global `UseNilMetrics`. -/
def new (useNil : Bool) (alpha : F) : Ewma F := if useNil then .nil else .std (.new alpha)

/-- `Rate`: ewma.go:88-91, 46, 65. -/
def rate : Ewma F → F
  | .std a => a.rateOf
  | .snap r => r
  | .nil => lit 0

/-- `Snapshot`: ewma.go:94-96, 49, 68. -/
def snapshot : Ewma F → Ewma F
  | .std a => .snap a.rateOf
  | .snap r => .snap r
  | .nil => .nil

/-- `Tick`: ewma.go:100-120, 52-54, 71. -/
def tick : Ewma F → Res (Ewma F)
  | .std a => .ok (.std a.tick)
  | .snap _ => .error (.msg "Tick called on an EWMASnapshot")
  | .nil => .ok .nil

/-- `Update`: ewma.go:136-138, 57-59, 74. -/
def update : Ewma F → Int64 → Res (Ewma F)
  | .std a, n => .ok (.std (a.update n))
  | .snap _, _ => .error (.msg "Update called on an EWMASnapshot")
  | .nil, _ => .ok .nil

end Ewma

/-- ewma.go:28, 33, 38: `1 - math.Exp(-5.0/60.0/M)` for M = 1, 5, 15 minutes. The argument is a constant expression, evaluated
exactly and converted to float64 once. -/
def ewmaAlpha [GoExp F] (minutes : Nat) : F := sub (lit 1) (GoExp.exp (lit (-5 / 60 / (minutes : ℚ))))

/-- ewma.go:27-39 `NewEWMA1`, `NewEWMA5`, `NewEWMA15`. -/
def Ewma.new1 [GoExp F] (useNil : Bool) : Ewma F := Ewma.new useNil (ewmaAlpha 1)
def Ewma.new5 [GoExp F] (useNil : Bool) : Ewma F := Ewma.new useNil (ewmaAlpha 5)
def Ewma.new15 [GoExp F] (useNil : Bool) : Ewma F := Ewma.new useNil (ewmaAlpha 15)

/-- The mutating calls of the interface. -/
inductive EwmaOp where
  | update (n : Int64)
  | tick
  deriving DecidableEq

def Ewma.apply (a : Ewma F) : EwmaOp → Res (Ewma F)
  | .update n => a.update n
  | .tick => a.tick

/-- A history of calls made one after the other. -/
def Ewma.run (a : Ewma F) (ops : List EwmaOp) : Res (Ewma F) := ops.foldlM Ewma.apply a

/-! ### Concurrent calls -/

/-- The shared fields of a `StandardEWMA` (ewma.go:79-85); `locked` is the mutex. -/
structure EShared (F : Type) where
  uncounted : Int64
  rate : F
  init : Bool
  locked : Bool

/-- The branch of `Tick` that called `fetchInstantRate`: line 103, 113 or 116. -/
inductive TickMode where
  | fast
  | slow
  | first
  deriving DecidableEq

/-- Where a goroutine is inside `Tick`: the next atomic operation to execute, with the local variables. -/
inductive TPc (F : Type) where
  /-- before `atomic.LoadUint32(&a.init)`, line 102 -/
  | start
  /-- before `a.mutex.Lock()`, line 109 -/
  | lock
  /-- before the second `atomic.LoadUint32(&a.init)`, line 110 -/
  | recheck
  /-- before `atomic.StoreUint32(&a.init, 1)`, line 115 -/
  | setInit
  /-- before `atomic.LoadInt64(&a.uncounted)`, line 123 -/
  | load (m : TickMode)
  /-- before `atomic.AddInt64(&a.uncounted, -count)`, line 124 -/
  | sub (m : TickMode) (count : Int64)
  /-- before `atomic.LoadUint64(&a.rate)`, line 130 -/
  | loadRate (m : TickMode) (count : Int64)
  /-- before `atomic.StoreUint64(&a.rate, …)`, line 132 or 116 -/
  | storeRate (m : TickMode) (count : Int64) (r : F)
  /-- before `a.mutex.Unlock()`, line 118 -/
  | unlock (count : Int64)
  /-- returned -/
  | done (count : Int64)

/-- One atomic step of `Tick` (ewma.go:100-133); `none`: blocked on the mutex, or finished. -/
def tickStep (alpha : F) (s : EShared F) : TPc F → Option (EShared F × TPc F)
  | .start => some (s, if s.init then .load .fast else .lock)
  | .lock => if s.locked then none else some ({ s with locked := true }, .recheck)
  | .recheck => some (s, if s.init then .load .slow else .setInit)
  | .setInit => some ({ s with init := true }, .load .first)
  | .load m => some (s, .sub m s.uncounted)
  | .sub m c => some ({ s with uncounted := s.uncounted + (-c) },
      match m with | .first => .storeRate m c (StandardEWMA.instantRate c) | _ => .loadRate m c)
  | .loadRate m c => some (s, .storeRate m c (StandardEWMA.newRate alpha s.rate (StandardEWMA.instantRate c)))
  | .storeRate m c r => some ({ s with rate := r }, match m with | .fast => .done c | _ => .unlock c)
  | .unlock c => some ({ s with locked := false }, .done c)
  | .done _ => none

/-- The calls made by concurrent goroutines. -/
inductive EwmaCall where
  | update (n : Int64)
  | tick
  | rate
  deriving DecidableEq

/-- The result of a call (`took c`: for `Tick`, the number of events the call turned into its interval rate). -/
inductive EwmaRes (F : Type) where
  | unit
  | took (c : Int64)
  | rate (r : F)

/-- Where a goroutine is. -/
inductive EPc (F : Type) where
  | idle
  /-- before `atomic.AddInt64(&a.uncounted, n)`, line 137 -/
  | upd (n : Int64)
  /-- before `atomic.LoadUint64(&a.rate)`, line 89 -/
  | rd
  | tick (p : TPc F)
  /-- about to return -/
  | ret (c : EwmaCall) (r : EwmaRes F)

/-- The effect event of a step of `Tick`: the moment the events are taken out of `uncounted` (line 124). -/
def tickEvent (t : Nat) : TPc F → List (CEv EwmaCall (EwmaRes F))
  | .sub _ c => [.lin t .tick (.took c)]
  | _ => []

/-- A goroutine inside `Tick` that has returned from it. -/
def tickLocal : TPc F → EPc F
  | .done c => .ret .tick (.took c)
  | p => .tick p

/-- One `StandardEWMA` shared by any number of goroutines. The input says which call an idle goroutine makes. -/
def ewmaMachine (alpha : F) : Machine (EShared F) (EPc F) EwmaCall (CEv EwmaCall (EwmaRes F)) where
  step t i s
    | .idle => some (s, (match i with | .update n => .upd n | .rate => .rd | .tick => .tick .start), [.inv t i])
    | .upd n => some ({ s with uncounted := s.uncounted + n }, .ret (.update n) .unit, [.lin t (.update n) .unit])
    | .rd => some (s, .ret .rate (.rate (mul s.rate (lit (10 ^ 9)))), [.lin t .rate (.rate (mul s.rate (lit (10 ^ 9))))])
    | .tick p =>
      match tickStep alpha s p with
      | none => none
      | some (s', p') => some (s', tickLocal p', tickEvent t p)
    | .ret c r => some (s, .idle, [.ret t c r])

/-- The zero value (line 23). -/
def EShared.zero : EShared F := { uncounted := 0, rate := lit 0, init := false, locked := false }

end GoMetrics
