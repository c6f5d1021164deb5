import Verif.Model.Ewma
import Verif.Go.Time

/-! Model of /repo/meter.go: the methods of one meter run one at a time, and the atomic steps of concurrent calls. The set of
meters ticked by the shared clock (`arbiter`) is in `Model/Arbiter.lean` and in the `World`. -/

namespace GoMetrics
open GoFloat

/-- meter.go:65-68 `type MeterSnapshot struct` (the rates are the floats whose bits are stored). -/
structure MeterSnapshot (F : Type) where
  count : Int64
  rate1 : F
  rate5 : F
  rate15 : F
  rateMean : F
  deriving DecidableEq

/-- meter.go:128-133 `type StandardMeter struct`. The three `EWMA` fields always hold `*StandardEWMA` (newStandardMeter is
only reached when `UseNilMetrics` is false, meter.go:37-40). -/
structure StandardMeter (F : Type) where
  snapshot : MeterSnapshot F
  a1 : StandardEWMA F
  a5 : StandardEWMA F
  a15 : StandardEWMA F
  startTime : Instant
  stopped : Bool

/-- The values of interface type `Meter` (meter.go:12-21): `*StandardMeter`, `*MeterSnapshot`, `NilMeter`. -/
inductive Meter (F : Type) where
  | std (m : StandardMeter F)
  | snap (s : MeterSnapshot F)
  | nil

variable {F : Type} [GoFloat F]

/-- meter.go:137 `&MeterSnapshot{}`: all fields zero. -/
def MeterSnapshot.zero : MeterSnapshot F := { count := 0, rate1 := lit 0, rate5 := lit 0, rate15 := lit 0, rateMean := lit 0 }

namespace StandardMeter

/-- meter.go:135-143 `newStandardMeter`. -/
def new [GoExp F] (now : Instant) : StandardMeter F :=
  { snapshot := .zero, a1 := .new (ewmaAlpha 1), a5 := .new (ewmaAlpha 5), a15 := .new (ewmaAlpha 15),
    startTime := now, stopped := false }

/-- meter.go:209: `float64(m.Count()) / time.Since(m.startTime).Seconds()`. -/
def meanRate (count : Int64) (start now : Instant) : F := div (ofInt count.toInt) (seconds (timeSub now start))

/-- meter.go:205-215 `updateSnapshot`. -/
def updateSnapshot (m : StandardMeter F) (now : Instant) : StandardMeter F :=
  { m with snapshot := { count := m.snapshot.count, rate1 := m.a1.rateOf, rate5 := m.a5.rateOf, rate15 := m.a15.rateOf,
                         rateMean := meanRate m.snapshot.count m.startTime now } }

/-- meter.go:160-171 `Mark`. -/
def mark (m : StandardMeter F) (n : Int64) (now : Instant) : StandardMeter F :=
  if m.stopped then m
  else
    let m := { m with snapshot := { m.snapshot with count := m.snapshot.count + n } }
    let m := { m with a1 := m.a1.update n, a5 := m.a5.update n, a15 := m.a15.update n }
    m.updateSnapshot now

/-- meter.go:217-222 `tick`. -/
def tick (m : StandardMeter F) (now : Instant) : StandardMeter F :=
  let m := { m with a1 := m.a1.tick, a5 := m.a5.tick, a15 := m.a15.tick }
  m.updateSnapshot now

/-- meter.go:146-152 `Stop`, the part that concerns the meter itself (removal from `arbiter.meters` is in the `World`). -/
def stop (m : StandardMeter F) : StandardMeter F := { m with stopped := true }

end StandardMeter

namespace Meter

/-- `Count`: meter.go:155-157, 71, 104. -/
def count : Meter F → Int64
  | .std m => m.snapshot.count
  | .snap s => s.count
  | .nil => 0

/-- `Rate1`: meter.go:174-176, 80, 110. -/
def rate1 : Meter F → F
  | .std m => m.snapshot.rate1
  | .snap s => s.rate1
  | .nil => lit 0

/-- `Rate5`: meter.go:179-181, 84, 113. -/
def rate5 : Meter F → F
  | .std m => m.snapshot.rate5
  | .snap s => s.rate5
  | .nil => lit 0

/-- `Rate15`: meter.go:184-186, 88, 116. -/
def rate15 : Meter F → F
  | .std m => m.snapshot.rate15
  | .snap s => s.rate15
  | .nil => lit 0

/-- `RateMean`: meter.go:189-191, 92, 119. -/
def rateMean : Meter F → F
  | .std m => m.snapshot.rateMean
  | .snap s => s.rateMean
  | .nil => lit 0

/-- `Snapshot`: meter.go:194-203, 95, 122. -/
def snapshot : Meter F → Meter F
  | .std m => .snap { count := m.snapshot.count, rate1 := m.snapshot.rate1, rate5 := m.snapshot.rate5,
                      rate15 := m.snapshot.rate15, rateMean := m.snapshot.rateMean }
  | .snap s => .snap s
  | .nil => .nil

/-- `Mark`: meter.go:160-171, 74-76, 107. -/
def mark : Meter F → Int64 → Instant → Res (Meter F)
  | .std m, n, now => .ok (.std (m.mark n now))
  | .snap _, _, _ => .error (.msg "Mark called on a MeterSnapshot")
  | .nil, _, _ => .ok .nil

/-- `Stop` (effect on the receiver): meter.go:146-152, 98, 125. -/
def stop : Meter F → Meter F
  | .std m => .std m.stop
  | .snap s => .snap s
  | .nil => .nil

/-- A tick of the shared clock reaching this meter (meter.go:248-250; only `*StandardMeter`s are in `arbiter.meters`). -/
def tick : Meter F → Instant → Meter F
  | .std m, now => .std (m.tick now)
  | .snap s, _ => .snap s
  | .nil, _ => .nil

end Meter

/-- What happens to a meter: a `Mark` or a clock tick, at a time, or a `Stop`. -/
inductive MeterOp where
  | mark (n : Int64) (now : Instant)
  | tick (now : Instant)
  | stop
  deriving DecidableEq

def Meter.apply (m : Meter F) : MeterOp → Res (Meter F)
  | .mark n now => m.mark n now
  | .tick now => .ok (m.tick now)
  | .stop => .ok m.stop

/-- A history, one operation after the other. -/
def Meter.run (m : Meter F) (ops : List MeterOp) : Res (Meter F) := ops.foldlM Meter.apply m

/-! ### Concurrent calls -/

/-- The three moving averages of a meter. -/
inductive Avg where
  | m1
  | m5
  | m15
  deriving DecidableEq

/-- The shared fields of a `StandardMeter`. -/
structure MShared (F : Type) where
  count : Int64
  rate1 : F
  rate5 : F
  rate15 : F
  rateMean : F
  e1 : EShared F
  e5 : EShared F
  e15 : EShared F
  stopped : Bool

def MShared.avg (s : MShared F) : Avg → EShared F
  | .m1 => s.e1
  | .m5 => s.e5
  | .m15 => s.e15

def MShared.setAvg (s : MShared F) (e : EShared F) : Avg → MShared F
  | .m1 => { s with e1 := e }
  | .m5 => { s with e5 := e }
  | .m15 => { s with e15 := e }

/-- The average handled after this one (meter.go:167-169, 218-220). -/
def Avg.next : Avg → Option Avg
  | .m1 => some .m5
  | .m5 => some .m15
  | .m15 => none

/-- Calls on a meter: `tick` is made by the clock goroutine. -/
inductive MCall where
  | mark (n : Int64)
  | tick
  | stop
  | count
  | snapshot
  deriving DecidableEq

/-- Results of calls: for `mark`, whether it was counted. -/
inductive MRes (F : Type) where
  | unit
  | marked (counted : Bool)
  | count (n : Int64)
  | snap (s : MeterSnapshot F)
  deriving DecidableEq

/-- Where a goroutine is inside a call on a meter. -/
inductive MPc (F : Type) where
  | idle
  /-- before `atomic.LoadUint32(&m.stopped)`, line 161 -/
  | mark0 (n : Int64)
  /-- before `atomic.AddInt64(&m.snapshot.count, n)`, line 165 -/
  | mark1 (n : Int64)
  /-- before `Update(n)` of an average, lines 167-169 -/
  | markA (n : Int64) (a : Avg)
  /-- inside `Tick` of an average, lines 218-220 -/
  | tickA (a : Avg) (p : TPc F)
  /-- `updateSnapshot` called by `c`: before the loads of lines 206, 207, 208, 209 -/
  | us1 (c : MCall)
  | us5 (c : MCall) (r1 : F)
  | us15 (c : MCall) (r1 r5 : F)
  | usMean (c : MCall) (r1 r5 r15 : F)
  /-- before the stores of lines 211, 212, 213, 214 -/
  | st1 (c : MCall) (r1 r5 r15 rm : F)
  | st5 (c : MCall) (r5 r15 rm : F)
  | st15 (c : MCall) (r15 rm : F)
  | stMean (c : MCall) (rm : F)
  /-- before the compare-and-swap, line 147 -/
  | stop0
  /-- before `atomic.LoadInt64(&m.snapshot.count)`, line 156 -/
  | count0
  /-- `Snapshot`: before the loads of lines 196-200 -/
  | sn0
  | sn1 (n : Int64)
  | sn5 (n : Int64) (r1 : F)
  | sn15 (n : Int64) (r1 r5 : F)
  | snMean (n : Int64) (r1 r5 r15 : F)
  /-- about to return -/
  | ret (c : MCall) (r : MRes F)

/-- The result of a call that ends with `updateSnapshot`. -/
def usResult : MCall → MRes F
  | .mark _ => .marked true
  | _ => .unit

/-- Events: of calls, the moments at which a `Mark` of goroutine `t` reaches an average (ewma.go:137), and the moments at which the
clock takes events out of an average (ewma.go:124). -/
inductive MEv (F : Type) where
  | call (e : CEv MCall (MRes F))
  | added (t : Nat) (a : Avg) (n : Int64)
  | took (a : Avg) (c : Int64)

/-- The call events of a trace. -/
def MEv.call? : MEv F → Option (CEv MCall (MRes F))
  | .call e => some e
  | _ => none

/-- What the environment supplies to a step: the next call of an idle goroutine, and the clock. -/
structure MIn where
  call : MCall
  now : Instant

/-- The constants of a meter: the three alphas and the start time. -/
structure MConst (F : Type) where
  alpha1 : F
  alpha5 : F
  alpha15 : F
  start : Instant

def MConst.alpha (k : MConst F) : Avg → F
  | .m1 => k.alpha1
  | .m5 => k.alpha5
  | .m15 => k.alpha15

/-- First step of a call. -/
def MPc.begin : MCall → MPc F
  | .mark n => .mark0 n
  | .tick => .tickA .m1 .start
  | .stop => .stop0
  | .count => .count0
  | .snapshot => .sn0

/-- One `StandardMeter` shared by any number of goroutines. Effect events: a `Mark` takes effect when it reads `stopped` (if it
is dropped) or adds to the count; `Stop` at its compare-and-swap. -/
def meterMachine (k : MConst F) : Machine (MShared F) (MPc F) MIn (MEv F) where
  step t i s
    | .idle => some (s, .begin i.call, [.call (.inv t i.call)])
    | .mark0 n =>
      if s.stopped then some (s, .ret (.mark n) (.marked false), [.call (.lin t (.mark n) (.marked false))])
      else some (s, .mark1 n, [])
    | .mark1 n => some ({ s with count := s.count + n }, .markA n .m1, [.call (.lin t (.mark n) (.marked true))])
    | .markA n a =>
      some (s.setAvg { s.avg a with uncounted := (s.avg a).uncounted + n } a,
        (match a.next with | some b => .markA n b | none => .us1 (.mark n)), [.added t a n])
    | .tickA a p =>
      match tickStep (k.alpha a) (s.avg a) p with
      | none => none
      | some (e, p') =>
        some (s.setAvg e a,
          (match p', a.next with
            | .done _, some b => .tickA b .start
            | .done _, none => .us1 .tick
            | p', _ => .tickA a p'),
          (match p with | .sub _ c => [.took a c] | _ => []) ++
          (match p', a.next with | .done _, none => [.call (.lin t .tick .unit)] | _, _ => []))
    | .us1 c => some (s, .us5 c (mul s.e1.rate (lit (10 ^ 9))), [])
    | .us5 c r1 => some (s, .us15 c r1 (mul s.e5.rate (lit (10 ^ 9))), [])
    | .us15 c r1 r5 => some (s, .usMean c r1 r5 (mul s.e15.rate (lit (10 ^ 9))), [])
    | .usMean c r1 r5 r15 => some (s, .st1 c r1 r5 r15 (StandardMeter.meanRate s.count k.start i.now), [])
    | .st1 c r1 r5 r15 rm => some ({ s with rate1 := r1 }, .st5 c r5 r15 rm, [])
    | .st5 c r5 r15 rm => some ({ s with rate5 := r5 }, .st15 c r15 rm, [])
    | .st15 c r15 rm => some ({ s with rate15 := r15 }, .stMean c rm, [])
    | .stMean c rm => some ({ s with rateMean := rm }, .ret c (usResult c), [])
    | .stop0 => some ({ s with stopped := true }, .ret .stop .unit, [.call (.lin t .stop .unit)])
    | .count0 => some (s, .ret .count (.count s.count), [.call (.lin t .count (.count s.count))])
    | .sn0 => some (s, .sn1 s.count, [])
    | .sn1 n => some (s, .sn5 n s.rate1, [])
    | .sn5 n r1 => some (s, .sn15 n r1 s.rate5, [])
    | .sn15 n r1 r5 => some (s, .snMean n r1 r5 s.rate15, [])
    | .snMean n r1 r5 r15 =>
      some (s, .ret .snapshot (.snap ⟨n, r1, r5, r15, s.rateMean⟩), [.call (.lin t .snapshot (.snap ⟨n, r1, r5, r15, s.rateMean⟩))])
    | .ret c r => some (s, .idle, [.call (.ret t c r)])

/-- The fields of a new meter (line 136-142). -/
def MShared.zero : MShared F :=
  { count := 0, rate1 := lit 0, rate5 := lit 0, rate15 := lit 0, rateMean := lit 0, e1 := .zero, e5 := .zero, e15 := .zero,
    stopped := false }

end GoMetrics
