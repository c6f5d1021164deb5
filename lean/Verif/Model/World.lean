import Verif.Model.Counter
import Verif.Model.Gauge
import Verif.Model.Healthcheck
import Verif.Model.Uniform
import Verif.Model.ExpDecay
import Verif.Model.Ewma
import Verif.Model.Meter

/-!
All metric objects of a program together: a store of objects, the backing arrays of slices, and the meters known to the shared clock
(`arbiter`, meter.go:226-233). Every method of every metric interface acts on this store, so that aliasing (a histogram's sample, a
timer's histogram and meter, a slice shared with a snapshot) is part of the model. The methods here run one at a time;
the concurrent executions are in the machines of the individual files.

Simplifications: a value of interface type is a reference to a store object, also for the types that Go passes by value (snapshots
of counters, gauges and EWMAs, the Nil types), which is unobservable because those objects never change. A method that Go's type checker would reject gives `illTyped` and
changes nothing. All clock readings inside one call are equal (`Env.now`).
-/

namespace GoMetrics
open GoFloat

/-- Address of an object / of the backing array of a slice. -/
notation "Ref" => Nat
notation "ArrId" => Nat

/-- Values of interface type `Sample` (sample.go:15-30): `*UniformSample` (sample.go:400), `*ExpDecaySample` (sample.go:37),
`*SampleSnapshot` (sample.go:300-303; `values` is a slice: its backing array is in the store), `NilSample` (sample.go:189). -/
inductive SampleV (F : Type) where
  | uniform (s : UniformSample)
  | exp (s : ExpDecaySample F)
  | snap (count : Int64) (values : ArrId)
  | nil

/-- Values of interface type `Histogram` (histogram.go:4-18): `*StandardHistogram` (151-153), `*HistogramSnapshot` (49-51),
`NilHistogram` (106). -/
inductive HistV where
  | std (sample : Ref)
  | snap (sample : Ref)
  | nil
  deriving DecidableEq

/-- Values of interface type `Timer` (timer.go:9-28): `*StandardTimer` (144-148, the mutex is held for whole method bodies),
`*TimerSnapshot` (252-255), `NilTimer` (79-82). -/
inductive TimerV where
  | std (histogram meter : Ref)
  | snap (histogram meter : Ref)
  | nil
  deriving DecidableEq

/-- An object of the store. -/
inductive Obj (F : Type) where
  | counter (c : Counter)
  | gauge (g : Gauge)
  | gaugeF (g : GaugeF)
  | health (h : Health)
  | sample (s : SampleV F)
  | hist (h : HistV)
  | ewma (e : Ewma F)
  | meter (m : Meter F)
  | timer (t : TimerV)

/-- The state of the program's metrics. `shared a` says that user code holds the slice with backing array `a`; `meters` and `started`
are `arbiter.meters` and `arbiter.started` (meter.go:226-231); `regs` holds the maps of the standard registries
(registry.go:55-58), number 0 being `DefaultRegistry` (registry.go:333); `useNil` is `UseNilMetrics` (metrics.go:13). -/
structure World (F : Type) where
  objs : Ref → Option (Obj F)
  nextObj : Ref
  arrs : ArrId → List Int64
  shared : ArrId → Bool
  nextArr : ArrId
  meters : List Ref
  started : Bool
  regs : Nat → List (Str × Ref)
  useNil : Bool

/-- Program start. -/
def World.init {F : Type} : World F :=
  { objs := fun _ => none, nextObj := 0, arrs := fun _ => [], shared := fun _ => false, nextArr := 0, meters := [], started := false,
    regs := fun _ => [], useNil := false }

/-- What the environment supplies during one call: the clock, the random source, the results of user functions (by number), and the
order in which `range` visits a map. -/
structure Env (F : Type) where
  now : Instant
  int63 : Nat
  float64 : F
  gaugeFn : Nat → Int64
  gaugeFFn : Nat → FloatBits
  checkFn : Nat → List Verdict
  order : {α : Type} → List α → List α
  order_perm : ∀ {α : Type} (l : List α), (order l).Perm l

/-- An action: it changes the store, and returns or panics (the changes made before a panic stay). -/
def Act (F α : Type) := World F → World F × Res α

namespace Act
variable {F α β : Type}

def pure (a : α) : Act F α := fun w => (w, .ok a)
def fail (p : Panic) : Act F α := fun w => (w, .error p)
def bind (x : Act F α) (f : α → Act F β) : Act F β := fun w =>
  match x w with
  | (w', .ok a) => f a w'
  | (w', .error p) => (w', .error p)

instance : Monad (Act F) where
  pure := Act.pure
  bind := Act.bind

/-- A computation without effect on the store. -/
def lift (r : Res α) : Act F α := fun w => (w, r)

end Act

section prims
variable {F : Type}

def getObj (r : Ref) : Act F (Option (Obj F)) := fun w => (w, .ok (w.objs r))
def setObj (r : Ref) (o : Obj F) : Act F Unit := fun w => ({ w with objs := Function.update w.objs r (some o) }, .ok ())
/-- A new object. -/
def alloc (o : Obj F) : Act F Ref := fun w =>
  ({ w with objs := Function.update w.objs w.nextObj (some o), nextObj := w.nextObj + 1 }, .ok w.nextObj)
def getArr (a : ArrId) : Act F (List Int64) := fun w => (w, .ok (w.arrs a))
/-- `sort.Sort` on a slice (sample.go:282). -/
def sortArr (a : ArrId) : Act F Unit := fun w => ({ w with arrs := Function.update w.arrs a (sortInts (w.arrs a)) }, .ok ())
/-- A new backing array; `shared` if user code gets the slice. -/
def newArr (l : List Int64) (shared : Bool) : Act F ArrId := fun w =>
  ({ w with arrs := Function.update w.arrs w.nextArr l, shared := Function.update w.shared w.nextArr shared, nextArr := w.nextArr + 1 },
    .ok w.nextArr)
/-- meter.go:42-48: `arbiter.meters[m] = struct{}{}` and start of the clock goroutine. -/
def arbiterAdd (r : Ref) : Act F Unit := fun w => ({ w with meters := r :: w.meters, started := true }, .ok ())
/-- meter.go:148-150: `delete(arbiter.meters, m)`. -/
def arbiterDelete (r : Ref) : Act F Unit := fun w => ({ w with meters := w.meters.filter (· ≠ r) }, .ok ())

end prims

/-- The statistics of the values of a sample, as methods of `Sample`, `Histogram` and `Timer`. -/
inductive StatCall (F : Type) where
  | max
  | mean
  | min
  | percentile (p : F)
  | percentiles (ps : List F)
  | stdDev
  | sum
  | variance

inductive RateCall where
  | rate1
  | rate5
  | rate15
  | rateMean
  deriving DecidableEq

/-- The methods of all metric interfaces. `Time(f)` of a timer is not here: see `timerTime`. -/
inductive Call (F : Type) where
  | clear
  | count
  | inc (i : Int64)
  | dec (i : Int64)
  | value
  | update (v : Int64)
  | updateF (v : FloatBits)
  | check
  | error
  | healthy
  | unhealthy (e : GoError)
  | rate
  | tick
  | stat (c : StatCall F)
  | size
  | values
  | sample
  | mark (n : Int64)
  | rates (c : RateCall)
  | stop
  | updateD (d : Int64)
  | updateSince (ts : Instant)
  | snapshot

/-- Results of calls. -/
inductive Out (F : Type) where
  | unit
  | int (n : Int64)
  | bits (b : FloatBits)
  | float (x : F)
  | floats (xs : List F)
  | size (n : Nat)
  | slice (a : ArrId)
  | ref (r : Ref)
  | err (e : GoError)
  | illTyped

variable {F : Type} [GoFloat F] [GoSqrt F] [GoExp F]

/-- The bits of a GaugeFloat64 stay bits; all other floats are `F`. -/
def counterCall (r : Ref) (c : Counter) : Call F → Act F (Out F)
  | .clear => do setObj r (.counter (← Act.lift c.clear)); return .unit
  | .count => return .int c.count
  | .inc i => do setObj r (.counter (← Act.lift (c.inc i))); return .unit
  | .dec i => do setObj r (.counter (← Act.lift (c.dec i))); return .unit
  | .snapshot => do return .ref (← alloc (.counter c.snapshot))
  | _ => return .illTyped

/-- Methods of `Gauge` values. -/
def gaugeCall (env : Env F) (r : Ref) (g : Gauge) : Call F → Act F (Out F)
  | .value => return .int (g.value env.gaugeFn)
  | .update v => do setObj r (.gauge (← Act.lift (g.update v))); return .unit
  | .snapshot => do return .ref (← alloc (.gauge (g.snapshot env.gaugeFn)))
  | _ => return .illTyped

/-- Methods of `GaugeFloat64` values. -/
def gaugeFCall (env : Env F) (r : Ref) (g : GaugeF) : Call F → Act F (Out F)
  | .value => return .bits (g.value env.gaugeFFn)
  | .updateF v => do setObj r (.gaugeF (← Act.lift (g.update v))); return .unit
  | .snapshot => do return .ref (← alloc (.gaugeF (g.snapshot env.gaugeFFn)))
  | _ => return .illTyped

/-- Methods of `Healthcheck` values. -/
def healthCall (env : Env F) (r : Ref) (h : Health) : Call F → Act F (Out F)
  | .check => do setObj r (.health (h.check env.checkFn)); return .unit
  | .error => return .err h.error
  | .healthy => do setObj r (.health h.healthy); return .unit
  | .unhealthy e => do setObj r (.health (h.unhealthy e)); return .unit
  | _ => return .illTyped

/-- Methods of `EWMA` values. -/
def ewmaCall (r : Ref) (e : Ewma F) : Call F → Act F (Out F)
  | .rate => return .float e.rate
  | .tick => do setObj r (.ewma (← Act.lift e.tick)); return .unit
  | .update n => do setObj r (.ewma (← Act.lift (e.update n))); return .unit
  | .snapshot => do return .ref (← alloc (.ewma e.snapshot))
  | _ => return .illTyped

/-- The statistics functions of sample.go:235-297, 369-395 applied to a slice, without the reordering done by the percentile functions. -/
def statOf (values : List Int64) : StatCall F → Res (Out F)
  | .max => .ok (.int (sampleMax values))
  | .mean => .ok (.float (sampleMean values))
  | .min => .ok (.int (sampleMin values))
  | .percentile p => do return .float (← samplePercentile values p).1
  | .percentiles ps => do return .floats (← samplePercentiles values ps).1
  | .stdDev => .ok (.float (sampleStdDev values))
  | .sum => .ok (.int (sampleSum values))
  | .variance => .ok (.float (sampleVariance values))

/-- Percentile reads sort the slice they are given (sample.go:282), also when they panic later. -/
def StatCall.sorts : StatCall F → Bool
  | .percentile _ | .percentiles _ => true
  | _ => false

/-- The results of `NilSample`, `NilHistogram`, `NilTimer` (sample.go:192-233, histogram.go:109-147, timer.go:85-140). -/
def nilStat : StatCall F → Out F
  | .max | .min | .sum => .int 0
  | .mean | .stdDev | .variance | .percentile _ => .float (lit 0)
  | .percentiles ps => .floats (ps.map fun _ => lit 0)

/-- The contents of a sample: sample.go:522-528, 146-155, 360-364, 230. -/
def sampleVals (w : World F) : SampleV F → List Int64
  | .uniform s => s.values
  | .exp s => s.vals
  | .snap _ a => w.arrs a
  | .nil => []

/-- Methods of `Sample` values. -/
def sampleCall (env : Env F) (r : Ref) (s : SampleV F) (c : Call F) : Act F (Out F) :=
  match s, c with
  -- UniformSample, sample.go:420-535
  | .uniform s, .clear => do setObj r (.sample (.uniform s.clear)); return .unit
  | .uniform s, .count => return .int s.count
  | .uniform s, .stat c => do
    if c.sorts then setObj r (.sample (.uniform { s with values := sortInts s.values }))
    Act.lift (statOf s.values c)
  | .uniform s, .size => return .size s.size
  | .uniform s, .snapshot => do
    let a ← newArr s.values false
    return .ref (← alloc (.sample (.snap s.count a)))
  | .uniform s, .update v => do
    setObj r (.sample (.uniform { s with count := s.count + 1 }))
    let s' ← Act.lift (s.update v env.int63)
    setObj r (.sample (.uniform s'))
    return .unit
  | .uniform s, .values => do return .slice (← newArr s.values true)
  -- ExpDecaySample, sample.go:63-186; percentile reads sort a copy
  | .exp s, .clear => do setObj r (.sample (.exp (s.clear env.now))); return .unit
  | .exp s, .count => return .int s.count
  | .exp s, .stat c => Act.lift (statOf s.vals c)
  | .exp s, .size => return .size s.size
  | .exp s, .snapshot => do
    let a ← newArr s.vals false
    return .ref (← alloc (.sample (.snap s.count a)))
  | .exp s, .update v => do
    setObj r (.sample (.exp { s with count := s.count + 1 }))
    let s' ← Act.lift (s.update env.now v env.float64)
    setObj r (.sample (.exp s'))
    return .unit
  | .exp s, .values => do return .slice (← newArr s.vals true)
  -- SampleSnapshot, sample.go:313-367
  | .snap _ _, .clear => Act.fail (.msg "Clear called on a SampleSnapshot")
  | .snap n _, .count => return .int n
  | .snap _ a, .stat c => do
    let l ← getArr a
    if c.sorts then sortArr a
    Act.lift (statOf l c)
  | .snap _ a, .size => do return .size (← getArr a).length
  | .snap _ _, .snapshot => return .ref r
  | .snap _ _, .update _ => Act.fail (.msg "Update called on a SampleSnapshot")
  | .snap _ a, .values => do return .slice (← newArr (← getArr a) true)
  -- NilSample, sample.go:192-233
  | .nil, .clear => return .unit
  | .nil, .count => return .int 0
  | .nil, .stat c => return nilStat c
  | .nil, .size => return .size 0
  | .nil, .snapshot => return .ref r
  | .nil, .update _ => return .unit
  | .nil, .values => do return .slice (← newArr [] true)
  | _, _ => return .illTyped

/-- Dynamic call of a method of the `Sample` at `r`. -/
def callSample (env : Env F) (r : Ref) (c : Call F) : Act F (Out F) := do
  match ← getObj r with
  | some (.sample s) => sampleCall env r s c
  | _ => return .illTyped

/-- Methods of `Histogram` values. -/
def histCall (env : Env F) (r : Ref) (h : HistV) (c : Call F) : Act F (Out F) :=
  match h, c with
  -- StandardHistogram, histogram.go:156-202
  | .std s, .clear => callSample env s .clear
  | .std s, .count => callSample env s .count
  | .std s, .stat c => callSample env s (.stat c)
  | .std s, .sample => return .ref s
  | .std s, .snapshot => do
    match ← callSample env s .snapshot with
    | .ref q =>
      match ← getObj q with
      | some (.sample (.snap _ _)) => return .ref (← alloc (.hist (.snap q)))
      | _ => Act.fail .typeAssert
    | _ => return .illTyped
  | .std s, .update v => callSample env s (.update v)
  -- HistogramSnapshot, histogram.go:54-103
  | .snap _, .clear => Act.fail (.msg "Clear called on a HistogramSnapshot")
  | .snap s, .count => callSample env s .count
  | .snap s, .stat c => callSample env s (.stat c)
  | .snap s, .sample => return .ref s
  | .snap _, .snapshot => return .ref r
  | .snap _, .update _ => Act.fail (.msg "Update called on a HistogramSnapshot")
  -- NilHistogram, histogram.go:109-147
  | .nil, .clear => return .unit
  | .nil, .count => return .int 0
  | .nil, .stat c => return nilStat c
  | .nil, .sample => do return .ref (← alloc (.sample .nil))
  | .nil, .snapshot => return .ref r
  | .nil, .update _ => return .unit
  | _, _ => return .illTyped

/-- Dynamic call of a method of the `Histogram` at `r`. -/
def callHist (env : Env F) (r : Ref) (c : Call F) : Act F (Out F) := do
  match ← getObj r with
  | some (.hist h) => histCall env r h c
  | _ => return .illTyped

def Meter.rateOf (m : Meter F) : RateCall → F
  | .rate1 => m.rate1
  | .rate5 => m.rate5
  | .rate15 => m.rate15
  | .rateMean => m.rateMean

/-- Methods of `Meter` values; `Stop` also removes the meter from the clock's set, at its first call (meter.go:146-152). -/
def meterCall (env : Env F) (r : Ref) (m : Meter F) (c : Call F) : Act F (Out F) :=
  match c with
  | .count => return .int m.count
  | .mark n => do setObj r (.meter (← Act.lift (m.mark n env.now))); return .unit
  | .rates c => return .float (m.rateOf c)
  | .snapshot =>
    match m with
    | .std _ => do return .ref (← alloc (.meter m.snapshot))
    | _ => return .ref r
  | .stop =>
    match m with
    | .std s => do
      if s.stopped then return .unit
      else
        setObj r (.meter (.std s.stop))
        arbiterDelete r
        return .unit
    | _ => return .unit
  | _ => return .illTyped

/-- Dynamic call of a method of the `Meter` at `r`. -/
def callMeter (env : Env F) (r : Ref) (c : Call F) : Act F (Out F) := do
  match ← getObj r with
  | some (.meter m) => meterCall env r m c
  | _ => return .illTyped

/-- Methods of `Timer` values, except `Time`. -/
def timerCall (env : Env F) (r : Ref) (t : TimerV) (c : Call F) : Act F (Out F) :=
  match t, c with
  -- StandardTimer, timer.go:151-249
  | .std h _, .count => callHist env h .count
  | .std h _, .stat c => callHist env h (.stat c)
  | .std _ m, .rates c => callMeter env m (.rates c)
  | .std h m, .snapshot => do
    match ← callHist env h .snapshot with
    | .ref qh =>
      match ← getObj qh with
      | some (.hist (.snap _)) =>
        match ← callMeter env m .snapshot with
        | .ref qm =>
          match ← getObj qm with
          | some (.meter (.snap _)) => return .ref (← alloc (.timer (.snap qh qm)))
          | _ => Act.fail .typeAssert
        | _ => return .illTyped
      | _ => Act.fail .typeAssert
    | _ => return .illTyped
  | .std _ m, .stop => callMeter env m .stop
  | .std h m, .updateD d => do
    let _ ← callHist env h (.update d)
    callMeter env m (.mark 1)
  | .std h m, .updateSince ts => do
    let _ ← callHist env h (.update (Int64.ofInt (timeSub env.now ts)))
    callMeter env m (.mark 1)
  -- TimerSnapshot, timer.go:259-329
  | .snap h _, .count => callHist env h .count
  | .snap h _, .stat c => callHist env h (.stat c)
  | .snap _ m, .rates c => callMeter env m (.rates c)
  | .snap _ _, .snapshot => return .ref r
  | .snap _ _, .stop => return .unit
  | .snap _ _, .updateD _ => Act.fail (.msg "Update called on a TimerSnapshot")
  | .snap _ _, .updateSince _ => Act.fail (.msg "UpdateSince called on a TimerSnapshot")
  -- NilTimer, timer.go:85-140
  | .nil, .count => return .int 0
  | .nil, .stat c => return nilStat c
  | .nil, .rates _ => return .float (lit 0)
  | .nil, .snapshot => return .ref r
  | .nil, .stop => return .unit
  | .nil, .updateD _ => return .unit
  | .nil, .updateSince _ => return .unit
  | _, _ => return .illTyped

/-- Call of a method on the object at `r`. -/
def call (env : Env F) (r : Ref) (c : Call F) : Act F (Out F) := do
  match ← getObj r with
  | some (.counter x) => counterCall r x c
  | some (.gauge g) => gaugeCall env r g c
  | some (.gaugeF g) => gaugeFCall env r g c
  | some (.health h) => healthCall env r h c
  | some (.sample s) => sampleCall env r s c
  | some (.hist h) => histCall env r h c
  | some (.ewma e) => ewmaCall r e c
  | some (.meter m) => meterCall env r m c
  | some (.timer t) => timerCall env r t c
  | none => return .illTyped

/-- The constructors. -/
inductive NewOp (F : Type) where
  | counter
  | gauge
  | funcGauge (f : Nat)
  | gaugeF
  | funcGaugeF (f : Nat)
  | health (f : Nat)
  | uniform (reservoirSize : Int)
  | exp (reservoirSize : Int) (alpha : F)
  | sampleSnap (count : Int64) (values : ArrId)
  | hist (s : Ref)
  | ewma (alpha : F)
  | meter
  | timer
  | customTimer (h m : Ref)

/-- sample.go:48-60 `NewExpDecaySample`. -/
def newExp (env : Env F) (reservoirSize : Int) (alpha : F) : Act F Ref := fun w =>
  if w.useNil then alloc (.sample .nil) w
  else (do alloc (.sample (.exp (← Act.lift (ExpDecaySample.new reservoirSize alpha env.now)))) : Act F Ref) w

/-- histogram.go:30-35 `NewHistogram`. The type checker guarantees that the argument is a `Sample`: the failing case is never reached
(a nil interface value is left out). -/
def newHist (s : Ref) : Act F Ref := fun w =>
  if w.useNil then alloc (.hist .nil) w
  else match w.objs s with
    | some (.sample _) => alloc (.hist (.std s)) w
    | _ => Act.fail .typeAssert w

/-- meter.go:36-49 `NewMeter`. -/
def newMeter (env : Env F) : Act F Ref := fun w =>
  if w.useNil then alloc (.meter .nil) w
  else (do
    let r ← alloc (.meter (.std (StandardMeter.new env.now)))
    arbiterAdd r
    return r : Act F Ref) w

/-- timer.go:43-51 `NewCustomTimer`, with the same remark about the arguments. -/
def newTimer (h m : Ref) : Act F Ref := fun w =>
  if w.useNil then alloc (.timer .nil) w
  else match w.objs h, w.objs m with
    | some (.hist _), some (.meter _) => alloc (.timer (.std h m)) w
    | _, _ => Act.fail .typeAssert w

/-- The constructor functions: counter.go:24-29, gauge.go:22-27, 40-45, gauge_float64.go:25-32, 45-50, healthcheck.go:13-18,
sample.go:409-417, 48-60, 305-310, histogram.go:30-35, ewma.go:18-23, meter.go:36-49, timer.go:68-76, 43-51. -/
def construct (env : Env F) : NewOp F → Act F Ref
  | .counter => fun w => alloc (.counter (Counter.new w.useNil)) w
  | .gauge => fun w => alloc (.gauge (Gauge.new w.useNil)) w
  | .funcGauge f => fun w => alloc (.gauge (Gauge.newFunctional w.useNil f)) w
  | .gaugeF => fun w => alloc (.gaugeF (GaugeF.new w.useNil)) w
  | .funcGaugeF f => fun w => alloc (.gaugeF (GaugeF.newFunctional w.useNil f)) w
  | .health f => fun w => alloc (.health (Health.new w.useNil f)) w
  | .uniform k => fun w =>
    if w.useNil then alloc (.sample .nil) w
    else (do alloc (.sample (.uniform (← Act.lift (UniformSample.new k)))) : Act F Ref) w
  | .exp k alpha => newExp env k alpha
  | .sampleSnap n a => fun w =>
    -- user code can only pass a slice it holds; another number stands for an empty slice
    if w.shared a then alloc (.sample (.snap n a)) w
    else (do alloc (.sample (.snap n (← newArr [] false))) : Act F Ref) w
  | .hist s => newHist s
  | .ewma alpha => fun w => alloc (.ewma (Ewma.new w.useNil alpha)) w
  | .meter => newMeter env
  | .timer => fun w =>
    if w.useNil then alloc (.timer .nil) w
    else (do
      let s ← newExp env 1028 (lit (15 / 1000))
      let h ← newHist s
      let m ← newMeter env
      newTimer h m : Act F Ref) w
  | .customTimer h m => newTimer h m

/-- `tick` of one meter of the clock's set (meter.go:248-250). -/
def tickOne (env : Env F) (r : Ref) : Act F Unit := do
  match ← getObj r with
  | some (.meter m) => setObj r (.meter (m.tick env.now))
  | _ => return ()

def runAll {α : Type} (f : α → Act F Unit) : List α → Act F Unit
  | [] => return ()
  | a :: as => do f a; runAll f as

/-- meter.go:245-251 `tickMeters`. -/
def tickMeters (env : Env F) : Act F Unit := fun w => runAll (tickOne env) (env.order w.meters) w

/-- timer.go:215-219 `StandardTimer.Time`, 131 (`NilTimer`: the function is not called), 310-312 (`TimerSnapshot` panics).
`f` is the user function: it may do anything to the metrics and to the user's own state `U`, and returns or panics.
`env1`, `env2`: the environment when `Time` is called and when `f` has returned. -/
def timerTime {U : Type} (env1 env2 : Env F) (r : Ref) (f : World F × U → (World F × U) × Option Panic) (x : World F × U) :
    (World F × U) × Res (Out F) :=
  match x.1.objs r with
  | some (.timer (.std _ _)) =>
    match f x with
    | (x', some p) => (x', .error p)
    | (x', none) =>
      let y := call env2 r (.updateD (Int64.ofInt (timeSub env2.now env1.now))) x'.1
      ((y.1, x'.2), y.2)
  | some (.timer (.snap _ _)) => (x, .error (.msg "Time called on a TimerSnapshot"))
  | some (.timer .nil) => (x, .ok .unit)
  | _ => (x, .ok .illTyped)

/-- A slice of a program's own, as passed to `NewSampleSnapshot`. -/
inductive SliceOp where
  | make (l : List Int64)
  | set (a : ArrId) (i : Nat) (v : Int64)

/-- User code may write the slices it holds. -/
def sliceOp : SliceOp → Act F (Out F)
  | .make l => do return .slice (← newArr l true)
  | .set a i v => fun w => if w.shared a then ({ w with arrs := Function.update w.arrs a ((w.arrs a).set i v) }, .ok .unit) else (w, .ok .illTyped)

end GoMetrics
