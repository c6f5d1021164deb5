import Verif.Go.Memory
/-
Which memory locations and mutexes the functions of the library touch, in which
order: one `Code` per function.  The values computed are left out (they are in
the other models); branches are choices, loops are repetitions.
-/
namespace GoMetrics.Mem

/-! ### The functions of the library -/

/-- Methods of `Counter` (counter.go:5-12). -/
inductive CounterM where
  | clear | count | dec | inc | snapshot
  deriving DecidableEq

/-- Methods of `Gauge` and `GaugeFloat64` (gauge.go:5-10, gauge_float64.go:8-13). -/
inductive GaugeM where
  | snapshot | update | value
  deriving DecidableEq

/-- Methods of `Healthcheck` (healthcheck.go:3-9). -/
inductive HealthM where
  | check | error | healthy | unhealthy
  deriving DecidableEq

/-- Methods of `EWMA` (ewma.go:9-16). -/
inductive EwmaM where
  | rate | snapshot | tick | update
  deriving DecidableEq

/-- Methods of `Meter` (meter.go:10-21). -/
inductive MeterM where
  | count | mark | rate1 | rate5 | rate15 | rateMean | snapshot | stop
  deriving DecidableEq

/-- Methods of `Sample` (sample.go:13-30). -/
inductive SampleM where
  | clear | count | max | mean | min | percentile | percentiles | size | snapshot
  | stdDev | sum | update | values | variance
  deriving DecidableEq

/-- Methods of `Histogram` (histogram.go:3-18). -/
inductive HistM where
  | clear | count | max | mean | min | percentile | percentiles | sample | snapshot
  | stdDev | sum | update | variance
  deriving DecidableEq

/-- Methods of `Timer` (timer.go:8-28). -/
inductive TimerM where
  | count | max | mean | min | percentile | percentiles | rate1 | rate5 | rate15 | rateMean
  | snapshot | stdDev | stop | sum | time | update | updateSince | variance
  deriving DecidableEq

/-- Methods of `Registry` (registry.go:24-51).  The argument of `getOrRegister` and
`register` is the object to register; `none` stands for values that are not
pointers (snapshots of counters and gauges, nil metrics, things that are not
metrics). -/
inductive RegM where
  | each | get | getAll
  | getOrRegister (i : Option Obj)
  | getOrRegisterFunc
  | register (i : Option Obj)
  | runHealthchecks | unregister | unregisterAll
  deriving DecidableEq

/-- Calls of functions of the library. -/
inductive Call where
  | newCounter | newGauge | newGaugeFloat64 | newFunctionalGauge | newFunctionalGaugeFloat64
  | newHealthcheck | newEWMA | newMeter
  | newUniformSample | newExpDecaySample
  | newSampleSnapshot (values : Obj)
  | newHistogram (s : Option Obj)
  | newCustomTimer (h m : Option Obj)
  | newTimer | newRegistry | newPrefixedRegistry
  | newPrefixedChildRegistry (parent : Obj)
  | counter (f : CounterM) (c : Obj)
  | gauge (f : GaugeM) (g : Obj)
  | healthcheck (f : HealthM) (h : Obj)
  | ewma (f : EwmaM) (a : Obj)
  | meter (f : MeterM) (m : Obj)
  | tickMeters
  | sample (f : SampleM) (s : Obj)
  | histogram (f : HistM) (h : Obj)
  | timer (f : TimerM) (t : Obj)
  | registry (f : RegM) (r : Obj)
  | shortHostname
  | registerRuntimeMemStats (r : Obj) | captureRuntimeMemStatsOnce
  | registerDebugGCStats (r : Obj) | captureDebugGCStatsOnce
  deriving DecidableEq

/-! ### Code -/

/-- Control flow over actions.

* `load x k`: reads the pointer at `x` and goes on with the object it points to;
* `alloc kind refs k`: creates an object;
* `any kind k`: goes on with some object of that kind that the goroutine got hold
  of before (the result of an earlier call; taken to be any of them);
* `locked m w c`: `c` between `Lock` and `Unlock` (`RLock` and `RUnlock`);
* `go`: a go statement;
* `call c`: a call of a function of the library;
* `user`: arbitrary code of the caller (see `Lang`). -/
inductive Code where
  | skip
  | act (a : Act)
  | seq (c d : Code)
  | alt (c d : Code)
  | star (c : Code)
  | locked (m : Obj) (w : Bool) (c : Code)
  | load (x : Loc) (k : Obj → Code)
  | alloc (kind : Kind) (refs : List (Fld × Obj)) (k : Obj → Code)
  | any (kind : Kind) (k : Obj → Code)
  | go
  | call (c : Call)
  | user

/-- A sequence of statements. -/
def block : List Code → Code
  | [] => .skip
  | [c] => c
  | c :: cs => .seq c (block cs)

/-- A plain read of a field. -/
def rd (o : Obj) (f : Fld) : Code := .act (.read ⟨o, f⟩ none)
/-- A plain write of a field. -/
def wr (o : Obj) (f : Fld) : Code := .act (.write ⟨o, f⟩ none)
/-- An atomic access of a field. -/
def at' (o : Obj) (f : Fld) : Code := .act (.atomic ⟨o, f⟩)
/-- A plain write of a pointer. -/
def put (o : Obj) (f : Fld) (v : Option Obj) : Code := .act (.write ⟨o, f⟩ v)

/-- Goes on with an object of the type that a pointer has. -/
def typed (kind : Kind) (k : Obj → Code) (o : Obj) : Code := if o.kind = kind then k o else .skip

/-- Atomic access to a field of the `MeterSnapshot` a `StandardMeter` points to (meter.go:129). -/
def state (m : Obj) (f : Fld) : Code := .load ⟨m, .snapshot⟩ (typed .meterState (at' · f))

/-- The package variable `arbiter` (meter.go:233). -/
def arbiter : Obj := ⟨.arbiter, 0⟩
/-- The other package variables (metrics.go:13, opentsdb.go:13, runtime.go:11-51,
debug.go:10-20). -/
def globals : Obj := ⟨.globals, 0⟩
/-- `registerRuntimeMetricsOnce` (runtime.go:54). -/
def runtimeOnce : Obj := ⟨.once, 0⟩
/-- `registerDebugMetricsOnce` (debug.go:21). -/
def debugOnce : Obj := ⟨.once, 1⟩

/-- `if UseNilMetrics { return Nil…{} }` at the head of constructors. -/
def unlessNil (c : Code) : Code := .seq (rd globals .useNilMetrics) (.alt .skip c)

/-! ### counter.go, gauge.go, gauge_float64.go, healthcheck.go -/

/-- `StandardCounter` (counter.go:90-112).  `CounterSnapshot` is an int64 passed by value. -/
def counterCode (f : CounterM) (c : Obj) : Code :=
  match c.kind with
  | .counter => match f with
    | .clear => at' c .count -- :91
    | .count => at' c .count -- :96
    | .dec => at' c .count -- :101
    | .inc => at' c .count -- :106
    | .snapshot => at' c .count -- :111
  | .foreign => .user
  | _ => .skip

/-- `StandardGauge` (gauge.go:90-102), `FunctionalGauge` (gauge.go:110-120, calls the
user's function) and the same for float64 (gauge_float64.go:95-125). -/
def gaugeCode (f : GaugeM) (g : Obj) : Code :=
  match g.kind with
  | .gauge | .gaugeFloat64 => match f with
    | .snapshot => at' g .value -- gauge.go:91
    | .update => at' g .value -- gauge.go:96
    | .value => at' g .value -- gauge.go:101
  | .functionalGauge | .functionalGaugeFloat64 => match f with
    | .snapshot => .seq (rd g .f) .user -- gauge.go:115
    | .update => .skip -- gauge.go:119, panics
    | .value => .seq (rd g .f) .user -- gauge.go:111
  | .foreign => .user
  | _ => .skip

/-- `StandardHealthcheck` (healthcheck.go:43-61). -/
def healthCode (f : HealthM) (h : Obj) : Code :=
  match h.kind with
  | .healthcheck => match f with
    | .check => .seq (rd h .f) .user -- :44
    | .error => rd h .err -- :49
    | .healthy => wr h .err -- :54
    | .unhealthy => wr h .err -- :60
  | .foreign => .user
  | _ => .skip

/-! ### ewma.go, meter.go -/

/-- `fetchInstantRate` (ewma.go:122-127). -/
def fetchInstantRateCode (a : Obj) : Code := .seq (at' a .uncounted) (at' a .uncounted)

/-- `updateRate` (ewma.go:129-133). -/
def updateRateCode (a : Obj) : Code := block [at' a .rate, rd a .alpha, at' a .rate]

/-- `StandardEWMA` (ewma.go:88-138). -/
def ewmaCode (f : EwmaM) (a : Obj) : Code :=
  match a.kind with
  | .ewma => match f with
    | .rate => at' a .rate -- :89
    | .snapshot => at' a .rate -- :95
    | .tick => -- :100-120
      .seq (at' a .init) (.alt
        (.seq (fetchInstantRateCode a) (updateRateCode a))
        (.locked a true (.seq (at' a .init) (.alt
          (.seq (fetchInstantRateCode a) (updateRateCode a))
          (block [at' a .init, fetchInstantRateCode a, at' a .rate])))))
    | .update => at' a .uncounted -- :137
  | .foreign => .user
  | _ => .skip

/-- `NewEWMA` (ewma.go:19-24); the result is `none` for a `NilEWMA`. -/
def newEWMACode (k : Option Obj → Code) : Code :=
  .seq (rd globals .useNilMetrics) (.alt (k none) (.alloc .ewma [] fun a => k (some a)))

/-- The pointers among initial field values; nil metrics are not pointers. -/
def refs (l : List (Fld × Option Obj)) : List (Fld × Obj) :=
  l.filterMap fun p => p.2.map (p.1, ·)

/-- `NewMeter` with `newStandardMeter` (meter.go:36-49, 135-143). -/
def newMeterCode : Code :=
  unlessNil (.alloc .meterState [] fun s =>
    newEWMACode fun a1 => newEWMACode fun a5 => newEWMACode fun a15 =>
    .alloc .meter (refs [(.snapshot, some s), (.a1, a1), (.a5, a5), (.a15, a15)]) fun m =>
    .locked arbiter true (block [put arbiter .meters (some m), rd arbiter .started,
      .alt .skip (.seq (wr arbiter .started) .go)]))

/-- `updateSnapshot` (meter.go:205-215). -/
def updateSnapshotCode (m : Obj) : Code :=
  block [.load ⟨m, .a1⟩ (ewmaCode .rate), .load ⟨m, .a5⟩ (ewmaCode .rate),
    .load ⟨m, .a15⟩ (ewmaCode .rate), state m .count, rd m .startTime,
    state m .rate1, state m .rate5,
    state m .rate15, state m .rateMean]

/-- `tick` of a meter (meter.go:217-222). -/
def meterTickCode (m : Obj) : Code :=
  block [.load ⟨m, .a1⟩ (ewmaCode .tick), .load ⟨m, .a5⟩ (ewmaCode .tick),
    .load ⟨m, .a15⟩ (ewmaCode .tick), updateSnapshotCode m]

/-- `StandardMeter` (meter.go:146-203) and `MeterSnapshot` (meter.go:71-98). -/
def meterCode (f : MeterM) (m : Obj) : Code :=
  match m.kind with
  | .meter => match f with
    | .count => state m .count -- :156
    | .mark => -- :160-171
      .seq (at' m .stopped) (.alt .skip (block
        [state m .count, .load ⟨m, .a1⟩ (ewmaCode .update),
         .load ⟨m, .a5⟩ (ewmaCode .update), .load ⟨m, .a15⟩ (ewmaCode .update),
         updateSnapshotCode m]))
    | .rate1 => state m .rate1 -- :175
    | .rate5 => state m .rate5 -- :180
    | .rate15 => state m .rate15 -- :185
    | .rateMean => state m .rateMean -- :190
    | .snapshot => -- :194-203
      block [state m .count, state m .rate1,
        state m .rate5, state m .rate15,
        state m .rateMean, .alloc .meterSnapshot [] fun _ => .skip]
    | .stop => -- :146-152
      .seq (at' m .stopped) (.alt .skip (.locked arbiter true (wr arbiter .meters)))
  | .meterSnapshot => match f with
    | .count => rd m .count -- :71
    | .mark => .skip -- :75, panics
    | .rate1 => rd m .rate1 -- :80
    | .rate5 => rd m .rate5 -- :84
    | .rate15 => rd m .rate15 -- :88
    | .rateMean => rd m .rateMean -- :92
    | .snapshot => .skip -- :95
    | .stop => .skip -- :98
  | .foreign => .user
  | _ => .skip

/-- `tickMeters`, the body of the loop of the arbiter's goroutine (meter.go:236-251). -/
def tickMetersCode : Code :=
  .locked arbiter false (.star (.load ⟨arbiter, .meters⟩ (typed .meter meterTickCode)))

/-! ### sample.go -/

/-- A statistic of a slice that only reads it: `SampleMax`, `SampleMean`, `SampleMin`,
`SampleStdDev`, `SampleSum`, `SampleVariance` (sample.go:236-267, 370-396). -/
def statCode (sl : Obj) : Code := rd sl .contents

/-- `SamplePercentiles` sorts its argument in place (sample.go:272-297). -/
def percentilesCode (sl : Obj) : Code := block [rd sl .contents, wr sl .contents, rd sl .contents]

/-- `make([]int64, …)` and filling the slice (sample.go:120-123, 150-153, 361-362, 484-485). -/
def makeSlice (k : Obj → Code) : Code := .alloc .slice [] fun sl => .seq (wr sl .contents) (k sl)

/-- `Values` of an `ExpDecaySample` (sample.go:146-155); the statistics are computed
from its result after the mutex is released (sample.go:82-106, 131-138, 158-160). -/
def expDecayValuesCode (s : Obj) : Code :=
  .locked s true (block [rd s .values, rd s .heap, makeSlice fun _ => .skip])

/-- `ExpDecaySample` (sample.go:63-189). -/
def expDecayCode (f : SampleM) (s : Obj) : Code :=
  match f with
  | .clear => -- :63-70
    .locked s true (block [wr s .count, wr s .t0, rd s .t0, wr s .t1, rd s .values, wr s .heap])
  | .count => .locked s true (rd s .count) -- :74-78
  | .max => .seq (expDecayValuesCode s) (.any .slice statCode) -- :83
  | .mean => .seq (expDecayValuesCode s) (.any .slice statCode) -- :88
  | .min => .seq (expDecayValuesCode s) (.any .slice statCode) -- :94
  | .percentile => .seq (expDecayValuesCode s) (.any .slice percentilesCode) -- :99
  | .percentiles => .seq (expDecayValuesCode s) (.any .slice percentilesCode) -- :105
  | .size => .locked s true (block [rd s .values, rd s .heap]) -- :109-113
  | .snapshot => -- :116-128
    .locked s true (block [rd s .values, rd s .heap, makeSlice fun sl =>
      .seq (rd s .count) (.alloc .sampleSnapshot [(.values, sl)] fun _ => .skip)])
  | .stdDev => .seq (expDecayValuesCode s) (.any .slice statCode) -- :132
  | .sum => .seq (expDecayValuesCode s) (.any .slice statCode) -- :137
  | .update => -- :164-189
    .locked s true (block [rd s .count, wr s .count, rd s .values, rd s .heap, rd s .reservoirSize,
      .alt .skip (block [rd s .heap, wr s .heap]),
      rd s .t0, rd s .alpha, rd s .heap, wr s .heap, rd s .t1,
      .alt .skip (block [rd s .heap, rd s .t0, wr s .heap, wr s .t0, rd s .t0, wr s .t1,
        .star (block [rd s .heap, rd s .alpha, rd s .t0, wr s .heap])])])
  | .values => expDecayValuesCode s -- :146-155
  | .variance => .seq (expDecayValuesCode s) (.any .slice statCode) -- :159

/-- `UniformSample` (sample.go:420-535). -/
def uniformCode (f : SampleM) (s : Obj) : Code :=
  match f with
  | .clear => .locked s true (block [wr s .count, rd s .reservoirSize, wr s .values]) -- :420-425
  | .count => .locked s true (rd s .count) -- :429-433
  | .max => .locked s true (rd s .values) -- :437-441
  | .mean => .locked s true (rd s .values) -- :444-448
  | .min => .locked s true (rd s .values) -- :452-456
  | .percentile => .locked s true (.seq (rd s .values) (wr s .values)) -- :459-463
  | .percentiles => .locked s true (.seq (rd s .values) (wr s .values)) -- :467-471
  | .size => .locked s true (rd s .values) -- :474-478
  | .snapshot => -- :481-490
    .locked s true (.seq (rd s .values) (makeSlice fun sl =>
      .seq (rd s .count) (.alloc .sampleSnapshot [(.values, sl)] fun _ => .skip)))
  | .stdDev => .locked s true (rd s .values) -- :493-497
  | .sum => .locked s true (rd s .values) -- :500-504
  | .update => -- :507-519
    .locked s true (block [rd s .count, wr s .count, rd s .values, rd s .reservoirSize,
      .alt (wr s .values) (block [rd s .count, rd s .values, .alt .skip (wr s .values)])])
  | .values => .locked s true (.seq (rd s .values) (makeSlice fun _ => .skip)) -- :522-528
  | .variance => .locked s true (rd s .values) -- :531-535

/-- `SampleSnapshot` (sample.go:313-367). -/
def sampleSnapshotCode (f : SampleM) (s : Obj) : Code :=
  match f with
  | .clear => .skip -- :314, panics
  | .count => rd s .count -- :318
  | .max => .load ⟨s, .values⟩ (typed .slice statCode) -- :321
  | .mean => .load ⟨s, .values⟩ (typed .slice statCode) -- :324
  | .min => .load ⟨s, .values⟩ (typed .slice statCode) -- :327
  | .percentile => .load ⟨s, .values⟩ (typed .slice percentilesCode) -- :332
  | .percentiles => .load ⟨s, .values⟩ (typed .slice percentilesCode) -- :338
  | .size => rd s .values -- :342
  | .snapshot => .skip -- :345
  | .stdDev => .load ⟨s, .values⟩ (typed .slice statCode) -- :349
  | .sum => .load ⟨s, .values⟩ (typed .slice statCode) -- :352
  | .update => .skip -- :356, panics
  | .values => .load ⟨s, .values⟩ (typed .slice fun sl => makeSlice fun _ => rd sl .contents) -- :360-364
  | .variance => .load ⟨s, .values⟩ (typed .slice statCode) -- :367

/-- Samples; a `NilSample` is not an object. -/
def sampleCode (f : SampleM) (s : Obj) : Code :=
  match s.kind with
  | .expDecaySample => expDecayCode f s
  | .uniformSample => uniformCode f s
  | .sampleSnapshot => sampleSnapshotCode f s
  | .foreign => .user
  | _ => .skip

/-! ### histogram.go, timer.go -/

/-- A method of the sample of a histogram. -/
def sampleOf (h : Obj) (f : SampleM) : Code := .load ⟨h, .sample⟩ (sampleCode f)

/-- `StandardHistogram` (histogram.go:158-202). -/
def stdHistCode (f : HistM) (h : Obj) : Code :=
  match f with
  | .clear => sampleOf h .clear -- :158
  | .count => sampleOf h .count -- :162
  | .max => sampleOf h .max -- :165
  | .mean => sampleOf h .mean -- :168
  | .min => sampleOf h .min -- :171
  | .percentile => sampleOf h .percentile -- :175
  | .percentiles => sampleOf h .percentiles -- :181
  | .sample => .load ⟨h, .sample⟩ fun _ => .skip -- :185
  | .snapshot => -- :188-190
    .seq (sampleOf h .snapshot) (.any .sampleSnapshot fun s =>
      .alloc .histogramSnapshot [(.sample, s)] fun _ => .skip)
  | .stdDev => sampleOf h .stdDev -- :193
  | .sum => sampleOf h .sum -- :196
  | .update => sampleOf h .update -- :199
  | .variance => sampleOf h .variance -- :202

/-- `HistogramSnapshot` (histogram.go:54-105). -/
def histSnapshotCode (f : HistM) (h : Obj) : Code :=
  match f with
  | .clear => .skip -- :55, panics
  | .count => sampleOf h .count -- :60
  | .max => sampleOf h .max -- :64
  | .mean => sampleOf h .mean -- :68
  | .min => sampleOf h .min -- :72
  | .percentile => sampleOf h .percentile -- :77
  | .percentiles => sampleOf h .percentiles -- :83
  | .sample => .load ⟨h, .sample⟩ fun _ => .skip -- :87
  | .snapshot => .skip -- :90
  | .stdDev => sampleOf h .stdDev -- :94
  | .sum => sampleOf h .sum -- :97
  | .update => .skip -- :101, panics
  | .variance => sampleOf h .variance -- :105

/-- Histograms; a `NilHistogram` is not an object. -/
def histCode (f : HistM) (h : Obj) : Code :=
  match h.kind with
  | .histogram => stdHistCode f h
  | .histogramSnapshot => histSnapshotCode f h
  | .foreign => .user
  | _ => .skip

/-- A method of the histogram of a timer. -/
def histOf (t : Obj) (f : HistM) : Code := .load ⟨t, .histogram⟩ (histCode f)

/-- A method of the meter of a timer. -/
def meterOf (t : Obj) (f : MeterM) : Code := .load ⟨t, .meter⟩ (meterCode f)

/-- `Update` of a `StandardTimer` (timer.go:232-237). -/
def timerUpdateCode (t : Obj) : Code :=
  .locked t true (.seq (histOf t .update) (meterOf t .mark))

/-- `StandardTimer` (timer.go:149-250). -/
def stdTimerCode (f : TimerM) (t : Obj) : Code :=
  match f with
  | .count => histOf t .count -- :150
  | .max => histOf t .max -- :155
  | .mean => histOf t .mean -- :160
  | .min => histOf t .min -- :165
  | .percentile => histOf t .percentile -- :170
  | .percentiles => histOf t .percentiles -- :176
  | .rate1 => meterOf t .rate1 -- :181
  | .rate5 => meterOf t .rate5 -- :186
  | .rate15 => meterOf t .rate15 -- :191
  | .rateMean => meterOf t .rateMean -- :196
  | .snapshot => -- :200-207
    .locked t true (block [histOf t .snapshot, meterOf t .snapshot,
      .any .histogramSnapshot fun h => .any .meterSnapshot fun m =>
        .alloc .timerSnapshot [(.histogram, h), (.meter, m)] fun _ => .skip])
  | .stdDev => histOf t .stdDev -- :211
  | .stop => meterOf t .stop -- :216
  | .sum => histOf t .sum -- :221
  | .time => .seq .user (timerUpdateCode t) -- :225-229
  | .update => timerUpdateCode t -- :232-237
  | .updateSince => timerUpdateCode t -- :240-245
  | .variance => histOf t .variance -- :249

/-- `TimerSnapshot` (timer.go:260-329). -/
def timerSnapshotCode (f : TimerM) (t : Obj) : Code :=
  match f with
  | .count => histOf t .count -- :260
  | .max => histOf t .max -- :263
  | .mean => histOf t .mean -- :266
  | .min => histOf t .min -- :269
  | .percentile => histOf t .percentile -- :274
  | .percentiles => histOf t .percentiles -- :280
  | .rate1 => meterOf t .rate1 -- :285
  | .rate5 => meterOf t .rate5 -- :289
  | .rate15 => meterOf t .rate15 -- :293
  | .rateMean => meterOf t .rateMean -- :297
  | .snapshot => .skip -- :300
  | .stdDev => histOf t .stdDev -- :304
  | .stop => .skip -- :307
  | .sum => histOf t .sum -- :310
  | .time => .skip -- :314, panics
  | .update => .skip -- :319, panics
  | .updateSince => .skip -- :324, panics
  | .variance => histOf t .variance -- :329

/-- Timers; a `NilTimer` is not an object. -/
def timerCode (f : TimerM) (t : Obj) : Code :=
  match t.kind with
  | .timer => stdTimerCode f t
  | .timerSnapshot => timerSnapshotCode f t
  | .foreign => .user
  | _ => .skip

/-! ### registry.go -/

/-- `registered` (registry.go:221-232): copies the map under the read lock. -/
def registeredCode (r : Obj) : Code :=
  .locked r false (.star (.load ⟨r, .metrics⟩ fun _ => .skip))

/-- `stop` (registry.go:234-240): the registered objects with a method `Stop`. -/
def stopCode (r : Obj) : Code :=
  .load ⟨r, .metrics⟩ fun i =>
    match i.kind with
    | .meter | .meterSnapshot => meterCode .stop i
    | .timer | .timerSnapshot => timerCode .stop i
    | .foreign => .user
    | _ => .skip

/-- `register` (registry.go:205-214), under the write lock. -/
def registerCode (r : Obj) (i : Option Obj) : Code :=
  .seq (rd r .metrics) (.alt .skip (put r .metrics i))

/-- What `GetAll` does with one metric (registry.go:129-182). -/
def getAllEntryCode (i : Obj) : Code :=
  match i.kind with
  | .counter => counterCode .count i
  | .gauge | .gaugeFloat64 | .functionalGauge | .functionalGaugeFloat64 => gaugeCode .value i
  | .healthcheck => block [healthCode .check i, healthCode .error i, .alt .skip (healthCode .error i)]
  | .histogram | .histogramSnapshot =>
    .seq (histCode .snapshot i) (.any .histogramSnapshot fun h =>
      block [histCode .percentiles h, histCode .count h, histCode .min h, histCode .max h,
        histCode .mean h, histCode .stdDev h])
  | .meter | .meterSnapshot =>
    .seq (meterCode .snapshot i) (.any .meterSnapshot fun m =>
      block [meterCode .count m, meterCode .rate1 m, meterCode .rate5 m, meterCode .rate15 m,
        meterCode .rateMean m])
  | .timer | .timerSnapshot =>
    .seq (timerCode .snapshot i) (.any .timerSnapshot fun t =>
      block [timerCode .percentiles t, timerCode .count t, timerCode .min t, timerCode .max t,
        timerCode .mean t, timerCode .stdDev t, timerCode .rate1 t, timerCode .rate5 t,
        timerCode .rate15 t, timerCode .rateMean t])
  | .foreign => .user
  | _ => .skip

/-- `StandardRegistry` (registry.go:66-240) and `PrefixedRegistry` (registry.go:267-331),
whose methods go on to the underlying registry. -/
def registryCode (f : RegM) (r : Obj) : Code :=
  match r.kind with
  | .registry => match f with
    | .each => .seq (registeredCode r) (.star .user) -- :66-72
    | .get => .locked r false (.load ⟨r, .metrics⟩ fun _ => .skip) -- :75-79
    | .getAll => -- :127-185
      .seq (registeredCode r) (.star (.alt .skip (anyMetric getAllEntryCode)))
    | .getOrRegister i => -- :85-105
      .seq (.locked r false (.load ⟨r, .metrics⟩ fun _ => .skip)) (.alt .skip
        (.locked r true (.seq (.load ⟨r, .metrics⟩ fun _ => .skip) (.alt .skip (registerCode r i)))))
    | .getOrRegisterFunc => -- :85-105 with a function, called at :101
      .seq (.locked r false (.load ⟨r, .metrics⟩ fun _ => .skip)) (.alt .skip
        (.locked r true (.seq (.load ⟨r, .metrics⟩ fun _ => .skip) (.alt .skip
          (.seq .user (.alt (registerCode r none) (anyMetric fun i => registerCode r (some i))))))))
    | .register i => .locked r true (registerCode r i) -- :109-113
    | .runHealthchecks => -- :116-124
      .locked r false (.star (.load ⟨r, .metrics⟩ (healthCode .check)))
    | .unregister => .locked r true (.seq (stopCode r) (wr r .metrics)) -- :188-193
    | .unregisterAll => .locked r true (.star (.seq (stopCode r) (wr r .metrics))) -- :196-203
  | .prefixedRegistry => -- :267-331
    .seq (rd r .prefix) (.load ⟨r, .underlying⟩ fun u => .call (.registry f u))
  | .foreign => .user
  | _ => .skip
where
  /-- Some metric that the goroutine has a pointer to. -/
  anyMetric (k : Obj → Code) : Code :=
    .alt (.any .counter k) <| .alt (.any .gauge k) <| .alt (.any .gaugeFloat64 k) <|
    .alt (.any .functionalGauge k) <| .alt (.any .functionalGaugeFloat64 k) <|
    .alt (.any .healthcheck k) <| .alt (.any .histogram k) <| .alt (.any .histogramSnapshot k) <|
    .alt (.any .meter k) <| .alt (.any .meterSnapshot k) <| .alt (.any .timer k) <|
    .alt (.any .timerSnapshot k) (.any .foreign k)

/-! ### runtime.go, debug.go -/

/-- `Do` of a `sync.Once` (sync/once.go: `done` is an atomic flag, the function runs under
the mutex).  That the function runs once only is left out: any call may run it. -/
def onceDo (o : Obj) (f : Code) : Code :=
  .seq (at' o .done) (.alt .skip (.locked o true (.seq (at' o .done) (.alt .skip (.seq f (at' o .done))))))

/-- The variable at `x` gets the metric that `mk` creates: one of this kind or a nil metric. -/
def setVar (x : Loc) (mk : Code) (kind : Kind) : Code :=
  .seq mk (.alt (.act (.write x none)) (.any kind fun o => .act (.write x (some o))))

/-- The variable at `x` gets a new metric: `NewGauge()`, `NewGaugeFloat64()`,
`NewHistogram(NewExpDecaySample(1028, 0.015))`, `NewTimer()` (runtime.go:152-182, debug.go:60-65). -/
def newVar (x : Loc) : Kind → Code
  | .gauge => setVar x (.call .newGauge) .gauge
  | .gaugeFloat64 => setVar x (.call .newGaugeFloat64) .gaugeFloat64
  | .histogram => setVar x (.seq (.call .newExpDecaySample) (.alt (.call (.newHistogram none))
      (.any .expDecaySample fun s => .call (.newHistogram (some s))))) .histogram
  | .timer => setVar x (.call .newTimer) .timer
  | _ => .skip

/-- `r.Register(name, x)` (runtime.go:184-214, debug.go:67-72); nil metrics are not pointers. -/
def registerVar (r : Obj) (x : Loc) : Code :=
  .alt (.load x fun o => .call (.registry (.register (some o)) r))
    (.seq (.act (.read x none)) (.call (.registry (.register none) r)))

/-- The fields of `runtimeMetrics` (runtime.go:12-46): 0-19 `Alloc` … `NumGC`,
20 `GCCPUFraction`, 21 `PauseNs`, 22-26 `PauseTotalNs` … `TotalAlloc`, 27 `NumCgoCall`,
28 `NumGoroutine`, 29 `NumThread`, 30 `ReadMemStats`. -/
def runtimeVar (i : Nat) : Loc := ⟨globals, .runtimeMetric i⟩

/-- Their types. -/
def runtimeKind (i : Nat) : Kind :=
  if i = 20 then .gaugeFloat64 else if i = 21 then .histogram else if i = 30 then .timer else .gauge

/-- `RegisterRuntimeMemStats` (runtime.go:150-216). -/
def registerRuntimeMemStatsCode (r : Obj) : Code :=
  onceDo runtimeOnce (.seq (block ((List.range 31).map fun i => newVar (runtimeVar i) (runtimeKind i)))
    (block ((List.range 31).map fun i => registerVar r (runtimeVar i))))

/-- `x.Update(…)` for a gauge, with a reading from the variable `f`. -/
def gaugeFrom (f : Fld) (x : Loc) : Code := .seq (rd globals f) (.load x (gaugeCode .update))

/-- `CaptureRuntimeMemStatsOnce` (runtime.go:73-145). -/
def captureRuntimeMemStatsOnceCode : Code :=
  let g (i : Nat) : Code := gaugeFrom .memStats (runtimeVar i)
  let save (f : Fld) : Code := .seq (rd globals .memStats) (wr globals f)
  block [
    wr globals .memStats, -- :75
    .load (runtimeVar 30) (timerCode .updateSince), -- :76
    g 0, g 1, g 2, g 3, -- :78-89
    rd globals .frees, g 4, g 5, g 6, g 7, g 8, g 9, g 10, g 11, -- :91-98
    rd globals .lookups, g 12, rd globals .mallocs, g 13, g 14, g 15, g 16, g 17, g 18, -- :99-105
    rd globals .numGC, g 19, g 20, -- :106-107
    rd globals .numGC, rd globals .memStats, -- :110-112
    .star (.seq (rd globals .memStats) (.load (runtimeVar 21) (histCode .update))), -- :113-126
    save .frees, save .lookups, save .mallocs, save .numGC, -- :127-130
    g 22, g 23, g 24, g 25, g 26, -- :132-136
    gaugeFrom .numCgoCalls (runtimeVar 27), wr globals .numCgoCalls, -- :138-140
    .load (runtimeVar 28) (gaugeCode .update), .load (runtimeVar 29) (gaugeCode .update)] -- :142-144

/-- The fields of `debugMetrics` (debug.go:10-19): 0 `LastGC`, 1 `NumGC`, 2 `Pause`,
3 `PauseTotal`, 4 `ReadGCStats`. -/
def debugVar (i : Nat) : Loc := ⟨globals, .debugMetric i⟩

/-- Their types. -/
def debugKind (i : Nat) : Kind := if i = 2 then .histogram else if i = 4 then .timer else .gauge

/-- `RegisterDebugGCStats` (debug.go:58-74). -/
def registerDebugGCStatsCode (r : Obj) : Code :=
  onceDo debugOnce (.seq (block ((List.range 5).map fun i => newVar (debugVar i) (debugKind i)))
    (block ((List.range 5).map fun i => registerVar r (debugVar i))))

/-- `CaptureDebugGCStatsOnce` (debug.go:40-53). -/
def captureDebugGCStatsOnceCode : Code :=
  block [
    rd globals .gcStats, wr globals .gcStats, -- :41-43
    .load (debugVar 4) (timerCode .updateSince), -- :44
    gaugeFrom .gcStats (debugVar 0), gaugeFrom .gcStats (debugVar 1), -- :46-47
    rd globals .gcStats, .alt .skip (.seq (rd globals .gcStats) (.load (debugVar 2) (histCode .update))), -- :48-50
    gaugeFrom .gcStats (debugVar 3)] -- :52

/-! ### All calls -/

/-- `NewExpDecaySample` (sample.go:48-60); the assignment to `t1` before the sample is
returned is taken together with the literal. -/
def newExpDecaySampleCode : Code := unlessNil (.alloc .expDecaySample [] fun _ => .skip)

/-- `NewHistogram` (histogram.go:30-35). -/
def newHistogramCode (s : Option Obj) : Code :=
  unlessNil (.alloc .histogram (refs [(.sample, s)]) fun _ => .skip)

/-- The code of a call. -/
def body : Call → Code
  | .newCounter => unlessNil (.alloc .counter [] fun _ => .skip) -- counter.go:24-29
  | .newGauge => unlessNil (.alloc .gauge [] fun _ => .skip) -- gauge.go:22-27
  | .newGaugeFloat64 => unlessNil (.alloc .gaugeFloat64 [] fun _ => .skip) -- gauge_float64.go:25-32
  | .newFunctionalGauge => unlessNil (.alloc .functionalGauge [] fun _ => .skip) -- gauge.go:40-45
  | .newFunctionalGaugeFloat64 =>
    unlessNil (.alloc .functionalGaugeFloat64 [] fun _ => .skip) -- gauge_float64.go:45-50
  | .newHealthcheck => unlessNil (.alloc .healthcheck [] fun _ => .skip) -- healthcheck.go:13-18
  | .newEWMA => newEWMACode fun _ => .skip -- ewma.go:19-39
  | .newMeter => newMeterCode
  | .newUniformSample => unlessNil (.alloc .uniformSample [] fun _ => .skip) -- sample.go:409-417
  | .newExpDecaySample => newExpDecaySampleCode
  | .newSampleSnapshot values =>
    .alloc .sampleSnapshot [(.values, values)] fun _ => .skip -- sample.go:305-310
  | .newHistogram s => newHistogramCode s
  | .newCustomTimer h m => -- timer.go:43-51
    unlessNil (.alloc .timer (refs [(.histogram, h), (.meter, m)]) fun _ => .skip)
  | .newTimer => -- timer.go:68-76; nil metrics as parts are those of `newCustomTimer`
    unlessNil (block [newExpDecaySampleCode, .any .expDecaySample fun s => newHistogramCode (some s),
      newMeterCode, .any .histogram fun h => .any .meter fun m =>
        .alloc .timer [(.histogram, h), (.meter, m)] fun _ => .skip])
  | .newRegistry => .alloc .registry [] fun _ => .skip -- registry.go:61-63
  | .newPrefixedRegistry => -- registry.go:252-257
    .alloc .registry [] fun r => .alloc .prefixedRegistry [(.underlying, r)] fun _ => .skip
  | .newPrefixedChildRegistry parent => -- registry.go:259-264
    .alloc .prefixedRegistry [(.underlying, parent)] fun _ => .skip
  | .counter f c => counterCode f c
  | .gauge f g => gaugeCode f g
  | .healthcheck f h => healthCode f h
  | .ewma f a => ewmaCode f a
  | .meter f m => meterCode f m
  | .tickMeters => tickMetersCode
  | .sample f s => sampleCode f s
  | .histogram f h => histCode f h
  | .timer f t => timerCode f t
  | .registry f r => registryCode f r
  | .shortHostname => -- opentsdb.go:48-58
    block [rd globals .shortHostName, .alt .skip (wr globals .shortHostName), rd globals .shortHostName]
  | .registerRuntimeMemStats r => registerRuntimeMemStatsCode r
  | .captureRuntimeMemStatsOnce => captureRuntimeMemStatsOnceCode
  | .registerDebugGCStats r => registerDebugGCStatsCode r
  | .captureDebugGCStatsOnce => captureDebugGCStatsOnceCode

/-- What code outside of the library does by itself: package initialisation, go
statements, handing over pointers, use of slices, setting `UseNilMetrics`, creating
own implementations of interfaces. -/
def UserAct : Act → Prop
  | .spawn _ | .send _ _ | .recv _ _ => True
  | .new o refs => refs = [] ∧ (o = arbiter ∨ o = globals ∨ o.kind = .once ∨ o.kind = .slice ∨ o.kind = .foreign)
  | .read x v => v = none ∧ x.obj.kind = .slice ∧ x.fld = .contents
  | .write x v => v = none ∧ (x.obj.kind = .slice ∧ x.fld = .contents ∨ x = ⟨globals, .useNilMetrics⟩)
  | _ => False

/-- How a run of a piece of code ends: normally or by a panic. -/
inductive Done where
  | ok | panic
  deriving DecidableEq

/-- The sequences of actions that a piece of code may perform.  Any statement may
panic before it does anything; the rest is then skipped, but deferred `Unlock`s
run.  The caller may recover from a panic. -/
inductive Lang : Code → List Act → Done → Prop where
  | panic (c) : Lang c [] .panic
  | skip : Lang .skip [] .ok
  | act (a) : Lang (.act a) [a] .ok
  | seq {c d p q r} : Lang c p .ok → Lang d q r → Lang (.seq c d) (p ++ q) r
  | seqPanic {c d p} : Lang c p .panic → Lang (.seq c d) p .panic
  | altL {c d p r} : Lang c p r → Lang (.alt c d) p r
  | altR {c d p r} : Lang d p r → Lang (.alt c d) p r
  | starNil {c} : Lang (.star c) [] .ok
  | starCons {c p q r} : Lang c p .ok → Lang (.star c) q r → Lang (.star c) (p ++ q) r
  | starPanic {c p} : Lang c p .panic → Lang (.star c) p .panic
  | locked {m w c p r} : Lang c p r → Lang (.locked m w c) (.acq m w :: (p ++ [.rel m w])) r
  | load {x k o p r} : Lang (k o) p r → Lang (.load x k) (.read x (some o) :: p) r
  | loadNil {x k} : Lang (.load x k) [.read x none] .ok
  | alloc {kind rf k o p r} : o.kind = kind → Lang (k o) p r → Lang (.alloc kind rf k) (.new o rf :: p) r
  | any {kind k o p r} : o.kind = kind → Lang (k o) p r → Lang (.any kind k) p r
  | go (u) : Lang .go [.spawn u] .ok
  | call {c p r} : Lang (body c) p r → Lang (.call c) p r
  | userNil : Lang .user [] .ok
  | userAct {a q r} : UserAct a → Lang .user q r → Lang .user (a :: q) r
  | userCall {c p q r r'} : Lang (.call c) p r → Lang .user q r' → Lang .user (p ++ q) r'
  | userPanic {c p} : Lang (.call c) p .panic → Lang .user p .panic

/-- An execution of a program that uses the library: every goroutine runs code of
the user (which may also be the loop around `tickMeters`) and may be anywhere in
it, and every event was possible. -/
structure Execution (tr : Trace) : Prop where
  wf : WellFormed tr
  code : ∀ t, ∃ p r, Lang .user p r ∧ proj t tr <+: p

end GoMetrics.Mem
