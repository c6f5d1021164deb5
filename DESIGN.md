# Formal model of rcrowley/go-metrics in Lean 4 — design

Source: `/repo` (read as text, never run). Model and proofs: `/verif/lean/Verif`.
Build: `cd /verif/lean && lake build`.

## 1. Layout

| module | content |
|---|---|
| `Verif/Go/*.lean` | semantics of the Go features used: panics, int64, byte strings, float64 (an abstract arithmetic interface with an exact and an IEEE-754 binary64 instance), RWMutex, interleavings |
| `Verif/Model/*.lean` | the model of the code, function by function, each definition citing file and lines |
| `Verif/Spec/*.lean` | small specifications written without reference to the model's helpers |
| `Verif/Lemmas/*.lean` | helper lemmas and proofs by induction |
| `Verif/Props/*.lean` | the property theorems only (`C01_...`), each with a concrete `example` meeting its hypotheses |

## 2. Modelling decisions

* **int64** is Lean core's `Int64` (two's complement, `BitVec 64` underneath). Specifications are stated over `Int` with
  `Int.bmod · (2^64)` (the balanced residue), i.e. ordinary arithmetic followed by two's-complement wrap.
* **Go `int`, lengths, indices**: `Nat`/`Int`, every index is bounds-checked and yields a panic value if out of range.
* **panic** is a value: functions that can panic return `Except Panic α`.
* **string**: `List UInt8` (Go strings are byte strings).
* **float64**: the code that uses floats is written once, over a class `GoFloat` of arithmetic operations. Two instances:
  the *exact* one (any linearly ordered field with a floor; used for the algebraic claims) and `F64`, an IEEE-754 binary64
  model (NaN, ±∞, finite dyadic values, every operation rounded to nearest-even and overflowing to ∞; the two zeros
  are identified). `math.Exp`, `math.Sqrt` are parameters; the laws used (classes `GoSqrt`, `GoExp`) are hypotheses of the
  theorems. For `F64` they are the correctly rounded functions, for ℝ the functions of Mathlib.
* **time**: `Int` nanoseconds supplied as an input to each operation that calls `time.Now`; monotone or not, as the environment likes.
* **random numbers**: explicit inputs (`rand.Int63n(n)` is any number `< n`, `rand.Float64()` any number in [0,1)).
* **map iteration order**: an arbitrary permutation, quantified over.
* **object identity**: a `World` holds a store of objects (metrics) and of backing arrays, so that aliasing (who shares a slice, what
  `Unregister` stops, what the ticking goroutine sees) is explicit.
* **goroutines**: fine-grained step machines. A step is one atomic operation (`sync/atomic` call, lock operation, or a whole
  mutex-protected section once mutual exclusion has been proved). Theorems quantify over all schedules.

## 3. Plan per property

| id | what is modelled and how it is proved |
|---|---|
| C01 | `Counter` op machine over `Int64`; induction over the op list; spec = integer sum since last Clear, `bmod 2^64` |
| C02 | arbitrary interleavings (`Interleave`) of per-goroutine programs; permutation invariance of the sum |
| C03 | `World` store; invariant over all API operations that a snapshot's readings never change |
| C04 | case analysis of the methods of every snapshot kind in the `World` |
| C05 | `World` with `UseNilMetrics`; frame theorem for all operations |
| C06 | induction over histories; interleavings |
| C07 | `Float64bits`/`frombits` as bit patterns (`UInt64`); induction over histories |
| C08 | functional gauges with an arbitrary environment function |
| C09 | healthcheck machine with arbitrary user functions (verdict lists) |
| C10, C11 | fold lemmas over `List Int64` |
| C12, C13 | generic arithmetic; exact instance: algebra; IEEE instance: monotone rounding |
| C14–C17 | `samplePercentiles` over `GoFloat`; exact: closed form; IEEE: index bounds by monotonicity of rounding |
| C18 | memory model with aliased slices; permutation invariants |
| C19, C20, C22, C23 | invariant by induction over op lists with arbitrary random inputs |
| C21 | counting argument over all random outcomes (`Finset` cardinalities), induction on n |
| C24, C25, C28 | array heap over an arbitrary comparison (so valid for NaN keys): sizes and multisets preserved by `up`, `down`, push, pop and the aliased rescale loop |
| C26, C27 | heap order for a linear order; refinement to "newest + top k−1 by weight"; rescale multiplies all keys by one positive factor |
| C29 | IEEE instance: refuted by a concrete idle period; partial theorem under a bound |
| C30–C32 | recurrence, closed form, bounds (exact and IEEE), `Real.exp` for the constructors |
| C33, C34 | step machine of the individual atomic operations; conservation invariant; C34 refuted by concrete schedules, partial for a single ticker |
| C35, C36 | op machine and step machine |
| C37, C38 | `World` with the arbiter set; invariant over all operations |
| C39 | history invariant relating meter snapshot fields to EWMA states |
| C40 | refuted by a schedule; partial without concurrent writers |
| C41, C42, C45 | delegation in the `World`; induction over histories |
| C43 | step machine with the timer mutex |
| C44 | `World`; refuted for nil timers, partial for standard timers |
| C46–C49, C52–C54, C56, C57 | registry in the `World`, refinement to a partial map |
| C50, C51 | step machine with RWMutex; linearization points; trace theorem |
| C55 | refuted with a concrete deadlock in the RWMutex machine; partial for `Each` |
| C58–C60 | inductive registry nesting; C60 refuted, partial |
| C61–C63 | exporters produce structured lines (format string, arguments) |
| C64 | decimal percentile keys; refuted, partial |
| C65 | JSON encodability of readings; refuted for NaN/∞, partial |
| C66 | expvar handler over the `World`; exact condition for returning; refuted, partial |
| C67, C68 | `BuildRequest`; refuted/partial |
| C69, C70 | ring-buffer arithmetic over `UInt32`/`UInt64`; induction over captures |
| C71 | `sync.Once`; refuted, partial |
| C72 | lock-ordering machine: acyclic lock levels imply progress |
| C73, C74 | `World` with the metrics of runtime.go/debug.go registered; induction over captures |
| C75 | step machine of simultaneous requests; invariants (who holds which mutex, kinds), refuted without the discipline |
| C76 | product of uniform measures on the draws (Mathlib); exchange argument: swapping two draws maps the event "the earlier is kept" into "the later is kept" up to ties of measure zero; exact arithmetic |
| C77 | step machine with single element reads and writes of a shared slice; an in-place sort is a parameter with a contract (insertion sort meets it); refuted with a schedule, partial |
| C78 | connection whose writes may be cut at any byte, 4096-byte writer in front of it; simulation of the plain exporter; "nil means delivered" refuted |
| C79 | step machines of a ticker loop, a cue loop and a sleeping loop; invariant relating ticks fired, ticks waiting and rounds begun |
| C80 | `PostMetrics` over an abstract HTTP answer, `Run` as a fold over rounds; leak of response bodies refuted |
| C81 | step machine of single reads and writes of the `err` field; invariant relating field, trace and program counters; panic refuted with a schedule, partial |
| C82 | step machine of methods as programs of single field accesses with lock and unlock (`Go/Body`); general theorem: guarded methods are linearizable; each program run alone refines the sequential model; corollaries on final states |
| C83 | the statistics functions over the IEEE model; lemmas on one rounding (relative error, grids), then sums of squares by induction over the slice; reference: exact rational statistics in `Spec/Accuracy` |
| C84 | EWMA and meter over the IEEE model; induction over the history: the error contracts by 1 - alpha at every tick; error of the float64 smoothing factor by a Lipschitz bound for exp |
| C85 | Byte-level model of `fmt` for the verbs used (`Go/Digits`), an independent reader of lines, words and decimals (`Spec/Wire`); printing then reading is the identity up to the printed decimals; composed with C62 (layout) and C78 (delivery) |
| C86 | Memory accesses and mutexes of every method as a small control-flow language (`Model/Memory`: branches, loops, lock regions, callbacks into arbitrary user code, panics), happens-before as an inductive relation over traces (`Go/Memory`), which traces are possible (mutual exclusion, pointers come from somewhere). Proof: static check of every method against a protection table, mutual exclusion, then happens-before through unlock/lock; safe publication by strong induction along the trace |
| C87 | Struct layout on 32- and 64-bit platforms (`Model/Layout`); every atomic access in an execution of C86 is to a field of a fixed list, whose offsets are computed |
| C88 | `time.Duration.String` digit by digit (`Go/Duration`), the suffix of log.go and the attributes of Librato (`Model/Units`); the spec is a table of four unit names |
| C89 | Texts of the names of a batch (`Go/Digits`), with the float64 product of timers; whole percents by bounding the rounding errors |
| C90 | A parser for UTF-8 and JSON as specification (`Spec/JsonRead`); the output of `Go/Json` (escaping and number layout of encoding/json) is read back, by induction on the text; combined with C65 |
| C91 | `Go/Quote` (`%q`, `'g'`) and `Model/ExpvarText`; both directions (what is readable is read back, everything else makes the parser fail) by induction on names and entries; combined with C66 |
| C92 | `Model/LibratoText`: `json.Marshal(batch)` byte by byte; the parser of C90 reads it as the batch (`Spec/LibratoText`), by composition over optional members; combined with C67 (the batch) and C80 (the loop) |
| C93 | The store of all metrics with histories (`Model/World`, `Model/Registry`); `touches` and `shares` (`Spec/Independence`) say when an operation can matter to an object; frame lemma for one step (objects: `step_objs`, slices: `step_kept`), congruence of all accessors, induction over the history; the parts of new objects are new |
| C94 | The uniform sample of C21; `average` and `chance` over `allDraws n` (`Spec/Estimate`), textbook mean, variance and shares of all values fed; the k-sets of positions are equally frequent (C21), so averages are sums over k-subsets; pair counts give the mean square error, Chebyshev's inequality the rare failures, ranks of `SamplePercentile` the percentiles |
| C95 | The meter of C39 and C84; `shard i` (`Spec/Shards`) is what meter i sees of a labelled stream; moving averages are linear (simultaneous induction over the stream), closed form for constant input, float64 errors from C84 |
| C96 | `Model/CaptureConc`: the two capture functions statement by statement as a step machine over the package variables. Run alone a capture makes the calls of `rtUpdates`/`dbgUpdates` (big-step lemma with loop induction), invariant over schedules one at a time; invariant over all schedules for the numbers shown; concrete schedules for the failures |
| C97 | `Model/AtomicConc`: counters and gauges as step machines (one atomic instruction per call); samples as in C82. `Spec/Program`: histories over many objects, one call per goroutine at a time. Locality: the event sequence is read from left to right and before each event the effects that its object saw earlier are inserted; invariant relating the state of each goroutine to what each object sees. Then every effect is shown to be one `step` of the model of all metrics, by computation per kind of object; results that are references (snapshots, slices) are compared by what they hold. Registries, meters, timers, functional gauges, snapshots are left out. |
| C98 | `Spec/Report`: a reader of reports that knows the layout only (headings at the start of a line, rows `  label: value`; for syslog the words of a message). The bytes come from `Model/Export` with the digits of `Go/Digits`. By induction over the rows of a block and over the blocks of C61/C62, the reader returns one entry per metric of the registry. The conditions (no newline in names and error texts; for syslog no colon in names of healthchecks) are shown to be needed by concrete registries. |
| C99 | The machine of `Mark`, reads, ticks (`Model/Meter`); the specification says of each shown rate at which moment its average had it (`AverageWas`), since when no call was running. Invariant over the steps of `updateSnapshot`: every value loaded but not yet stored was had since the start. One writer at a time: simulation by the sequential meter of `Model/Meter`. Single ticker: the invariant of C40 for each average. Overlapping writers: a concrete schedule leaves old rates behind. |
| C100 | `Model/ExportConc`: the exporters with the same statements as `Model/Export`, but before each call any operations of other goroutines are put into the history. The specification (`ExportedLive`) gives each block a moment of the history: all values of the block are those of the accessors in the state after that history, the call at that moment is the exporter's, the moments are in order. Proved by: counters, gauges and healthchecks are read by exactly one call; snapshots never change except that percentile reads sort their values, after which all their accessors stay as they are in all later states. `C100_sequential`: with no other goroutines the model is `Model/Export`. |
| C101 | `Model/GetAllConc`: `GetAll` and the JSON export as in `Model/GetAll` and `Model/Json`, but before each call any operations of other goroutines are put into the history (as for C100, with the same `eachLive`). The specification is `ExportedLive` of C100 with entries (`EntryOf`) instead of blocks; `JsonHas` says what a JSON parser finds in the text. Proved with the general lemma `each_blocks` (any callback that adds one block, whose values are those of one moment), by cases over the type of the metric; panics by induction over the visited list. |
| C102 | `Model/LibratoConc`: `BuildRequest` call by call as in `Model/Librato`, with any operations of other goroutines before each call (schedules of C100). `BuildRequest` takes no snapshots, so the specification (`Spec/LibratoConc`) gives every number a moment of its own within the span of its metric; spans follow each other. Proved by following the calls of one metric (`within_metric`) and induction over the list; returning by showing that only a percentile can panic (`ends_metric`). That all numbers of a metric are of one moment is refuted by two schedules |
| C103 | C97 with registries: the events on each registry are those of the step machine of C50 (`Model/RegistryConc`), with names completed by the prefixes; `Spec/RegistryProgram` says which calls and results correspond. Locality (C97) gives one order for all objects and registries; each effect is one `step` (or `eachList`) of the model of the whole library, with an environment that iterates over the map in the order in question. Invariant: the maps of the registries, and all objects in use, are as the parts say (`Unregister` changes meters only, which are not in use here). `Each` is the call that takes the list; its callbacks count as goroutines of their own. Left out as in C97, and `GetOrRegister` with a function, `RunHealthchecks`. |
| C104 | `Model/UseConc`: the step machine of C50 inside goroutines that call `GetOrRegister` with a constructor and then a method (one step) of the metric they got; metrics are numbered cells, a constructor makes a new one. Invariant: the run projects to a run of the machine of C50; every metric that a goroutine has got for a name, or that the map has, belongs to that name (for the names in question: is the one bound). Then each use changes the cell bound to its name and no other cell bound to a name in question. |
| C105 | Two runs of the `World`: one history, and the same with all clock readings and all arguments of `UpdateSince` moved by `d`. Every operation commutes with moving the instants stored in the objects (`startTime` of meters, `t0` and `t1` of samples): shown function by function for all operations of the store, the registries and the exporters, for any arithmetic, because instants are only subtracted from each other or compared. |
| C106 | The `World` after `Clear` and the one with a new object in the place of the cleared one are related by `Stale.WS`: equal except for the memory behind the slice of each heap (`Heap.rest`), whose total capacity is the reservoir size in both. Shown to be kept, with equal results, by every operation (function by function); that the capacity is the reservoir size in every reachable state is the same induction with both sides equal. |
| C107 | A read either leaves the `World` as it is or only adds objects and slices (`Ext`, as for C42), and the library keeps no reference to what it added (`Renumber.Tidy`). Two `World`s that differ in this way are related by a renumbering of the later objects (`Spec.Move`); that every operation keeps the relation and gives the same result up to the renumbering is shown function by function (`rm_step`). Exports are reads of each metric in turn. |
| C108 | `World.meters` is `arbiter.meters`. Induction over the history: only `NewMeter` and `NewTimer` add to it (function by function, `FewerMeters` for all others), and when `GetOrRegister` calls them it binds the name to the result; `Unregister` of the last name stops the meter (C53, C37). |
| C109 | The machines of C02 (`atomMachine`), C33 (`ewmaMachine`) and C36 (`meterMachine`). For every position inside such a call: a step is enabled in every shared state, and it brings the goroutine nearer to its return (a measure that no other goroutine touches). `InCall` speaks of the trace only. Counterexamples: a second `Tick` while the first holds the mutex of an average; a timer whose mutex is held. |
| C110 | `Model/Cost`: `Push`, `Pop`, `up`, `down`, the rescale loop and `update` in a monad that counts every `<` between priorities. Erasing the counter gives `Model/Heap`/`Model/ExpDecay` (a monad morphism, function by function). Bounds: `up` from index j costs ≤ log₂(j+1), `down` from i in n elements ≤ 2·log₂(n/(i+1)), by induction; histories: two rescales are more than an hour apart. |
| C111 | `Spec/Scale`: the same calls with `f v` for `v`. Equivariance of `Model/Heap` and `Model/ExpDecay`, function by function: replacing the values of all items, also those behind the slice, commutes with push, pop, the rescale loop and `update` because only priorities are compared; a new sample with replaced garbage behaves like a new sample by the lemmas of C106. For `Model/Uniform` the same, where the in-place sort of a percentile read commutes with order-keeping `f` only (refuted otherwise). Statistics: max and min of `map f` by C10; mean, variance, percentiles over an ordered field by C11, C13, C16; the standard deviation over ℝ. |
| C112 | `Spec/WallClock`: `spans` gives length and events of every interval between ticks. The rates are the moving average of events/5 s (C39, C84); an induction over the ticks bounds its distance from the true rate. The clock is the ticker machine of C79 (`Model/TickLoop`): an invariant (next due time = number of passes + 1 periods) gives the times of all passes if no tick waits too long. Negative results by concrete histories. |
| C113 | The table of variables of the model of exp/exp.go (C66). `Stays`: nothing is removed and no variable changes its kind; induction over the runs with requests that may also panic midway. `Unowned`: runs in which no registered metric owns the name at the time of a request; by C66 each request leaves the variable as it was. |
| C114 | `Spec/Alive`: `careful` calls. Invariant over histories: every registered `StandardMeter` is live and has one name; one step by `step_gets` (which bindings a call makes and frees) and C37 (which meters it stops). The converse is C108. |
| C115 | `Spec/Forget.lean` (`updates`, `Silence`) over the decaying sample and the world. Induction over the later updates with `update_spec` (each drops at most one item; multisets of values) for any float arithmetic; exact reals by C27 (top weights) and a partition of kept and dropped updates into old and new; `C115_usual` puts in 1028, 0.015 and 2^-53; `C115_idle` from C93. |
| C116 | The decaying sample over `F64` (IEEE binary64). Invariant: the items with priority +Inf (at most one) and otherwise finite, heap order; one update drops a finite item (`update_spec`), a rescale multiplies by a positive factor (no underflow up to 744). Bounds for exp from `Real.exp_one_gt_d9`/`lt_d9`. |
| C117 | `Handlers`: one table, a mutex per handler; a request to handler i is `expHandler` (C66) with its own mutex. The view of one handler is a run of C66 in which requests to other handlers only change the table (`ExpFrom.other`); that only a panic at a type assertion leaves the mutex locked, by induction over statements, metrics and requests. |
| C118 | The decaying sample over ℝ with draws as a product measure (C76), by C27 (the newest and the top k-1 weights). For equal weights these are the smallest draws; the events "the updates in B have the smallest draws" are disjoint, cover everything but a null set (ties) and are carried into each other by permutations of the draws, so each has probability 1/choose(n, k-1). |
| C119 | The store model. Count objects, slices, values, registry entries and meters. Every primitive of the routine methods is shown not to make any of these more (`Thrifty`, rules for bind, reads and writes that keep the reservoir size), then every method, then histories by induction, with the state-dependent condition that names given to `GetOrRegister`/`Register` are taken. The bound on the values kept is an invariant over all operations. |
| C120 | `Model/StatHat`: the loop `Stathat` in a program that does anything between the reports. Spec: a StatHat counter is the sum of the counts posted to it. A report posts one count for each metric that counts (from the semantics of the export statements, C62), the entries of a registry have different names, so one report adds `Count()`; induction over the reports. |
| C121 | The batch of C67 read as Librato reads it (`Spec/LibratoMean`: sum / count of a gauge); with exact arithmetic; for timers it is `Mean()`, for histograms it is off by the share of the values that the sample dropped, and refuted |
| C122 | The rows of C62 compared with each other (`Spec/Ordered`); with exact arithmetic and with float64, from C12 and C15 and the monotonicity of the conversions to the duration unit; truncated integers are off by less than 1; live versions from the schedules of C100; refuted for the timers of OpenTSDB and Graphite |
| C123 | The names of the posts of `sh` (`Spec/StatNames`), from the bodies of the cases of its switch; equality of two names decided by the last point; refuted by a meter and a counter |
| C124 | The names of the counters of a batch, from the blocks of C67; refuted by a counter and a meter, and by a gauge and a meter |
| C125 | The invariant "only stubs and the user's sample snapshots, clock not started" of the world, by induction over the operations (each either returns or is one of two named exceptions); reads of stubs (C05) put into the blocks of C62 and the fields of C56, C65 |
| C126 | A book of the recorded values computed from the calls alone (`Spec/Recorded`: `book`); the invariant "the sample holds a sub-multiset of the book of the size min(entries, reservoir), and its count" of the world, by induction over the operations (all methods of everything that has the sample as a part, frame lemma for the rest); then C10, C11, C16 for the statistics and C03 for the snapshots |
| C127 | Books of a counter, a gauge and a meter computed from the calls alone (`Spec/Ledger`); invariants "the object holds the balance", "… the last value", "… the number marked" of the world, by induction over the operations (frame lemma: nothing but its own methods, and for a meter its timers, the clock and what stops it, touches the object; C37 for the stop); then `Holds` of C62 for the reports, C126 for distributions, and C85 for the Graphite and OpenTSDB servers |
| C128 | The books of C126 and C127 kept from the calls that goroutines make (`Spec/Together`), whatever their order. In a linearization (C103) of calls that have all returned, followed by calls one at a time, these come last and the others are a permutation of the calls made; they are a history of the one-at-a-time model (C103), to which C126 and C127 apply; sums and lists of values do not depend on the order (up to permutation) |

All properties C01–C128 are expressible and have theorems; MANIFEST.json gives their names and status.

## 4. What is modelled

| source | model | left out or simplified |
|---|---|---|
| counter.go | `Model/Counter`, `Model/AtomicConc` | – |
| gauge.go, gauge_float64.go | `Model/Gauge`, `Model/AtomicConc` | functional gauges: results of the user function are inputs |
| healthcheck.go | `Model/Healthcheck`, `Model/HealthConc` | errors are numbers; the check function's verdicts are inputs |
| sample.go | `Model/Stats`, `Model/Uniform`, `Model/ExpDecay`, `Model/Heap`, `Model/Cost` (comparisons counted), `Model/World`, `Model/SnapshotConc`, `Model/SampleConc` | mutexes in the sequential model (C82 shows that nothing is lost by that); `sort.Sort` = sorted permutation |
| histogram.go, timer.go | `Model/World`, `Model/TimerConc` | `Time(f)`: the duration and whether `f` panics are inputs |
| ewma.go | `Model/Ewma` | sequential methods and the machine of their atomic operations |
| meter.go | `Model/Meter`, `Model/ArbiterConc`, `Model/World` | when the ticker fires is up to the environment |
| registry.go | `Model/Registry`, `Model/GetAll`, `Model/GetAllConc` (with other goroutines), `Model/RegistryConc`, `Model/UseConc` (metrics used by name), `Model/Locks` | `reflect` use in `GetOrRegister` (a function value is called, everything else is registered as it is) |
| writer.go, log.go, syslog.go, graphite.go, opentsdb.go, stathat/stathat.go | `Model/Export` (with `Go/Fmt`), `Model/ExportConc` (with other goroutines), `Model/Net` (TCP), `Model/TickLoop` (the loops), `Model/StatHat` (its loop in a program) | DNS, files, the syslog and StatHat transport. Digits of formatted numbers are modelled in `Go/Digits` (used for the TCP exporters, C85, and for writer, log and syslog, C98; negative zero prints without its sign) and stay symbolic elsewhere |
| json.go | `Model/Json`, `Go/Json`, `Model/GetAllConc` (with other goroutines) | in C65 number formatting and escaping of encoding/json are parameters, in C90 explicit, except for the choice of the shortest digits (`Shortest`) and the sign of −0; `UnmarshalJSON` does not exist in the code |
| exp/exp.go | `Model/Expvar`, `Model/ExpvarConc`, `Model/ExpvarText` | HTTP headers; which characters beyond ASCII are printable (`Printer`), texts of variables of other code |
| librato/librato.go, librato/client.go | `Model/Librato`, `Model/Units`, `Model/LibratoClient`, `Model/LibratoText`, `Model/LibratoConc` (with other goroutines) | HTTP transport is an input; `math.Pow(x,2)` is `x*x` |
| runtime.go, runtime_cgo.go, runtime_gccpufraction.go, debug.go | `Model/Runtime`, `Model/CaptureConc` | what the Go runtime reports is an input; `runtime_no_*.go` (old Go versions) |
| metrics.go | `UseNilMetrics` in `World` | – |
| memory accesses of all metric types, samples, registries, runtime.go and debug.go | `Model/Memory`, `Model/Layout` | values are left out (branches are choices); a map or a slice with its elements is one location; atomic operations are not counted as synchronisation; `sync.Once` may run its function more than once; exporters (except `getShortHostname`) have no shared state of their own and count as code of the caller |
| cmd/, *_test.go | – | not modelled |

The sequential `World` model runs one call at a time; calls of several goroutines are in the machines `*Conc`, `Ewma`, `Meter`,
`Locks`. These machines cover one object (counter, gauge, EWMA, meter, timer, registry, arbiter, expvar table) each. The Go
memory model is taken as sequentially consistent for atomic and lock operations; that is justified for race-free programs,
and C86 shows which programs are race free.

## 5. Findings: properties that the code violates

Each is a theorem with a concrete witness (`…_refuted…`), beside the strongest true part that was proved.

* C03 `Percentile(s)` of a sample snapshot sorts the snapshot in place; `Variance`/`StdDev` add in another order afterwards and may change in the last bit.
  `NewSampleSnapshot` keeps the caller's slice.
* C12, C13 `SampleMean` divides an int64 sum that may have wrapped; float64 rounding can put a mean outside [min,max] and give constant data a positive variance.
* C24 a reservoir of size 0 makes `ExpDecaySample.Update` panic.
* C29 an idle period of 28 h makes the next priority infinite, and the following rescale NaN.
* C31 an int64 overflow of the uncounted events makes a rate negative.
* C34 concurrent `Tick`s lose a first tick and can make a rate negative (the library itself ticks from one goroutine).
* C40 a meter snapshot can mix a new count with old rates.
* C41 `Snapshot` of a histogram over a `NilSample` panics.
* C44 `NilTimer.Time(f)` does not call `f`.
* C55 a healthcheck or lazy constructor that uses the registry which called it deadlocks.
* C59 `Each` of a prefixed registry over a foreign `Registry` implementation panics.
* C60 `GetAll`, `RunHealthchecks`, `UnregisterAll` (and JSON export) of a prefixed registry act on the whole base registry.
* C62 Graphite, OpenTSDB and StatHat skip healthchecks.
* C63 Graphite does not scale timer percentiles by the duration unit; a duration unit of 0 panics. The unit suffix printed by LogScaled is `scale.String()[1:]`.
* C64 Graphite's path component drops the decimal point: 15 % and 1.5 % collide.
* C65 one NaN or infinite reading (also a meter marked at the instant it was created) makes `WriteJSONOnce` write nothing; the error is dropped.
* C66, C75 expvar: a healthcheck in the registry makes every request panic; a name whose kind changes, or two handlers with a common name, make a request panic with the
  mutex held, after which all requests to the handler hang; colliding names overwrite each other.
* C67 Librato: an interval under one second panics (division by zero); fractional intervals are misaligned; counters that are not positive are dropped.
* C68 Librato: the `sum_squares` formula is wrong except for constant data.
* C69 exactly 2^32 collections between captures are invisible.
* C71 `sync.Once`: only the first registry given to `RegisterRuntimeMemStats` gets the metrics.
* C73 of several collections between two captures of debug.go only the last pause is recorded.
* C77 two concurrent `Percentile(s)` calls on one snapshot can destroy a value of it for ever.
* C85 metric names are not quoted in the Graphite and OpenTSDB protocols: a newline in a name forges a sample.
* C86 data races: two goroutines using one healthcheck, asking one snapshot for percentiles, setting `UseNilMetrics` while metrics are created, two OpenTSDB exporters started together, two captures of the runtime statistics at once, a capture while the statistics are being registered.
* C88 LogScaled with a scale such as 10 ms or a minute prints a wrong unit (`0ms`, `m0s`); Librato displays minutes as `s`.
* C89 Librato: percentiles that agree in two decimals (0.5 and 0.504, 0.999 and 0.9999 of a timer) are sent under one name; names of low timer percentiles contain a space.
* C90 metric names that are not UTF-8 become the same JSON key.
* C91 expvar: the response is written with `%q` and `%s`, so it is no JSON if any variable is NaN or infinite (also a meter marked at the instant it was created), or any name has a control character or is not UTF-8.
* C92 Librato: names that are not UTF-8 may become the same name in the request.
* C94 `Sum()` of a uniform sample (and of a histogram over it) is not the sum of the values given once more than k were given: on average it is k/n of it. `Variance()` is biased low by the factor n(k-1)/(k(n-1)).
* C95 a meter made while others are running starts with the rate of its first interval, so rates of meters made at different times do not add up to the rate of the whole.
* C96 captures share package variables without a lock: two that overlap can lose a pause for ever, record one twice, and report changes that do not add up (`C96_lost_refuted`, `C96_twice_refuted`, `C96_debug_refuted`).
* C98 names are not quoted in the reports of WriteOnce, Log and Syslog: a newline in a name shows metrics that do not exist; a healthcheck failing with the error text `<nil>` looks healthy.
* C99 `updateSnapshot` runs without a lock: a `Mark` that overlaps another `Mark` and a tick can leave old rates behind that stay until the next `Mark` or tick (`C99_stale_refuted`).
* C100 A report is not a consistent cut: each metric is read at its own moment, so a report can show a state of the metrics together that never was (`C100_cut_refuted`). A metric that is unregistered during the export is still reported.
* C101 `GetAll` calls `metric.Error()` twice (registry.go:141-142). If another goroutine declares the healthcheck healthy in between, the second result is nil and `.Error()` on it panics (`C101_refuted`; C81 for the same code seen alone). The panic ends `GetAll`, hence `WriteJSON`, `MarshalJSON` and the goroutine that runs it.
* C102 The Librato client reads live metrics number by number (librato.go:98-232), while all other exporters take a snapshot first. A batch can have a gauge with a minimum above its maximum (`C102_torn_refuted`), and a counter with the value 0 although only positive ones should be sent (`C102_zero_refuted`).
* C107 Reads that change what happens later: percentiles of a `UniformSample` sort its values, after which a new value replaces another one (`C107_percentile_refuted`), also when Librato's client takes them (`C107_librato_refuted`); an export of a metric over a `SampleSnapshot` sorts the slice which the program gave (`C107_snapshot_refuted`); exports run healthchecks (`C107_health_refuted`).
* C108 `NewRegisteredMeter`/`NewRegisteredTimer`, and `GetOrRegister(name, NewMeter())`, under a taken name leave a meter in the arbiter that no registry holds; it is ticked for ever, also after `UnregisterAll` (`C108_newRegistered_refuted`, `C108_eager_refuted`).
* C111 reading the percentiles of a uniform sample sorts its reservoir, so the reservoir cell that a later update replaces depends on the order of the values: which values are kept is then not independent of the values (each value is still kept with the same probability, C21).
* C112 a moving average divides the events of an interval by 5 s even if the interval was longer (late or lost ticks: rates too high) or shorter (the first interval of a meter: rates too low for many minutes).
* C113 the expvar handler never removes a variable: after `Unregister` every response still shows the last value seen, as if the metric were there (`getInt`, `getFloat`, exp/exp.go:53-79, only create).
* C114 `Unregister` stops the metric whether or not it is still registered elsewhere, and nothing starts it again: a meter under two names, in two registries, or registered anew is reported but dead.
* C115: a histogram or timer with a decaying sample shows old values for ever if it is not updated, and after a long silence it takes as many updates as the reservoir has places (1028) until the last old value is gone; nothing ages on reads (not a violation of a documented guarantee, but often expected otherwise).
* C116: a value recorded by a decaying sample after an idle time of 13 h 10 min to 13 h 46 min (alpha 0.015), or with the random number 0, gets the priority +Inf and is never pushed out again until `Clear`. (After longer idle times the priority is NaN, C29.)
* C117 expvar: the response of a handler also lists the variables of the registries of all other handlers, with the values of their last requests.
* C118 `ExpDecaySample.Update` drops a value before it adds the new one, so the newest value is always in the sample: without decay the sample is not uniform and its mean is biased towards the newest value (by 1/k - 1/n of the difference).
* C120 `Stathat` posts the whole count with every report; StatHat adds the posts up and shows the sum over all reports instead of the count.
* C121 Librato: the gauge of a histogram has the sum of the kept values and the count of all values (librato.go:121-124), so Librato's average is too low once the sample is full, even below the minimum sent with it. Timers send `Mean() * Count()` and are right.
* C122 OpenTSDB and Graphite truncate the minimum and maximum of timers to the unit but not the mean (graphite.go:97-99, opentsdb.go:102-104): the maximum can be below the mean and the percentiles (`C122_opentsdb_refuted`).
* C123 StatHat: a counter "x.count" and a meter, histogram or timer "x" are added up in the same StatHat counter (stathat.go:24, 32, 44, 52).
* C124 Librato: a counter "x" and a meter or timer "x.count" are sent as the same counter (librato.go:98-108, 137-140, 173-176).
* C78 `GraphiteOnce`/`OpenTSDBOnce` return nil though the connection failed and nothing was delivered.
* C80 `PostMetrics` never closes the response body: every answered post holds a connection. One NaN in a batch prevents the whole batch from being posted.
* C81 two concurrent `GetAll`s (JSON exports) of a registry with a healthcheck can dereference a nil error: `Error()` is called twice.

## 6. Trusted base

* Lean 4.33.0's kernel. No `sorry`, no `native_decide`, no `bv_decide`, no axioms of our own. Examples and witnesses use `decide`, `decide +kernel` or `rfl` (kernel
  evaluation only).
* Mathlib modules imported one by one (algebra, order, finite sets, real analysis for `exp`, `sqrt`).
* The faithfulness of the model to the source: every definition cites file and lines and says where it simplifies.
* Semantics of the Go standard library as stated in `Verif/Go` and at the head of the model files: `sync.Mutex`/`RWMutex`, `sync/atomic`, `sync.Once`, `sort.Sort`
  (sorted permutation), `math/rand` (range of results), `time`, `fmt.Fprintf`, `bufio.Writer`, `net.TCPConn`, `encoding/json`, `expvar`, `net/http` (recovers from panics of handlers), package `runtime`.

Axioms of the theorems `C..` (printed by `#print axioms`):

* no axioms: `C10_empty`, `C23_negative_panics`, `C88_refuted`
* `propext`: `C112_busy_refuted`, `C43_after_stop`, `C73_none`, `C79_in_turn`, `C81_refuted`, `C96_debug_refuted`, `C96_twice_refuted`
* `Quot.sound`, `propext`: `C06_gauge_last`, `C07_float_gauge_bits`, `C09_check`, `C09_health_last_verdict`, `C109_timer_refuted`, `C13_empty`, `C14_empty`, `C24_negative_panics`, `C59_foreign`, `C69_bounds`, `C69_wrap`, `C70_frees`, `C70_lookups`, `C70_mallocs`, `C70_numCgoCall`, `C70_numGC`, `C73_pauses`, `C75_complete`, `C75_value`, `C79_close`, `C79_cues`, `C79_responds`, `C79_sleep`, `C81_panic`, `C81_partial`, `C81_status`, `C82_uniform_exclusive`, `C82_uniform_progress`, `C96_serial_partial`, `Mem.C87_aligned`
* `Classical.choice`, `Quot.sound`, `propext`: the other 503 theorems
