{"id": "C01", "title": "Counter value is the net sum since the last Clear", "statement": "After any history of Inc(i)/Dec(i)/Clear() calls on a Counter made by NewCounter, Count() is the sum of all increments minus all decrements made after the last Clear, reduced to int64 by two's-complement wrap-around; in particular it is the exact sum whenever that sum fits in int64.", "quantifier": "all finite histories of Inc/Dec/Clear with arbitrary int64 arguments (including MinInt64)", "why_tests_cant": "the history and the arguments are unbounded; wrap-around only shows at the edge of int64", "anchors": ["counter.go: StandardCounter.Inc, Dec, Clear, Count"]}
{"id": "C02", "title": "Concurrent counter updates are never lost", "statement": "If any number of goroutines concurrently call Inc and Dec on one counter, then whatever the interleaving, the final Count() is the initial count plus the net sum of every call made by every goroutine; Count() read in the middle equals the net of some set of calls that contains every call that has returned and no call that has not started.", "quantifier": "all numbers of goroutines, all per-goroutine programs, all interleavings", "why_tests_cant": "the set of schedules is unbounded and the test scheduler picks only a few", "anchors": ["counter.go: StandardCounter.Inc, Dec, Count"]}
{"id": "C03", "title": "Snapshots are frozen", "statement": "Once a Counter, Gauge, GaugeFloat64, EWMA, Sample, Histogram, Meter or Timer snapshot has been taken, every numeric accessor of the snapshot keeps returning the value the source had at that moment, whatever is later called on the source, on the snapshot, on other snapshots or on any other metric.", "quantifier": "all later histories of API calls on all objects", "why_tests_cant": "a missed copy only shows for particular later calls on a shared slice; the space of later histories is unbounded", "anchors": ["counter.go: CounterSnapshot", "gauge.go: GaugeSnapshot", "gauge_float64.go: GaugeFloat64Snapshot", "ewma.go: EWMASnapshot", "sample.go: SampleSnapshot, UniformSample.Snapshot, ExpDecaySample.Snapshot", "histogram.go: HistogramSnapshot", "meter.go: MeterSnapshot", "timer.go: TimerSnapshot"]}
{"id": "C04", "title": "Snapshots reject mutation", "statement": "Every mutating method of a snapshot (Clear/Inc/Dec/Update/Mark/Tick/Time/UpdateSince) panics and changes nothing; Stop on a meter or timer snapshot is a no-op that does not disturb the live meter; Snapshot() of a snapshot yields a snapshot with the same readings.", "quantifier": "all snapshot kinds, all mutators, all arguments, all states", "why_tests_cant": "must hold for each state and argument; a silent mutation is invisible to a test that only checks for the panic", "anchors": ["counter.go", "gauge.go", "gauge_float64.go", "ewma.go", "sample.go", "histogram.go", "meter.go", "timer.go: *Snapshot types"]}
{"id": "C05", "title": "Nil metrics read zero and affect nothing", "statement": "With UseNilMetrics set, every constructor returns a stub: whatever is called on it, every accessor returns zero (Percentiles returns one zero per requested percentile), no other metric changes and no meter is ever scheduled for ticking.", "quantifier": "all constructors, all histories of calls on the stubs", "why_tests_cant": "the property ranges over every history and over every other object in the program", "anchors": ["metrics.go: UseNilMetrics", "counter.go: NilCounter", "gauge.go: NilGauge", "gauge_float64.go: NilGaugeFloat64", "ewma.go: NilEWMA", "sample.go: NilSample", "histogram.go: NilHistogram", "meter.go: NilMeter", "timer.go: NilTimer", "healthcheck.go: NilHealthcheck"]}
{"id": "C06", "title": "A gauge reads the last Update", "statement": "Value() of a Gauge or GaugeFloat64 is the argument of the last Update in the history (zero if none), for every history; when several goroutines update concurrently every read returns the initial value or an argument actually passed to some Update, and the final value is the last update of one of the goroutines.", "quantifier": "all histories and all interleavings of Update calls of any number of goroutines", "why_tests_cant": "unbounded histories and schedules", "anchors": ["gauge.go: StandardGauge", "gauge_float64.go: StandardGaugeFloat64"]}
{"id": "C07", "title": "Float gauges are bit exact", "statement": "The float64 passed to GaugeFloat64.Update is the one Value() and Snapshot().Value() return, bit for bit, for every float64 including signed zeros, infinities, subnormals and NaNs.", "quantifier": "all 2^64 float64 bit patterns and all histories", "why_tests_cant": "2^64 bit patterns", "anchors": ["gauge_float64.go: StandardGaugeFloat64.Update, Value, Snapshot"]}
{"id": "C08", "title": "Functional gauges read through", "statement": "Value() of a functional gauge is whatever its function returns at the time of the call, its snapshot keeps the value of the call made at snapshot time, Update panics, and reading it changes no metric.", "quantifier": "all functions (all sequences of returned values), all histories", "why_tests_cant": "the user function is arbitrary", "anchors": ["gauge.go: FunctionalGauge", "gauge_float64.go: FunctionalGaugeFloat64"]}
{"id": "C09", "title": "Healthcheck status is the last verdict", "statement": "Error() of a healthcheck is nil initially and after Healthy(), and the error given to the last Unhealthy(err) otherwise; Check() runs the user function exactly once on that healthcheck, so the status afterwards is the last verdict the function gave, or the old status if it gave none.", "quantifier": "all user functions (as sequences of verdicts), all histories", "why_tests_cant": "the user function and history are arbitrary", "anchors": ["healthcheck.go: StandardHealthcheck"]}
{"id": "C10", "title": "Max and Min are exact", "statement": "SampleMax/SampleMin of a non-empty slice return an element of the slice that is >= (<=) every element; of an empty slice they return 0.", "quantifier": "all int64 slices of every length", "why_tests_cant": "all lengths and all int64 contents, including MinInt64/MaxInt64 which coincide with the loop's initial values", "anchors": ["sample.go: SampleMax, SampleMin"]}
{"id": "C11", "title": "Sum is exact modulo 2^64 and order independent", "statement": "SampleSum is the mathematical sum of the slice wrapped to int64; it equals the mathematical sum whenever that fits in int64 and does not depend on the order of the elements.", "quantifier": "all int64 slices, all permutations", "why_tests_cant": "unbounded lengths, overflow only at the edge", "anchors": ["sample.go: SampleSum"]}
{"id": "C12", "title": "Mean lies between Min and Max", "statement": "SampleMean of a non-empty slice lies between the smallest and the largest element (as float64 values).", "quantifier": "all non-empty int64 slices", "why_tests_cant": "needs all slices: the claim fails exactly when the int64 sum overflows, which random tests do not reach", "anchors": ["sample.go: SampleMean, SampleSum"]}
{"id": "C13", "title": "Variance and standard deviation are well formed", "statement": "SampleVariance is never negative and never NaN for a slice whose sum does not overflow, is 0 for empty and constant slices, in exact arithmetic equals mean of squares minus square of mean and is 0 only for constant slices, and SampleStdDev squared is the variance.", "quantifier": "all int64 slices", "why_tests_cant": "unbounded lengths and values", "anchors": ["sample.go: SampleVariance, SampleStdDev"]}
{"id": "C14", "title": "Percentile never indexes out of range", "statement": "Percentile(p)/Percentiles(ps) return normally (one score per requested p, all zero for an empty sample) for every float64 p that is not NaN, including infinities and values outside [0,1], for every sample size.", "quantifier": "all samples, all float64 p, with IEEE rounding of p*(n+1)", "why_tests_cant": "the index is computed through rounded floating point for every n and p; an out-of-range index needs a specific n and p", "anchors": ["sample.go: SamplePercentiles, SamplePercentile"]}
{"id": "C15", "title": "Percentiles are bounded by Min and Max and monotone", "statement": "For a non-empty sample Percentile(p) lies between Min and Max, equals Min for p<=0 and Max for p>=1, and p<=q implies Percentile(p)<=Percentile(q).", "quantifier": "all non-empty samples, all pairs p<=q", "why_tests_cant": "all sample contents and all pairs of reals", "anchors": ["sample.go: SamplePercentiles"]}
{"id": "C16", "title": "Percentile is the (n+1)-rank linear interpolation and depends only on the multiset", "statement": "With the values sorted as x1<=...<=xn and r=p(n+1), Percentile(p) is x1 for r<1, xn for r>=n and x_k+(r-k)(x_{k+1}-x_k) for k=floor(r) otherwise; any reordering of the sample gives the same answer.", "quantifier": "all samples, all p, all permutations", "why_tests_cant": "all contents and orders", "anchors": ["sample.go: SamplePercentiles"]}
{"id": "C17", "title": "Batch percentiles agree with single ones", "statement": "Percentiles(ps) has exactly one entry per requested percentile, the i-th being Percentile(ps[i]), regardless of the order, repetition or number of the requests.", "quantifier": "all samples, all lists ps", "why_tests_cant": "lists of any length", "anchors": ["sample.go: SamplePercentile, SamplePercentiles"]}
{"id": "C18", "title": "Reading percentiles does not disturb the sample", "statement": "Calling Percentile/Percentiles on a live sample, histogram or snapshot leaves Count, Size, Sum, Min, Max, Mean, the multiset of Values and every later percentile unchanged (it may reorder Values).", "quantifier": "all samples and snapshots, all requests, all later histories", "why_tests_cant": "the call sorts the live reservoir in place, so the effect shows only in later operations", "anchors": ["sample.go: UniformSample.Percentiles, SampleSnapshot.Percentiles, SamplePercentiles"]}
{"id": "C19", "title": "Uniform sample keeps everything until full and never exceeds the reservoir", "statement": "After any history on a UniformSample of reservoir size k, Size() = min(number of updates since the last Clear, k); while at most k updates were made, Values() holds exactly those updates.", "quantifier": "all k>=0, all histories, all random outcomes", "why_tests_cant": "unbounded histories and random choices", "anchors": ["sample.go: NewUniformSample, UniformSample.Update, Clear, Size, Values"]}
{"id": "C20", "title": "A uniform sample only contains values it was given", "statement": "Values() of a UniformSample is always a sub-multiset of the values passed to Update since the last Clear; nothing is invented, duplicated or carried over a Clear.", "quantifier": "all histories (Update, Clear, Percentile), all random outcomes", "why_tests_cant": "unbounded histories and random choices", "anchors": ["sample.go: UniformSample.Update, Clear, Values"]}
{"id": "C21", "title": "Uniform sampling is uniform", "statement": "If the random source is uniform then after n>=k updates every k-element subset of the update positions is equally likely to be the reservoir, hence every update is retained with probability exactly k/n; interleaved Percentile reads (which reorder the reservoir) do not change this.", "quantifier": "all k, all n, all subsets, all interleaved percentile reads", "why_tests_cant": "a probability claim over all outcomes; a test can only estimate frequencies", "anchors": ["sample.go: UniformSample.Update"]}
{"id": "C22", "title": "Count counts updates", "statement": "Count() of a sample or histogram is the number of Update calls since construction or the last Clear, independently of random choices, evictions and rescaling.", "quantifier": "all histories on both sample kinds", "why_tests_cant": "unbounded histories", "anchors": ["sample.go: UniformSample.Count, ExpDecaySample.Count", "histogram.go: StandardHistogram.Count"]}
{"id": "C23", "title": "Update never panics on a uniform sample", "statement": "For every reservoir size k>=0 and every history of fewer than 2^63 updates, Update on a UniformSample returns normally; a negative size panics at construction.", "quantifier": "all sizes, all histories", "why_tests_cant": "edge sizes (0, negative) and unbounded histories; rand.Int63n panics on a non-positive argument", "anchors": ["sample.go: NewUniformSample, UniformSample.Update"]}
{"id": "C24", "title": "ExpDecaySample never exceeds its reservoir and never panics", "statement": "For every reservoir size, Update on an ExpDecaySample returns normally, and after any history Size() = min(number of updates since the last Clear, reservoir size).", "quantifier": "all reservoir sizes, all histories of updates at arbitrary times, clears, and rescales, all random outcomes, all key values including NaN and infinities", "why_tests_cant": "the heap writes through a fixed-capacity slice: one push too many panics only in specific states", "anchors": ["sample.go: ExpDecaySample.update, Clear, expDecaySampleHeap.Push, Pop, up, down"]}
{"id": "C25", "title": "ExpDecaySample only contains values it was given, and always the newest", "statement": "Values() is a sub-multiset of the values updated since the last Clear and contains the most recent update; while not full it contains all of them.", "quantifier": "all reservoir sizes >=1, all histories, times and random outcomes, whatever the floating-point keys are", "why_tests_cant": "unbounded histories including in-place rescaling through an aliased slice", "anchors": ["sample.go: ExpDecaySample.update, Values"]}
{"id": "C26", "title": "The evicted value is the one of lowest priority", "statement": "When a full ExpDecaySample takes an update, the value it drops has minimal priority among those held.", "quantifier": "all histories, all keys that are not NaN", "why_tests_cant": "heap order must hold for all heap shapes", "anchors": ["sample.go: expDecaySampleHeap.Push, Pop, up, down"]}
{"id": "C27", "title": "Rescaling is invisible: the reservoir is the newest value plus the top k-1 priorities", "statement": "In exact arithmetic, after any sequence of updates at arbitrary times t_i with random draws u_i, the k-reservoir consists of the newest update plus k-1 of the earlier ones such that none of the dropped ones has a higher forward-decay weight exp(alpha*t_i)/u_i; how many hourly rescales happened and when makes no difference.", "quantifier": "all reservoir sizes, all update times (also out of order), all random draws, all numbers of rescales", "why_tests_cant": "needs arbitrarily long histories spanning many rescale thresholds", "anchors": ["sample.go: ExpDecaySample.update"]}
{"id": "C28", "title": "Rescaling in place loses nothing", "statement": "The rescale loop reads the old heap slice while pushing into the same backing array; after it the sample holds exactly the same values as before it.", "quantifier": "all heap contents, all keys", "why_tests_cant": "aliasing between the range slice and the pushes: correctness depends on the order of reads and writes for every size", "anchors": ["sample.go: ExpDecaySample.update, expDecaySampleHeap.Values, Clear, Push"]}
{"id": "C29", "title": "Priorities stay ordered floats under IEEE arithmetic", "statement": "The stored priorities are never NaN, so eviction remains by priority, however long the sample has been idle between updates.", "quantifier": "all update times, all random draws in [0,1), IEEE double arithmetic", "why_tests_cant": "needs idle periods of many hours and extreme random draws", "anchors": ["sample.go: ExpDecaySample.update"]}
{"id": "C30", "title": "EWMA follows its recurrence", "statement": "After a history of Update and Tick calls, Rate() is 0 before the first Tick, the first interval's events/5s right after it, and then r := r + alpha*(events/5s - r) at each Tick; i.e. the exponentially weighted average of the per-interval rates with weights alpha*(1-alpha)^j.", "quantifier": "all histories of Update/Tick, all alpha", "why_tests_cant": "unbounded histories; closed form for every length", "anchors": ["ewma.go: StandardEWMA.Tick, Update, Rate, fetchInstantRate, updateRate"]}
{"id": "C31", "title": "EWMA rates stay within the observed rates", "statement": "If every Update is non-negative and the events of each interval add up to at most MaxInt64, then Rate() is never negative and never exceeds the largest per-interval rate seen, also under IEEE rounding, for the three standard alphas.", "quantifier": "all histories with non-negative updates whose interval totals fit in int64", "why_tests_cant": "rounding error accumulates over unbounded histories", "anchors": ["ewma.go: StandardEWMA.Tick, updateRate"]}
{"id": "C32", "title": "An idle EWMA decays exponentially with its time constant", "statement": "With no events, n Ticks multiply the rate by (1-alpha)^n; for NewEWMA1/5/15 (5-second ticks) that is exp(-n*5s/M min) for M=1,5,15, so the rate tends to 0.", "quantifier": "all starting states, all n, the three constructors", "why_tests_cant": "a limit statement over all n", "anchors": ["ewma.go: NewEWMA1, NewEWMA5, NewEWMA15, StandardEWMA.Tick"]}
{"id": "C33", "title": "No event is lost or counted twice by an EWMA", "statement": "Under every interleaving of any number of concurrent Update calls with Ticks, the events consumed by ticks plus the events still pending equal the events passed to Update (mod 2^64).", "quantifier": "all numbers of updaters and tickers, all interleavings of the individual atomic operations", "why_tests_cant": "schedules are unbounded; the load and the subtract in a Tick are two separate atomic operations", "anchors": ["ewma.go: StandardEWMA.fetchInstantRate, Update"]}
{"id": "C34", "title": "Tick is atomic with respect to other Ticks", "statement": "Concurrent Ticks on one EWMA behave as if executed one after the other: no tick sees a half-initialised rate, none is overwritten, and non-negative updates never produce a negative interval rate.", "quantifier": "all interleavings of concurrent Ticks and Updates", "why_tests_cant": "needs specific interleavings of individual atomic operations", "anchors": ["ewma.go: StandardEWMA.Tick, fetchInstantRate, updateRate"]}
{"id": "C35", "title": "Meter Count is the sum of Marks before Stop", "statement": "Count() of a meter is the wrapped sum of all Mark(n) arguments made before Stop; Marks after Stop change nothing, Stop is idempotent.", "quantifier": "all histories of Mark/Stop/tick", "why_tests_cant": "unbounded histories", "anchors": ["meter.go: StandardMeter.Mark, Count, Stop"]}
{"id": "C36", "title": "Concurrent Mark and Stop", "statement": "Under every interleaving of concurrent Mark and Stop calls, a Mark that starts after Stop's effect is dropped, a Mark that completed before it is counted in full, and one overlapping it is either counted in full or not at all.", "quantifier": "all numbers of goroutines and interleavings of atomic steps", "why_tests_cant": "schedules are unbounded", "anchors": ["meter.go: StandardMeter.Mark, Stop"]}
{"id": "C37", "title": "Exactly the live meters are ticked", "statement": "After any history of meter/timer constructions and Stops (direct or through Unregister/UnregisterAll), a tick of the shared clock ticks every constructed, not-yet-stopped meter exactly once and no other; a stopped meter's rates never change again.", "quantifier": "all histories of NewMeter/NewTimer/Stop/Unregister/ticks", "why_tests_cant": "unbounded histories over a shared global set", "anchors": ["meter.go: NewMeter, StandardMeter.Stop, meterArbiter.tickMeters", "timer.go: StandardTimer.Stop", "registry.go: StandardRegistry.stop"]}
{"id": "C38", "title": "The tick goroutine is started exactly once", "statement": "However many meters are created from however many goroutines, at most one ticking goroutine is ever started, and it is started as soon as one meter exists.", "quantifier": "all histories and interleavings of NewMeter and Stop", "why_tests_cant": "schedules are unbounded", "anchors": ["meter.go: NewMeter, meterArbiter.started"]}
{"id": "C39", "title": "Meter rates are those of its three moving averages", "statement": "After any history, Rate1/Rate5/Rate15 of a meter equal the 1/5/15-minute moving averages of its marked events as of the last Mark or tick, and RateMean is Count divided by the seconds since construction as of that moment; all four are 0 before.", "quantifier": "all histories of Mark/tick at arbitrary times", "why_tests_cant": "unbounded histories; swapped averages agree on simple tests", "anchors": ["meter.go: StandardMeter.Mark, tick, updateSnapshot"]}
{"id": "C40", "title": "A meter snapshot is a consistent cut", "statement": "Meter.Snapshot() returns a count and rates that the meter had simultaneously, also while other goroutines Mark and the clock ticks.", "quantifier": "all interleavings of Snapshot with Mark and tick", "why_tests_cant": "needs specific interleavings of atomic loads and stores", "anchors": ["meter.go: StandardMeter.Snapshot, updateSnapshot"]}
{"id": "C41", "title": "Histogram statistics are those of its sample", "statement": "Every accessor of a histogram and of its snapshot returns what the same accessor of the underlying sample (snapshot) returns; Update and Clear act exactly on that sample.", "quantifier": "all samples, all histories", "why_tests_cant": "ranges over all sample kinds and states; swapped delegations coincide on symmetric data", "anchors": ["histogram.go: StandardHistogram, HistogramSnapshot"]}
{"id": "C42", "title": "Timer updates record one duration and one event", "statement": "Each Update/UpdateSince/Time of a timer adds exactly one value (the duration in ns) to its histogram and one event to its meter; so Count() is the number of events ever recorded, and before Stop the meter has counted the same number.", "quantifier": "all histories, all durations", "why_tests_cant": "unbounded histories", "anchors": ["timer.go: StandardTimer.Update, UpdateSince, Time, Count"]}
{"id": "C43", "title": "A timer snapshot is consistent under concurrency", "statement": "Under every interleaving of concurrent Update/UpdateSince/Time/Snapshot calls on one timer, the histogram part and the meter part of every snapshot reflect exactly the same set of events.", "quantifier": "all numbers of goroutines, all interleavings of the inner steps", "why_tests_cant": "schedules are unbounded", "anchors": ["timer.go: StandardTimer.Update, UpdateSince, Snapshot"]}
{"id": "C44", "title": "Timer.Time runs the function exactly once", "statement": "Time(f) calls f exactly once and, if f returns, records its duration; if f panics nothing is recorded.", "quantifier": "all timers obtainable from NewTimer/NewCustomTimer, all functions f", "why_tests_cant": "ranges over configurations (nil metrics) and functions", "anchors": ["timer.go: StandardTimer.Time, NilTimer.Time"]}
{"id": "C45", "title": "Stopping a timer stops only its rates", "statement": "After Stop() the timer's meter never counts or ticks again while durations are still recorded in the histogram.", "quantifier": "all histories", "why_tests_cant": "unbounded histories", "anchors": ["timer.go: StandardTimer.Stop, Update"]}
{"id": "C46", "title": "A registry is a map from names to metrics", "statement": "For every history of Register/Get/GetOrRegister/Unregister/UnregisterAll, the registry behaves as a partial map: Get returns the metric most recently bound to that exact name and not since unregistered, or nil.", "quantifier": "all histories, all names (arbitrary byte strings)", "why_tests_cant": "unbounded histories and names", "anchors": ["registry.go: StandardRegistry"]}
{"id": "C47", "title": "First registration wins", "statement": "Registering under a taken name returns DuplicateMetric carrying that name and changes nothing (MustRegister panics); the old metric stays until Unregister.", "quantifier": "all registries, names and metrics", "why_tests_cant": "all states", "anchors": ["registry.go: StandardRegistry.Register, register, MustRegister"]}
{"id": "C48", "title": "Only metrics get in", "statement": "Every value reachable through Get/Each is one of the seven metric kinds; Register of anything else is silently ignored with a nil error, and GetOrRegister of it returns it without storing it.", "quantifier": "all histories, all dynamic types", "why_tests_cant": "open-ended set of dynamic types", "anchors": ["registry.go: StandardRegistry.register, GetOrRegister"]}
{"id": "C49", "title": "Lazy constructors run at most once", "statement": "GetOrRegister with a constructor function calls it exactly once if the name is free and never otherwise, so a losing call never creates (and leaks) a meter.", "quantifier": "all histories", "why_tests_cant": "unbounded histories; leak is invisible to a functional test", "anchors": ["registry.go: StandardRegistry.GetOrRegister"]}
{"id": "C50", "title": "Registry operations are linearizable", "statement": "Every concurrent execution of Register/Get/GetOrRegister/Unregister/UnregisterAll/Each on one registry is equivalent to a sequential one in which each call takes effect atomically at some point between its invocation and its return.", "quantifier": "all numbers of goroutines, all programs, all interleavings of lock and map steps", "why_tests_cant": "schedules are unbounded; the double-checked lookup in GetOrRegister has a window between the two locks", "anchors": ["registry.go: StandardRegistry (all methods), RWMutex use"]}
{"id": "C51", "title": "Concurrent GetOrRegister agree", "statement": "If several goroutines call GetOrRegister with the same free name and nobody unregisters it, all of them get the same metric object, exactly one constructor call is made and Get returns that metric afterwards.", "quantifier": "all numbers of goroutines and interleavings", "why_tests_cant": "schedules are unbounded", "anchors": ["registry.go: StandardRegistry.GetOrRegister"]}
{"id": "C52", "title": "Each visits every metric exactly once", "statement": "Each(f) calls f exactly once for every (name, metric) registered at one instant during the call and for nothing else, even if f itself or other goroutines register and unregister metrics meanwhile.", "quantifier": "all registries, all map iteration orders, all callbacks that mutate the registry", "why_tests_cant": "iteration order and callback behaviour are arbitrary", "anchors": ["registry.go: StandardRegistry.Each, registered"]}
{"id": "C53", "title": "Unregistering stops and frees", "statement": "Unregister(name) removes exactly that entry and stops the metric if it is a meter or timer; UnregisterAll removes and stops everything; afterwards no meter that was only reachable through the removed entries is scheduled for ticking.", "quantifier": "all registries and iteration orders", "why_tests_cant": "all states; a leak is invisible functionally", "anchors": ["registry.go: Unregister, UnregisterAll, stop"]}
{"id": "C54", "title": "RunHealthchecks checks every healthcheck once", "statement": "RunHealthchecks runs Check exactly once on each registered healthcheck and touches no other metric.", "quantifier": "all registries, all iteration orders", "why_tests_cant": "all registry contents", "anchors": ["registry.go: StandardRegistry.RunHealthchecks"]}
{"id": "C55", "title": "Callbacks may use the registry", "statement": "A user function invoked by the registry (Each callback, healthcheck function, lazy constructor) may itself call the registry without deadlock, even while other goroutines use it.", "quantifier": "all callbacks, all interleavings, Go RWMutex semantics (pending writer blocks new readers)", "why_tests_cant": "a deadlock needs a specific interleaving with a waiting writer", "anchors": ["registry.go: RunHealthchecks, GetOrRegister, Each"]}
{"id": "C56", "title": "GetAll reports every metric with its full field set", "statement": "GetAll() has exactly the registered names as keys, and for each the field set of its kind with the values of the metric's accessors (from one snapshot for histograms, meters and timers), independently of iteration order.", "quantifier": "all registries, all iteration orders", "why_tests_cant": "all registry contents", "anchors": ["registry.go: StandardRegistry.GetAll"]}
{"id": "C57", "title": "Typed getters", "statement": "GetOrRegisterX returns the registered metric if it is an X, creates one if the name is free, and panics (leaving the registry unchanged) if the name is bound to another kind; NewRegisteredX under a taken name returns a fresh metric that is not in the registry.", "quantifier": "all registries, names and kinds", "why_tests_cant": "all states", "anchors": ["counter.go: GetOrRegisterCounter, NewRegisteredCounter", "gauge.go", "gauge_float64.go", "histogram.go", "meter.go", "timer.go"]}
{"id": "C58", "title": "Prefixed registries are name translations", "statement": "Through any nesting of prefixed registries, Get/Register/GetOrRegister/Unregister of name act on the base registry exactly as the same call with the concatenation of all prefixes (outermost-parent first) and name.", "quantifier": "all nesting depths, all prefixes and names, all histories", "why_tests_cant": "unbounded nesting", "anchors": ["registry.go: PrefixedRegistry"]}
{"id": "C59", "title": "Each on a prefixed registry is the prefix filter", "statement": "Each on a prefixed registry visits exactly the base entries whose name starts with the full prefix, with their full names, each once; every metric registered through the prefixed registry and not removed is visited.", "quantifier": "all nestings, all base contents", "why_tests_cant": "unbounded nesting and contents", "anchors": ["registry.go: PrefixedRegistry.Each, findPrefix"]}
{"id": "C60", "title": "Bulk operations on a prefixed child are confined to it", "statement": "UnregisterAll, RunHealthchecks and GetAll of a prefixed child registry affect and show only the metrics under its prefix.", "quantifier": "all parents with other metrics", "why_tests_cant": "needs a parent with foreign metrics; must hold for all of them", "anchors": ["registry.go: PrefixedRegistry.UnregisterAll, GetAll, RunHealthchecks"]}
{"id": "C61", "title": "WriteOnce is deterministic and sorted", "statement": "WriteOnce writes every metric of the registry exactly once in strictly increasing byte order of the names; the output does not depend on map iteration order or on the sort algorithm.", "quantifier": "all registries, all iteration orders, all correct sort algorithms", "why_tests_cant": "iteration order is randomised by the runtime", "anchors": ["writer.go: WriteOnce, namedMetricSlice.Less"]}
{"id": "C62", "title": "Every exporter reports every field of every metric from one snapshot", "statement": "WriteOnce, Log, Syslog, Graphite, OpenTSDB, StatHat and expvar report for each metric the full set of statistics of its kind, each label next to the statistic it names.", "quantifier": "all registries, all metric states", "why_tests_cant": "a swapped or stale field shows only on data where the statistics differ", "anchors": ["writer.go", "log.go", "syslog.go", "graphite.go", "opentsdb.go", "stathat/stathat.go", "exp/exp.go"]}
{"id": "C63", "title": "Timer statistics are exported in the configured duration unit", "statement": "In Graphite, OpenTSDB and LogScaled output every duration statistic of a timer (min, max, mean, std-dev, all percentiles) is divided by the configured unit, and rates and counts are not.", "quantifier": "all timers, all units", "why_tests_cant": "an unscaled field is visible only for a unit other than 1ns", "anchors": ["graphite.go: graphite", "opentsdb.go: openTSDB", "log.go: LogScaledOnCue"]}
{"id": "C64", "title": "Distinct percentiles get distinct Graphite paths", "statement": "The path component built from a percentile identifies it: different configured percentiles never produce the same metric path.", "quantifier": "all pairs of distinct decimal percentiles", "why_tests_cant": "needs a colliding pair", "anchors": ["graphite.go: graphite (key)"]}
{"id": "C65", "title": "JSON export is complete", "statement": "WriteJSONOnce writes the JSON of all metrics of the registry, whatever their current values.", "quantifier": "all registries and metric values", "why_tests_cant": "needs a NaN or infinite reading", "anchors": ["json.go: WriteJSONOnce, MarshalJSON", "registry.go: GetAll"]}
{"id": "C66", "title": "The expvar endpoint keeps working", "statement": "Every request to the expvar handler publishes the current registry and returns, for every registry content and every history of registrations, also from several handlers at once.", "quantifier": "all registries, histories and interleavings of requests", "why_tests_cant": "needs kind changes or healthchecks across requests; interleavings", "anchors": ["exp/exp.go: expHandler, getInt, getFloat, syncToExpvar"]}
{"id": "C67", "title": "Librato batches are aligned and complete", "statement": "BuildRequest stamps a multiple of the interval not after now and less than one interval before it, emits exactly one counter per non-zero counter, meter and timer and the documented gauges for the rest, for every interval.", "quantifier": "all intervals, times and registries", "why_tests_cant": "edge intervals below one second", "anchors": ["librato/librato.go: BuildRequest, NewReporter"]}
{"id": "C68", "title": "Librato sum_squares is the sum of squares", "statement": "The sum_squares reported for a histogram or timer is the sum of the squares of its values.", "quantifier": "all samples", "why_tests_cant": "agrees for one value or constant data", "anchors": ["librato/librato.go: sumSquares, sumSquaresTimer"]}
{"id": "C69", "title": "Every GC pause is recorded exactly once", "statement": "If at most 256 GCs happen between consecutive captures, the pause histogram receives the pause of every GC exactly once, over any number of captures and across uint32 wrap-around of NumGC; if more (fewer than 2^32) happen it receives exactly the latest 256.", "quantifier": "all histories of GCs and captures", "why_tests_cant": "ring-buffer index arithmetic for all offsets and wrap-arounds", "anchors": ["runtime.go: CaptureRuntimeMemStatsOnce"]}
{"id": "C70", "title": "Runtime deltas add up", "statement": "The values reported for Frees, Lookups, Mallocs, NumGC and NumCgoCall over consecutive captures sum to the total change of the runtime counter.", "quantifier": "all histories of captures, all uint64/uint32 values", "why_tests_cant": "unbounded histories and wrap-around", "anchors": ["runtime.go: CaptureRuntimeMemStatsOnce"]}
{"id": "C71", "title": "Runtime metrics are registered in every registry given", "statement": "After RegisterRuntimeMemStats(r) (RegisterDebugGCStats(r)) the runtime metrics are present in r.", "quantifier": "all sequences of registries", "why_tests_cant": "needs more than one registry in one process", "anchors": ["runtime.go: RegisterRuntimeMemStats", "debug.go: RegisterDebugGCStats"]}
{"id": "C72", "title": "No lock-order deadlock inside the library", "statement": "Concurrent use of registries, meters, timers, samples and the ticking goroutine never deadlocks on the library's own locks (user callbacks excluded).", "quantifier": "all programs of library calls by any number of goroutines, all interleavings", "why_tests_cant": "deadlocks need specific interleavings of nested locks", "anchors": ["registry.go", "meter.go", "timer.go", "sample.go", "ewma.go: all mutexes"]}
{"id": "C73", "title": "Debug GC pauses are never recorded twice", "statement": "Over any sequence of CaptureDebugGCStatsOnce calls the pause histogram receives, for each capture at which a new GC has finished since the previous capture, the pause of the latest GC, and nothing else: no pause is recorded twice, and of several GCs between captures only the last is recorded.", "quantifier": "all histories of GCs (ending at different times) and captures", "why_tests_cant": "needs control over when GCs happen", "anchors": ["debug.go: CaptureDebugGCStatsOnce"]}
{"id": "C74", "title": "Registered runtime metrics show what the runtime reported", "statement": "After RegisterRuntimeMemStats(r) on a registry with the names free and any number of captures, no capture panics and the registry shows under each documented name the value last read (its change for the five delta counters), the number of recorded pauses and the number of captures; capturing before registering panics.", "quantifier": "all reachable states, all registries, all numbers of captures and all values read", "why_tests_cant": "tests look at a few names and one capture", "anchors": ["runtime.go: RegisterRuntimeMemStats, CaptureRuntimeMemStatsOnce"]}
{"id": "C75", "title": "Simultaneous expvar requests", "statement": "If every expvar name is used by one handler only and always for the same kind of variable (and by no other code), then however many requests run at the same time no request panics, some unfinished request can always go on, each request returns after a bounded number of its own steps having set exactly its variables in order, and a variable shows the value stored last. Two handlers that export the same name can race: one panics while it holds its mutex, and every later request to it hangs.", "quantifier": "all numbers of handlers, goroutines and requests, all interleavings of the lock, Get, Publish and Set steps", "why_tests_cant": "the race between Get and Publish needs a specific interleaving", "anchors": ["exp/exp.go: getInt, getFloat, expHandler, ExpHandler"]}
{"id": "C76", "title": "Exponentially decaying samples prefer recent values", "statement": "After any number of updates of a new or cleared ExpDecaySample, a later update (not earlier on the clock) is at least as likely to be still in the reservoir as an earlier one; strictly more likely if it is later on the clock, alpha is positive and the reservoir has room for at least two but not for all earlier values; updates made at the same time (except the newest, which is always kept) are equally likely to be kept.", "quantifier": "all reservoir sizes, alphas, numbers of updates, times (with rescales in between) and earlier histories; probability over independent uniform draws", "why_tests_cant": "a probability over a continuum of draws; tests see single draws", "anchors": ["sample.go: ExpDecaySample.update, expDecaySampleHeap"]}
{"id": "C77", "title": "Concurrent readers of a snapshot", "statement": "SampleSnapshot's methods take no lock, and Percentile/Percentiles sort the snapshot's slice in place. A method call that runs alone returns the statistic of the snapshot's values. If the values are sorted, or nobody calls Percentile(s), any number of goroutines may call any methods at the same time: every call returns the statistic of the values and the values never change. In general this fails: two concurrent Percentile(s) calls can destroy a value of the snapshot for ever.", "quantifier": "all slices of values, all interleavings of any number of calls at the granularity of single element reads and writes, every in-place sorting algorithm that sorts when run alone and does not write to a sorted slice", "why_tests_cant": "The number of interleavings of element reads and writes is unbounded, and the racy ones are rare; a test only sees the schedule that happened.", "anchors": ["sample.go:SampleSnapshot", "sample.go:SamplePercentiles", "sample.go:int64Slice"]}
{"id": "C78", "title": "Export over a TCP connection", "statement": "GraphiteOnce/OpenTSDBOnce write through a 4096-byte bufio.Writer, flushed after each metric. The buffer is invisible: if the network works and no metric panics, the server receives exactly the printed lines, byte for byte, the function returns nil and closes the connection. Whatever the network does after dialing, the metrics are read in the same way, the server has received a prefix of the lines, the connection is closed exactly once (also on panic). If a metric panics, the lines of all metrics visited before it have been sent. If dialing fails the error is returned and no metric has been touched. Refuted: a nil result does not mean that anything was delivered.", "quantifier": "all registries, all states of metrics, all renderings of numbers, all behaviours of the network (any write may be cut short with an error at any byte)", "why_tests_cant": "Failures at every byte of the stream and every position of the buffer boundary cannot be enumerated by tests.", "anchors": ["graphite.go:graphite", "graphite.go:GraphiteOnce", "opentsdb.go:openTSDB", "opentsdb.go:OpenTSDBOnce"]}
{"id": "C79", "title": "Rounds of the export loops", "statement": "In every export loop (Graphite, OpenTSDB, Librato, StatHat, Log, Syslog, WriteJSON, Write, CaptureDebugGCStats, CaptureRuntimeMemStats) rounds never overlap. A loop driven by time.Tick(d) makes no round if d <= 0, none before d has passed, at most one for each full period, at most L/d + 3 (Log: + 4) within any time L, and after every tick a round follows: a slow round delays and may swallow ticks but never stops the export. LogOnCue makes exactly one round per cue and none after the channel is closed. StatHat leaves a pause of at least d between rounds.", "quantifier": "all periods, all schedules of ticks, rounds of any length", "why_tests_cant": "Timing and the interleaving of ticker, relay goroutine and loop are not under the control of a test.", "anchors": ["graphite.go:GraphiteWithConfig", "opentsdb.go:OpenTSDBWithConfig", "log.go:LogScaled", "log.go:LogScaledOnCue", "writer.go:Write", "json.go:WriteJSON", "syslog.go:Syslog", "stathat/stathat.go:Stathat", "librato/librato.go:Run"]}
{"id": "C80", "title": "Posting to Librato", "statement": "PostMetrics posts a non-empty batch of finite numbers exactly once and returns nil if and only if the server answered 200; a status other than 200 is returned as an error. An empty batch is not posted. A single number that is NaN or infinite prevents the whole batch from being posted. An error does not end Run: whatever happened in earlier rounds, the batch of a later round is posted. Refuted: connections are not given back, since the response body is never closed.", "quantifier": "all batches, all answers of the server, all histories of rounds", "why_tests_cant": "Tests cannot cover all sequences of failures of the server, nor observe a leak that shows only after many rounds.", "anchors": ["librato/client.go:PostMetrics", "librato/librato.go:Run"]}
{"id": "C81", "title": "Healthchecks used by several goroutines", "statement": "A StandardHealthcheck has no lock. Whatever the interleaving of Healthy, Unhealthy, Check and reports by exporters, a report that ends shows the last verdict given by anybody until then, its own Check included. GetAll (and with it JSON export) can panic: it calls Error() twice and dereferences the second answer. It panics only if another goroutine declares the healthcheck healthy after the call's own Check and before its end; the text exporters, which call Error() once, never panic.", "quantifier": "all numbers of goroutines, all interleavings of field reads and writes, all sequences of verdicts given by the user function", "why_tests_cant": "The window between the two calls of Error() is a few instructions; a test practically never hits it.", "anchors": ["registry.go:GetAll", "healthcheck.go:StandardHealthcheck", "writer.go:WriteOnce", "log.go:LogScaledOnCue", "syslog.go:Syslog"]}
{"id": "C82", "title": "Samples used by several goroutines", "statement": "Every method of a UniformSample and of an ExpDecaySample behaves, in every interleaving with other calls on the same sample, as if it had run by itself at one moment between its invocation and its return. Two goroutines are never at the fields of a sample at once, and as long as a call has not returned some goroutine can go on. When all calls have returned, the sample is one that the same Update and Clear calls, made one after the other in some order, lead to. In particular no update of a uniform sample is lost (up to the reservoir size), and Values never returns anything that was not given by an update invoked before.", "quantifier": "all numbers of goroutines, all interleavings of the steps of the methods (single reads and writes of fields and slice elements, statements for ExpDecaySample), all calls, values, clock readings and random draws, all in-place sorting algorithms", "why_tests_cant": "A test runs a handful of schedules; a lock released too early or a field read before the lock shows up only in rare interleavings. The race detector reports unordered accesses, not wrong results.", "anchors": ["sample.go:UniformSample", "sample.go:ExpDecaySample", "histogram.go:StandardHistogram"]}
{"id": "C83", "title": "Accuracy of the float64 statistics", "statement": "With u = 2^-53 and values whose sum fits an int64: SampleMean differs from the exact mean by at most (2u + u^2) times the exact mean. For values of at most 2^53 in magnitude SampleVariance is between (1-u)^(n+4) V and (1+u)^(n+4) (V + ((2u+u^2) mean)^2), V the exact variance; the square of SampleStdDev obeys the same bounds with n+6. For 0 <= p <= 1 and at most 2^52 values of at most b <= 2^52, sorted neighbours at most g apart, SamplePercentile differs from the value interpolated at rank p(n+1) by at most u((n+2)g + b).", "quantifier": "all slices of values (with the stated size limits), all p between 0 and 1", "why_tests_cant": "Tests compare a few results with a tolerance chosen by hand; a formula that loses digits (for instance mean of squares minus square of the mean) passes them and is wrong by orders of magnitude on other data.", "anchors": ["sample.go:SampleMean", "sample.go:SampleVariance", "sample.go:SampleStdDev", "sample.go:SamplePercentiles"]}
{"id": "C84", "title": "Rounding errors of moving averages do not accumulate", "statement": "With non-negative updates and at most B events per five-second interval, the float64 Rate() of an EWMA with factor alpha in (0, 1/4] differs from the exact moving average of the interval rates by at most u B / alpha, u = 2^-53, however many ticks there were. For NewEWMA1, NewEWMA5, NewEWMA15 and the three rates of a meter the difference from the moving average with the real factor 1 - exp(-5/(60 m)) is at most 20 m u B. RateMean has a relative error of at most 5u.", "quantifier": "all histories of updates and ticks (marks, ticks and stops for meters) of any length, all factors in (0, 1/4], all bounds B between 1 and 2^63 - 1", "why_tests_cant": "A drift grows over weeks of ticks; a test runs a few of them.", "anchors": ["ewma.go:StandardEWMA", "meter.go:StandardMeter"]}
{"id": "C85", "title": "What Graphite and OpenTSDB servers read back", "statement": "GraphiteOnce or an OpenTSDB round returns nil over a working connection, and prefix, metric names, host and percentile texts contain no spaces or control characters. Then a server that splits the received bytes into lines and words and parses decimal numbers reads, for every metric of the registry, exactly one sample per statistic (and per configured percentile) under the path prefix.name.label, with the time of the export (and the host tag): integers exactly, statistics to within 0.005, float gauges to within 0.0000005, NaN and infinities as such. No two samples have the same path (Graphite: if the percentiles give distinct texts). Names are not quoted: a name with a newline forges a sample of a metric that does not exist.", "quantifier": "all histories, registries (also prefixed ones), configurations, values including NaN and infinities, and contents of the registry", "why_tests_cant": "Tests look at one line for one value; rounding at ties, carries such as 0.995, minimum int64, separators and the interplay of all metrics of a registry over buffered writes are infinitely many cases.", "anchors": ["graphite.go:graphite", "opentsdb.go:openTSDB"]}
{"id": "C86", "title": "Data races", "statement": "A program uses the library from any number of goroutines, sharing metrics, samples, snapshots and registries in any way, with callbacks into its own code and with recovered panics. In every execution, every data race (conflicting accesses not ordered by the happens-before relation of the Go memory model) is on one of: the verdict of a healthcheck, the elements of a slice (of a sample snapshot, or returned by Values), the package variables UseNilMetrics and shortHostName. So counters, gauges, EWMAs, meters, samples, histograms, timers, registries and the meter arbiter are race free, and a program that does not write these fields after initialisation, or uses each in one goroutine only, has no data race at all. The construction of an object happens before everything a goroutine does with it, however it got the pointer. The exceptions are real: there are executions with a race on each.", "quantifier": "all executions (interleavings) of all programs over the API, any number of goroutines and objects, also when calls panic", "why_tests_cant": "The race detector only sees the interleavings and call combinations of the tests that were run; a lock missing on one path is a race only in rare schedules.", "anchors": ["counter.go:StandardCounter", "gauge.go:StandardGauge", "ewma.go:StandardEWMA", "meter.go:StandardMeter", "meter.go:meterArbiter", "sample.go:ExpDecaySample", "sample.go:UniformSample", "sample.go:SampleSnapshot", "histogram.go:StandardHistogram", "timer.go:StandardTimer", "registry.go:StandardRegistry", "registry.go:PrefixedRegistry", "healthcheck.go:StandardHealthcheck", "opentsdb.go:getShortHostname"]}
{"id": "C87", "title": "Alignment of atomic operations", "statement": "On 32-bit platforms 64-bit atomic operations panic on addresses that are not multiples of 8, and only the first word of an allocated struct is sure to be aligned. In every execution, on 32-bit and 64-bit platforms, every atomic operation of the library is at an address that is a multiple of its width.", "quantifier": "all executions of all programs over the API, both platforms, all addresses the allocator may choose", "why_tests_cant": "Tests run on 64-bit machines, where every order of the fields works.", "anchors": ["counter.go:StandardCounter", "gauge.go:StandardGauge", "gauge_float64.go:StandardGaugeFloat64", "ewma.go:StandardEWMA", "meter.go:MeterSnapshot", "meter.go:StandardMeter"]}
{"id": "C88", "title": "Unit labels of timers", "statement": "Durations of timers are shown to people with the name of a unit. The suffix that LogScaled prints after them is the name of the unit that they were divided by if and only if the scale is 1ns, 1µs, 1ms or 1s; LogScaled never panics on its scale. With these scales every statistic of every timer has a line, in which durations (and nothing else) are divided by the unit and followed by its name. The attributes that Librato gets for timers say that values are divided by the duration given to the reporter; the unit displayed is the one that they are in if and only if that duration is 1ns, 1µs, 1ms or 1s. For all other scales: exactly which unit is claimed.", "quantifier": "all int64 durations as scale; all states of the registry", "why_tests_cant": "Tests use one or two of 2^64 scales; whether the suffix is a right unit depends on the digits of the printed duration.", "anchors": ["log.go:LogScaledOnCue", "librato/librato.go:translateTimerAttributes", "librato/librato.go:unitRegexp"]}
{"id": "C89", "title": "Names of percentiles in Librato", "statement": "For every requested percentile, each histogram and timer that has values sends one gauge with the value of that percentile; its name tells which percentile it is, and different percentiles have different names.", "quantifier": "all lists of percentiles, all states of the registry, float64 arithmetic", "why_tests_cant": "Which percentiles get the same name depends on rounding of p and of 100*p in float64; tests try a few percentiles.", "anchors": ["librato/librato.go:BuildRequest"]}
{"id": "C90", "title": "What a JSON reader finds in the output of WriteJSONOnce", "statement": "Whatever bytes the metric names consist of, the output of WriteJSONOnce, read by a parser for the JSON grammar, is an object with one member per metric of the registry and nothing else (no name can break out of its string), each of them an object with one member per statistic, whose number is that of the accessor: integers exactly, floats such that the nearest float64 is the same; or the output is empty, which happens only if some value is NaN or infinite. If the names are UTF-8, looking a name up gives exactly one object, and looking a statistic up in it exactly one value. Names that are not UTF-8 can collide.", "quantifier": "all histories of operations, all names (byte strings), all float64 values", "why_tests_cant": "Escaping has to be right for all byte strings, number formats for all 2^64 floats; tests try a few names and numbers.", "anchors": ["json.go:MarshalJSON", "json.go:WriteJSONOnce", "json.go:GetAll"]}
{"id": "C91", "title": "When the expvar response is JSON", "statement": "The response of the expvar handler is a JSON text exactly if every variable name (of metrics and of other code) is UTF-8 without control characters other than \\b, \\t, \\n, \\f, \\r, without U+007F and without unprintable characters beyond the basic plane, and no variable is NaN or infinite; one offending variable spoils the whole response. If it is JSON, a reader finds each variable exactly once, with its current value, and nothing else.", "quantifier": "all variable tables, all names (byte strings), all float64 values, all orders in which expvar lists the names; for the metrics, all programs as in C66", "why_tests_cant": "%q follows Go syntax, not JSON; for which of all strings the two agree, no finite set of tests shows.", "anchors": ["exp/exp.go:expHandler", "exp/exp.go:syncToExpvar"]}
{"id": "C92", "title": "What the Librato server reads in a request", "statement": "Whatever bytes metric names, namespace and source consist of, every body that Run ever posts, read by a parser for the JSON grammar, is exactly a batch made by BuildRequest in one of the rounds: the members measure_time, source, counters and gauges (an empty list is left out), and in these one object per measurement with exactly its keys, integers exact, floats such that the nearest float64 is the same, and the display attributes. Followed back through BuildRequest: for every metric of the registry the body has the documented counters and gauges with the values of the accessors, and nothing else. json.Marshal fails exactly if some number is NaN or infinite. Names that are UTF-8 are told apart; others can collide.", "quantifier": "all histories of operations, all numbers of rounds and server answers, all names (byte strings), all float64 values", "why_tests_cant": "The server is remote; whether every possible name and number survives the encoding can only be sampled.", "anchors": ["librato/client.go:Batch", "librato/client.go:Measurement", "librato/client.go:PostMetrics", "librato/librato.go:BuildRequest", "librato/librato.go:translateTimerAttributes"]}
{"id": "C93", "title": "Metrics do not influence each other", "statement": "Every metric changes only through operations on it: a history in which no operation touches it (no call on an object sharing parts with it, no tick of a live meter in it, no RunHealthchecks of a registry with it, no Unregister that stops it, no write to the slice it reports) leaves all its accessors and Values() as they were. What a metric is made of never changes. A constructor makes everything anew apart from the sample, histogram, meter or slice it is given; so two metrics made by separate constructor calls that are given nothing never share anything, and at no later moment does a call on one change what the other reports.", "quantifier": "all histories of operations on all metrics, registries and slices; all pairs of metrics; all environments", "why_tests_cant": "Tests use a handful of metrics; that no state is shared between any two metrics after any history is a statement about all of them.", "anchors": ["counter.go:NewCounter", "meter.go:NewMeter", "meter.go:tickMeters", "timer.go:NewTimer", "timer.go:NewCustomTimer", "histogram.go:NewHistogram", "sample.go:NewSampleSnapshot", "registry.go:UnregisterAll", "registry.go:RunHealthchecks"]}
{"id": "C94", "title": "What a uniform sample reports estimates all values fed", "statement": "Feed n >= k values (repetitions allowed, percentile reads in between) to a uniform sample of size k. Over the equally likely random outcomes: the mean read is on average exactly the mean of all n values, with mean square error variance*(n-k)/(k(n-1)); the variance read is on average the true variance times n(k-1)/(k(n-1)); the sum read is on average only k/n of the true sum; the share of the values held that meet any condition is on average the true share and is off by eps or more in at most 1/(4 k eps^2) of the outcomes, whatever n; and the p-percentile read exceeds a number y that more than p+1/k+eps of the values do not exceed (or falls below one that more than 1-p+1/k+eps reach) in at most 1/(4 k eps^2) of the outcomes.", "quantifier": "all sizes k >= 1, all n >= k, all values (with k|v| < 2^63 where sums are read), all patterns of percentile reads, all conditions, all p in [0,1], all eps > 0; exact arithmetic", "why_tests_cant": "An average over n! random outcomes and a bound on rare failures cannot be observed by running the code; a biased replacement rule passes every deterministic test.", "anchors": ["sample.go:UniformSample.Update", "sample.go:UniformSample.Mean", "sample.go:UniformSample.Variance", "sample.go:UniformSample.Sum", "sample.go:UniformSample.Percentiles", "sample.go:SampleMean", "sample.go:SampleVariance", "sample.go:SamplePercentiles"]}
{"id": "C95", "title": "Rates of several meters add up and follow the traffic", "statement": "Spread the events of a stream over any number s of meters made before the same tick: at any moment each of Rate1, Rate5, Rate15 of a single meter given the whole stream is the sum of the rates of the s meters (in float64 up to (s+1)*20*m*2^-53*B for m minutes and at most B events per interval, however long it runs). And whatever happened before, if c events fall in each of the next n intervals, the distance of the rate from c/5 per second shrinks by exactly exp(-5n/(60m)); in float64 the rate is within exp(-5n/(60m))*B/5 + 20*m*2^-53*B of it. For meters made later the sum is wrong: such a meter starts with the full rate of its first interval.", "quantifier": "all streams of Mark, tick and Stop, all ways to spread them, all numbers of meters; all earlier histories; exact and IEEE arithmetic", "why_tests_cant": "An identity over all streams and all ways to spread them, with an error bound for runs of any length; tests feed one meter a few ticks.", "anchors": ["meter.go:NewMeter", "meter.go:StandardMeter.Mark", "meter.go:StandardMeter.tick", "meter.go:StandardMeter.updateSnapshot", "ewma.go:StandardEWMA.Tick", "ewma.go:StandardEWMA.Rate", "ewma.go:NewEWMA1"]}
{"id": "C96", "title": "Captures of runtime statistics made by several goroutines", "statement": "CaptureRuntimeMemStatsOnce and CaptureDebugGCStatsOnce may be called by any goroutines as long as the captures do not overlap: the metrics are then called exactly as by a single goroutine, so each collection's pause is recorded once (at most 256 collections between captures). Even if captures overlap, a gauge that shows a statistic as it is only shows numbers the runtime reported, and only reported pauses are recorded. But captures that overlap can lose a pause for ever or record it twice, and the gauges of changes (NumGC, Mallocs, ...) then do not add up; the debug captures can record one pause twice and another never.", "quantifier": "all numbers of goroutines, all interleavings of statements, all answers of the runtime, all numbers of captures", "why_tests_cant": "The functions share package variables without a lock; whether statements interleave badly depends on the scheduler, and no test can run all interleavings.", "anchors": ["runtime.go:CaptureRuntimeMemStatsOnce", "runtime.go:CaptureRuntimeMemStats", "debug.go:CaptureDebugGCStatsOnce", "debug.go:CaptureDebugGCStats"]}
{"id": "C97", "title": "A concurrent program over many metrics behaves as if its calls were made one at a time", "statement": "Any number of goroutines use counters, gauges, float gauges, uniform and exponentially decaying samples and histograms (also several histograms on one sample) at the same time, after any earlier use of the library. Everything the calls return - numbers, statistics, copies of values, snapshots, panics - is what a program would see that makes the calls one at a time, in one order for all metrics in which a call that has returned comes before every call invoked later. So everything that holds for programs that make one call at a time holds for the results of concurrent programs.", "quantifier": "all earlier histories, all numbers of goroutines and metrics, all interleavings of the steps of all methods, all clock readings and random numbers, all sorting algorithms", "why_tests_cant": "An execution is explained by an order of all calls on all metrics; a test sees some executions and has no such order to compare with. That orders per metric combine to one order is a theorem about all executions.", "anchors": ["counter.go:StandardCounter", "gauge.go:StandardGauge", "gauge_float64.go:StandardGaugeFloat64", "sample.go:UniformSample", "sample.go:ExpDecaySample", "histogram.go:StandardHistogram"]}
{"id": "C98", "title": "What can be read in the reports of WriteOnce, Log and Syslog", "statement": "A reader that knows only the layout of the reports (headings and labelled rows, or the words of a message) reads in the bytes written by WriteOnce exactly the metrics of the registry, in the order of their names, each with its kind, its name and all its statistics - integers exactly, other numbers to the digits printed, error texts exactly - if no name and no error text contains a newline. The same holds for what Log and LogScaled write with a scale of 1 ns, 1 us, 1 ms or 1 s, with the durations of timers read in the unit printed after them. The messages of Syslog are read correctly for all names and error texts, except that the name of a healthcheck must not contain a colon. The conditions are needed: a newline in the name of a counter makes the report show two counters with other values, a colon in the name of a healthcheck shows another name, and in all cases a healthcheck that fails with the error text <nil> looks like one that does not fail.", "quantifier": "all histories of the registry, all metrics and values (also infinities and NaN), all names and error texts within the stated conditions, all sorting algorithms and iteration orders", "why_tests_cant": "The reports are free text without quoting; a test compares the text for a few names and numbers. That the text of every registry determines its content is a statement about all of them.", "anchors": ["writer.go:WriteOnce", "log.go:LogScaled", "syslog.go:Syslog"]}
{"id": "C99", "title": "The rates of a meter that several goroutines use at a time", "statement": "Mark and the tick of the clock compute the rates of a meter and store them one by one without a lock. From any moment at which no call is running on, each rate that a meter shows is the one it showed then or one that the moving average belonging to it had since; if a Mark or a tick has returned since, it is the latter; the mean rate likewise is a count that the meter had since, divided by the time since its construction. If all ticks come from one goroutine, the shown rate is the moving average of the events taken by the first ticks, and misses no tick that had returned at a moment at which no call was running. If at most one Mark or tick runs at a time (reads may overlap), the meter shows, between them, exactly what it shows when the same calls are made one after the other. Nothing stronger holds for overlapping calls: the rates need not be up to date when no call is running, for a Mark that overlaps another Mark and a tick can store old rates last; the meter then shows a count of 12, a mean rate that belongs to a count of 5 and a one-minute rate of 0 until the next Mark or tick.", "quantifier": "all interleavings of the atomic steps of any number of goroutines that call Mark, Count, the rates, Snapshot and Stop, and of the ticks, from any quiet state; all clock readings and sizes of marks; the part on single ticks for exact arithmetic", "why_tests_cant": "Which goroutine stores its rates last depends on the schedule; a test sees a few schedules and cannot tell how old a shown rate may be.", "anchors": ["meter.go:StandardMeter.Mark", "meter.go:StandardMeter.updateSnapshot", "meter.go:StandardMeter.tick", "meter.go:StandardMeter.Snapshot", "ewma.go:StandardEWMA.Tick"]}
{"id": "C100", "title": "Exports while other goroutines use the metrics and the registry", "statement": "Other goroutines may use the metrics and the registry in any way while WriteOnce, LogScaled, Syslog, Graphite, OpenTSDB or StatHat export a registry. The output has exactly one block for each metric that was in the registry at one moment, when Each copied its list (also if it is unregistered before it is reported, and nothing for a metric registered later), WriteOnce in the order of the names. Each block shows all statistics of its metric, each beside its own label, with the values that they had together at one moment during the export: the moment of the one call (Count, Value, Error or Snapshot) by which the exporter got at them, for healthchecks after the exporter has called Check. The moments are in the order of the blocks. Updates between the reads of a snapshot, also reads by others that sort shared values, change nothing that is printed. Without other goroutines the output is that of C61 and C62. The moments of different metrics differ: there is a report that is not the report of any moment.", "quantifier": "all histories of the program before and during the export (any operations of other goroutines between any two calls of the exporter), all registries, metrics, sorting algorithms and iteration orders", "why_tests_cant": "A report mixes reads at different times; whether rows of one metric can be torn depends on the schedule, and tests run with very few schedules.", "anchors": ["writer.go:WriteOnce", "log.go:LogScaledOnCue", "syslog.go:Syslog", "graphite.go:graphite", "opentsdb.go:openTSDB", "stathat/stathat.go:sh", "registry.go:Each", "registry.go:registered"]}
{"id": "C101", "title": "GetAll and JSON while other goroutines use the metrics and the registry", "statement": "Other goroutines may use the metrics and the registry in any way while GetAll (or WriteJSONOnce, MarshalJSON) runs. The result has exactly one entry for each metric that was in the registry at one moment, when Each copied its list; called on a prefixed registry, those of the whole underlying registry. Each entry has exactly the fields of its metric's type with the values that they had together at one moment during the call, and these moments are in the order in which the metrics are visited; the error of a healthcheck is one that it had after GetAll called Check. What WriteJSONOnce writes is such a result as JSON text, in which a parser finds exactly these entries, fields and values, or nothing if some value of the result is NaN or infinite. GetAll panics only if one of the calls made meanwhile panics, or if the error of a healthcheck that was there at the first read is gone at the second; the latter can happen although no call panics. Without other goroutines it is the GetAll of C56.", "quantifier": "all histories of the program before and during the call (any operations of other goroutines between any two calls made by GetAll), all registries, metrics and iteration orders", "why_tests_cant": "Whether the fields of one entry can be torn, or GetAll panic, depends on the schedule; tests run with very few schedules.", "anchors": ["registry.go:StandardRegistry.GetAll", "registry.go:PrefixedRegistry.GetAll", "registry.go:Each", "registry.go:registered", "json.go:MarshalJSON", "json.go:WriteJSONOnce"]}
{"id": "C102", "title": "The Librato batch while other goroutines use the metrics and the registry", "statement": "Other goroutines may use the metrics and the registry in any way during BuildRequest. The batch has the counters and gauges of each metric that was in the registry at one moment, when Each copied its list (with the prefix of the registry), and of nothing else, with the names, periods and attributes of C67. The metrics are read one after the other; the numbers of a metric are its numbers at one moment while it is read: its minimum is at most its maximum and only counters with a positive count are in the batch. BuildRequest returns a batch if the interval is at least a second, no requested percentile is NaN and no sample has more values than a slice can have.", "quantifier": "all histories of the program before and during the call (any operations of other goroutines between any two calls made by BuildRequest), all registries, metrics, percentiles, intervals and iteration orders", "why_tests_cant": "Which numbers are read together depends on the schedule; tests run with very few schedules, and on a metric that nobody else uses.", "anchors": ["librato/librato.go:Reporter.BuildRequest", "librato/librato.go:sumSquares", "librato/librato.go:sumSquaresTimer", "registry.go:Each", "registry.go:registered"]}
{"id": "C103", "title": "Concurrent programs with registries behave as if the calls were made one at a time", "statement": "Any number of goroutines use registries (also prefixed ones: Get, Register, GetOrRegister with a value, Unregister, UnregisterAll, Each) and counters, gauges, samples and histograms, in any interleaving of the steps of the code. All that they see, in all registries and metrics together, is what they would see if the calls were made one at a time in an order in which a call that has returned comes before those invoked later: a metric that a goroutine gets from a registry is the one registered last, with the numbers that the calls before have left. The states in between are states of histories of the library, so that all properties of the library used by one goroutine hold for what they see.", "quantifier": "all programs, numbers of goroutines, schedules, registries with any prefixes, values and orders of iteration, after any history of the library; without GetOrRegister with a function, RunHealthchecks, and without calls on meters, timers, snapshots, functional gauges (they may be registered)", "why_tests_cant": "The number of interleavings is unbounded; the race detector and tests with goroutines see a few schedules and cannot check that one order explains what all goroutines saw on all objects.", "anchors": ["registry.go:StandardRegistry", "registry.go:PrefixedRegistry", "counter.go:StandardCounter", "gauge.go:StandardGauge", "gauge_float64.go:StandardGaugeFloat64", "sample.go:UniformSample", "sample.go:ExpDecaySample", "histogram.go:StandardHistogram"]}
{"id": "C104", "title": "Using metrics by name from many goroutines loses nothing", "statement": "Goroutines use metrics by name, as in GetOrRegisterCounter(name, r).Inc(1), and race to create them. If a name is free at the start and nobody unregisters it or registers under it otherwise, it looks as if there was one metric for the name from the start: every use acts on it, in an order in which a use that has returned comes before those that start later. The metric that the registry holds for the name is that one: when all goroutines have finished, the counter it holds shows the sum of all increments and decrements made through the name (modulo 2^64).", "quantifier": "all schedules, numbers of goroutines, names and metrics, including goroutines that use other names and other methods of the registry at the same time", "why_tests_cant": "A lost update needs two goroutines between the read-locked lookup and the write-locked one of GetOrRegister at the same time; tests meet few of the unboundedly many schedules.", "anchors": ["registry.go:StandardRegistry.GetOrRegister", "counter.go:GetOrRegisterCounter", "counter.go:StandardCounter.Inc", "counter.go:NewCounter"]}
{"id": "C105", "title": "Only differences of times matter", "statement": "A program that does the same things, with the same random numbers, any fixed time later or earlier (and passes correspondingly moved instants to UpdateSince) gets exactly the same result from every call: counts, statistics, percentiles, reservoir contents, rates, errors and panics, to the last bit of the floating-point numbers. What the exporters then write, log, send and post is the same too, apart from the timestamps of Graphite, OpenTSDB and Librato.", "quantifier": "all histories of calls with all metrics, samples and registries, all shifts of the clock, every registry and exporter configuration", "why_tests_cant": "It relates two runs of arbitrary length at all clock values; tests run at the time they are run, and a dependency on the absolute time (in a decayed priority, a rescale or a mean rate) would show only years apart.", "anchors": ["sample.go:ExpDecaySample.update", "sample.go:ExpDecaySample.Clear", "meter.go:StandardMeter.updateSnapshot", "timer.go:StandardTimer.UpdateSince", "registry.go:StandardRegistry.GetAll", "writer.go:WriteOnce", "graphite.go:graphite"]}
{"id": "C106", "title": "A cleared metric is like a new one", "statement": "After Clear, a counter, a sample or a histogram behaves exactly like one made at that moment with the same parameters: whatever happened to it before, and whatever the program does with it and with everything that refers to it afterwards, every call returns what it would return with a new one in its place. For an exponentially decaying sample this holds although Clear keeps the array of its heap with the old values and priorities in it; no later operation reads them. Clear itself does not panic on such a metric.", "quantifier": "all histories before and after the Clear, all reservoir sizes and alphas, all random numbers, all instants", "why_tests_cant": "It compares all continuations of two different states, one of which holds arbitrary left-over memory; a test can only look at the values it reads after one particular sequence.", "anchors": ["counter.go:StandardCounter.Clear", "sample.go:ExpDecaySample.Clear", "sample.go:UniformSample.Clear", "sample.go:expDecaySampleHeap.Clear", "histogram.go:StandardHistogram.Clear"]}
{"id": "C107", "title": "Looking at metrics has no influence on what happens later", "statement": "Whether and how often a program reads a metric - an accessor, Snapshot, Values, Sample, or a whole export with WriteOnce, the log, syslog, Graphite, OpenTSDB, StatHat, expvar, GetAll, JSON or Librato exporter - makes no difference to the result of any later call on any object or registry. Partly false: percentiles of a UniformSample put its values in order, after which a new value replaces another one; so does Librato's BuildRequest, which reads the metrics and not snapshots; an export of a metric over a SampleSnapshot puts the program's own slice in order; and exports run healthchecks. It is proved in all other cases.", "quantifier": "all histories before the read, all ways to read, all later histories of any length with all random numbers and times", "why_tests_cant": "It compares what happens after a read with what happens without it, for all continuations; a test of one continuation finds the change only if a later random replacement hits one of the values that were moved.", "anchors": ["metrics.go", "sample.go:SamplePercentiles", "sample.go:UniformSample.Percentile", "writer.go:WriteOnce", "log.go:LogScaledOnCue", "graphite.go:graphite", "opentsdb.go:openTSDB", "syslog.go:Syslog", "stathat/stathat.go:sh", "exp/exp.go:syncToExpvar", "registry.go:GetAll", "json.go:MarshalJSON", "librato/librato.go:BuildRequest"]}
{"id": "C108", "title": "The shared clock holds no meters that nobody needs", "statement": "Every meter that the shared clock ticks (and so keeps alive) is bound to a name of a registry, itself or as the meter of a timer, or was made by a call of NewMeter or NewTimer in the program itself, which has to stop it. A program that only uses GetOrRegisterMeter, GetOrRegisterTimer or GetOrRegister with a constructor function therefore never leaks a meter: the clock ticks at most one meter for each name of its registry, and none after UnregisterAll, no matter how often it asks for a name, registers and unregisters. It is not so for NewRegisteredMeter and for GetOrRegister with a meter that was made before: under a taken name they leave a meter that is ticked for ever.", "quantifier": "all histories of registry calls (standard and prefixed), constructor calls, Stops, ticks and uses of metrics", "why_tests_cant": "A leaked meter is not visible in any result; it shows only as memory and time of the clock goroutine, after long runs.", "anchors": ["meter.go:NewMeter", "meter.go:NewRegisteredMeter", "meter.go:meterArbiter", "timer.go:NewRegisteredTimer", "registry.go:StandardRegistry.GetOrRegister", "registry.go:StandardRegistry.stop", "registry.go:StandardRegistry.UnregisterAll"]}
{"id": "C109", "title": "Counting never waits", "statement": "A call of Inc, Dec, Clear, Count or Snapshot of a counter, of Update, Value or Snapshot of a gauge or float gauge, of Update or Rate of a moving average, of Mark, Count or Snapshot of a meter never waits for another goroutine: whatever calls other goroutines make on the same metric, in every interleaving, and also if they are suspended for ever in the middle of a call (even a tick that holds the mutex of an average), the call can always go on and has returned after a fixed number of its own steps (2; 14 for Mark; 6 for Snapshot of a meter). It is not so for Tick of a moving average, and not for Update and Snapshot of a timer.", "quantifier": "all numbers of goroutines, all programs of calls on one metric, all interleavings, all moments at which the other goroutines stop", "why_tests_cant": "A test cannot suspend the other goroutines at every point, and a wait that depends on the schedule is seen by chance only.", "anchors": ["counter.go:StandardCounter", "gauge.go:StandardGauge", "gauge_float64.go:StandardGaugeFloat64", "ewma.go:StandardEWMA.Update", "ewma.go:StandardEWMA.Rate", "ewma.go:StandardEWMA.Tick", "meter.go:StandardMeter.Mark", "meter.go:StandardMeter.Count", "meter.go:StandardMeter.Snapshot", "timer.go:StandardTimer.Update"]}
{"id": "C110", "title": "An update of a decaying sample costs O(log k)", "statement": "After any history, one Update of an ExpDecaySample of reservoir size k compares at most 3*log2(k) pairs of priorities (30 for the usual 1028); if its hour is over and all priorities are rescaled, at most (k+3)*log2(k). Over a history of n updates by a clock that does not go back the comparisons are at most 3*n*log2(k), plus k*log2(k) for each full hour that the history takes.", "quantifier": "all reservoir sizes k >= 1, all alphas, all histories of Update and Clear with all values, times and random draws", "why_tests_cant": "A benchmark measures a few sizes and random priorities; the bound is about the worst order of priorities and about every size.", "anchors": ["sample.go:ExpDecaySample.Update", "sample.go:expDecaySampleHeap.Push", "sample.go:expDecaySampleHeap.Pop", "sample.go:expDecaySampleHeap.up", "sample.go:expDecaySampleHeap.down"]}
{"id": "C111", "title": "Which values a sample keeps does not depend on the values", "statement": "Run the same calls on a new sample twice, with the same times and the same outcomes of the random source, the second time with f(v) in place of every value v. An exponentially decaying sample panics in the same calls for every f, and otherwise has the same Count and its Values are f(v) where they were v, in the same places. A uniform sample does the same for every f as long as its percentiles are not read between the updates, and with such reads for every f that keeps the order; with reads and another f it can keep other values, because a percentile read sorts the reservoir in place. On the values of a sample: Max and Min of the changed values are f(Max) and f(Min) if f keeps the order; if every value x becomes a*x+b, then in exact arithmetic the mean becomes a*mean+b, the variance is multiplied by a^2 and the standard deviation by |a|, as long as both sums fit in int64 (otherwise the mean is wrong), and every percentile y becomes a*y+b for a not negative.", "quantifier": "for every size, every history of calls, all draws and times, every function f on int64; for every non-empty list of values, all integers a and b, every p", "why_tests_cant": "A test tries a few values with one seed; that the choice of what is kept is independent of the values for all functions f, and that a change of the unit of measurement is the same change of all statistics, are statements over all histories and all functions.", "anchors": ["sample.go:UniformSample.Update", "sample.go:UniformSample.Percentiles", "sample.go:ExpDecaySample.update", "sample.go:expDecaySampleHeap.Push", "sample.go:expDecaySampleHeap.Pop", "sample.go:SampleMean", "sample.go:SampleVariance", "sample.go:SampleStdDev", "sample.go:SamplePercentiles", "sample.go:SampleMax", "sample.go:SampleMin"]}
{"id": "C112", "title": "Rates and the clock on the wall", "statement": "Let events come at lam per second, give or take e events in each interval between two ticks, and let the ticks of the shared clock be 5 seconds apart, give or take `late` seconds (the first may come any time after the meter is made). Then after n ticks each of Rate1, Rate5, Rate15 is lam, up to (lam*late + e)/5 plus exp(-5(n-1)/(60m))*lam (m = 1, 5, 15), and in float64 20*m*2^-53*B more for at most B events per interval, however long the meter runs. The clock is that punctual if neither the timer nor the loop keeps a tick waiting for longer than `late`, less than 5 s: then no tick is lost and the i-th pass begins between 5i and 5i + late seconds. What does not hold: the code divides by 5 s however long the interval was. If the passes are d apart, every rate is too high by d/5 s for ever; passes of 9 s lose ticks; and a meter made 1 s before a tick shows after a minute of steady traffic about a quarter of the 15-minute rate.", "quantifier": "for all traffic and all times of ticks, all lam, e, late, any number of ticks; all runs of the ticker and its loop", "why_tests_cant": "A test calls tick itself and does not see the time between ticks; the error bound ranges over all traffics, delays and numbers of ticks.", "anchors": ["meter.go:StandardMeter.tick", "meter.go:meterArbiter.tick", "meter.go:meterArbiter.tickMeters", "meter.go:arbiter", "ewma.go:StandardEWMA.Tick", "ewma.go:StandardEWMA.fetchInstantRate"]}
{"id": "C113", "title": "The expvar endpoint never forgets", "statement": "A variable that the handler has once published under a name is in every later response, and it never changes between integer, float and other, whatever the program then does with its metrics and whatever other code publishes. While no registered metric owns the variable, its value does not change: it shows for ever what the last request before saw. So the natural claim, that the response shows the metrics that are registered, is false: with a counter \"x\" at 7, a request, then UnregisterAll, and the counter going on to 8, the next response still says \"x\": 7.", "quantifier": "for all programs that use metrics, publish other variables and serve requests; all names; all states", "why_tests_cant": "That a published variable is never removed is a statement about all later runs; a test that registers, requests and compares sees only the fresh values.", "anchors": ["exp/exp.go:exp.getInt", "exp/exp.go:exp.getFloat", "exp/exp.go:exp.syncToExpvar", "exp/exp.go:exp.expHandler"]}
{"id": "C114", "title": "Registered meters are ticked", "statement": "If a program stops no meter that a registry holds, and registers a meter or timer only while it is still ticked and under no other name (of any registry), then every meter that is registered, itself or as the meter of a timer, is running, and every tick of the shared clock ticks it. If the program leaves it to registries to make meters and timers and to stop them, the clock ticks exactly the meters that are registered. Without this care it is false: a meter registered under two names, or in two registries, is dead under the second after Unregister of the first, and a meter that is unregistered and registered again stays dead: it is reported, but counts nothing and its rates never move.", "quantifier": "for all histories of calls on metrics and registries, all registries and prefixes, all meters and timers", "why_tests_cant": "The claim is about all histories of registrations; a test that registers and unregisters one name does not meet the sharing of a metric by names.", "anchors": ["registry.go:StandardRegistry.Unregister", "registry.go:StandardRegistry.UnregisterAll", "registry.go:StandardRegistry.stop", "registry.go:StandardRegistry.GetOrRegister", "registry.go:StandardRegistry.Register", "meter.go:StandardMeter.Stop", "meter.go:meterArbiter.tickMeters", "timer.go:StandardTimer.Stop"]}
{"id": "C115", "title": "How a decaying sample forgets", "statement": "An exponentially decaying sample forgets only by being updated: as long as nobody uses a histogram its statistics (and those of its timer) stay the same whatever the clock shows. Each update pushes out at most one of the values held before, whatever the clock, the random numbers and the float arithmetic, so after a day of silence the first j updates leave all but j of yesterday's values in the statistics. In exact arithmetic, after a silence long enough for new weights to exceed all old ones (41 minutes for alpha 0.015), every new value is kept and each update pushes out one old value, so as many updates as the reservoir has places leave nothing old.", "quantifier": "for all reservoir sizes greater than 0, all alphas (alpha >= 0 in the exact part), all histories of updates and Clears, all later updates, all clocks and random numbers (in the exact part: random numbers at least delta, times within an int64 of nanoseconds, silence of gap with exp(alpha*gap) > 1/delta)", "why_tests_cant": "The claim is about all clocks, histories and random numbers; a test sees one sequence of random numbers and does not wait 41 minutes.", "anchors": ["sample.go:ExpDecaySample.Update", "sample.go:ExpDecaySample.update", "sample.go:expDecaySampleHeap.Pop", "sample.go:expDecaySampleHeap.Push", "histogram.go:StandardHistogram.Percentile", "timer.go:StandardTimer.Percentile"]}
{"id": "C116", "title": "A decaying sample may keep a value for ever", "statement": "In float64 arithmetic an exponentially decaying sample can hold on to one value whatever is recorded later. If a sample is used only in the first hour after it was made and then again between 711/alpha and 744/alpha seconds after it was made (13 h 10 min to 13 h 46 min for alpha 0.015), the priority of the new value overflows to +Inf and stays +Inf at every rescale, so this value is never pushed out by later updates (until Clear) and always enters Max, Min, Mean and the percentiles. The same happens to a value for which rand.Float64 returns 0. So in float64 it is false that old values are pushed out by enough later ones.", "quantifier": "for all reservoir sizes of at least 2, all alphas, all earlier updates within the first hour, all values, all later updates (any number, any values and random numbers of at least 2^-53, gaps with alpha*(gap + 1 h + 1 s) <= 600)", "why_tests_cant": "It needs an idle time of 13 hours (or a random number that comes once in 2^53 draws) and then all later histories; a test can only show that the value is still there after some updates.", "anchors": ["sample.go:ExpDecaySample.Update", "sample.go:ExpDecaySample.update", "sample.go:expDecaySampleHeap.Pop", "sample.go:expDecaySampleHeap.Push", "sample.go:NewExpDecaySample"]}
{"id": "C117", "title": "Several expvar handlers in one program", "statement": "Every handler made by exp.ExpHandler has a mutex of its own while the table of expvar variables is common to all. A handler is blocked only by a panic in one of its own requests, and then for ever; the other handlers, also new ones for the same registry, go on: a request to a handler returns exactly if there is nothing to publish for its registry, or it is not blocked itself, no healthcheck is in its registry, all snapshots return and the kinds of the variables fit. The response has the current values of the metrics of its own registry; it also lists the variables of all other handlers, as of their last requests, so the plain claim that it shows the metrics of its registry only is false.", "quantifier": "for all numbers of handlers and assignments of registries to them, all programs (operations on metrics, variables published by other code, requests to any handler in any order), all states reached", "why_tests_cant": "It is about all orders of requests to any number of handlers, some of which have panicked before; a test has one process with one global table and, after the first panic, a request that hangs.", "anchors": ["exp/exp.go:ExpHandler", "exp/exp.go:exp.expHandler", "exp/exp.go:exp.getInt", "exp/exp.go:exp.getFloat", "exp/exp.go:exp.syncToExpvar"]}
{"id": "C118", "title": "A burst in a decaying sample: the newest value counts for too much", "statement": "Record n+1 values at the same time (or with alpha 0) in a new or cleared ExpDecaySample of size k, with independent uniform random numbers. The sample then is the newest value together with a simple random sample, without replacement, of min(k-1, n) of the n earlier values: every question about the values held has as its probability the share of these subsets for which it is true, and the expected value of every statistic is its average over them. So the newest value is held for sure and every other one with probability min(k-1, n)/n, and the expected Mean is off the true mean by (newest - mean of the earlier values)*(1/k - 1/(n+1)). It is false that such a sample is a uniform one.", "quantifier": "for all sizes k >= 1, all n, all values (with repetitions; different values for the single chances; k|v| < 2^63 for the mean), all earlier calls that end with Clear, all questions and statistics; exact arithmetic", "why_tests_cant": "It is a statement about probabilities over all outcomes of the random source; a test sees a few outcomes, and the bias is within the noise for large k.", "anchors": ["sample.go:ExpDecaySample.Update", "sample.go:ExpDecaySample.update", "sample.go:ExpDecaySample.Clear", "sample.go:expDecaySampleHeap.Pop", "sample.go:expDecaySampleHeap.Push", "sample.go:SampleMean"]}
{"id": "C119", "title": "Recording needs no memory", "statement": "No sample ever keeps more values than the reservoir size given to its constructor. Once a program is set up, it can record, read, clear, stop, tick, look up names (also by GetOrRegister and Register with names that are taken), unregister and run healthchecks as often as it wants, also when calls panic: no object and no slice is made, no slice gets longer, no registry gets more entries, the clock's set of meters does not grow, and the values kept always fit in the room made before. The copies made by Snapshot are the exception: one takes as much as the sample keeps at that time.", "quantifier": "for all histories of calls, all environments (clock, random numbers, user functions, map order), all later routine operations of any number and order", "why_tests_cant": "Tests record a few values; a leak shows only after very many calls of some combination of methods.", "anchors": ["sample.go:UniformSample.Update", "sample.go:ExpDecaySample.Update", "sample.go:expDecaySampleHeap.Push", "sample.go:UniformSample.Clear", "registry.go:StandardRegistry.GetOrRegister", "registry.go:StandardRegistry.Unregister", "registry.go:StandardRegistry.UnregisterAll", "meter.go:StandardMeter.Stop", "meter.go:meterArbiter.tickMeters", "histogram.go:StandardHistogram.Update", "timer.go:StandardTimer.Update"]}
{"id": "C120", "title": "What StatHat shows for a count", "statement": "StatHat adds up the counts posted to a counter. After the last report of the loop Stathat, the StatHat counter of a metric (its name for a counter, its name with .count for a histogram, meter or timer) shows what Count() returned at that report. This is false: every report posts the whole count again, so that StatHat shows the sum of the counts at all reports so far, in which what was counted between two reports is contained once for every later report. It is right exactly if the earlier reports add up to zero. A report that panics is the last one, and what it posted before stays.", "quantifier": "for all programs (any operations before and between the reports), all registries and prefixes, all numbers of reports, all metrics that are the only ones to feed their StatHat counter", "why_tests_cant": "A test of one report sees the right number; the totals live on the StatHat server, after several reports.", "anchors": ["stathat/stathat.go:Stathat", "stathat/stathat.go:sh", "registry.go:Registry.Each"]}
{"id": "C121", "title": "The average which Librato shows for a distribution", "statement": "Librato shows sum / count of a gauge that has both. For a timer that has counted something this is Mean(), and for a histogram it is Mean() as well, so that it lies between the reported minimum and maximum. The second half is false: for a histogram the sum is that of the values which the sample still has, and the count that of all values ever given, so that the average shown is Mean() times the share of the values kept; it falls below the minimum of the same gauge and goes to zero as more values are recorded.", "quantifier": "for all programs (any operations before the batch), all registries and prefixes, all intervals, namespaces, sources and percentiles, all histograms and timers with a positive count; exact arithmetic; for histograms the sum of the kept values fits in an int64", "why_tests_cant": "The reservoir must overflow before anything goes wrong, and the average is computed on Librato's side from two numbers that are right each by itself.", "anchors": ["librato/librato.go:Reporter.BuildRequest", "sample.go:UniformSample.Sum", "sample.go:UniformSample.Count", "timer.go:StandardTimer.Mean"]}
{"id": "C122", "title": "The numbers of one report are in order", "statement": "In every report, the minimum of a histogram or timer is not above its mean and percentiles, these are not above its maximum, and a higher percentile is not below a lower one. This holds for WriteOnce, Log and LogScaled (with a positive scale), Syslog, StatHat and GetAll, and for the histograms of Graphite and OpenTSDB. It is false for the timers of OpenTSDB and Graphite: minimum and maximum are truncated to the duration unit and the mean is not, so that the maximum can be below the mean and below every percentile (by less than one unit), and Graphite's percentiles are not converted at all. For WriteOnce, LogScaled, Syslog, StatHat and GetAll it holds with float64 too, and also while other goroutines update the metrics and change the registry during the report.", "quantifier": "for all programs (any operations before the export), all registries and prefixes, all configurations with a positive unit, all histograms and timers whose sum fits in an int64, all percentiles; exact arithmetic, and float64 if the sum of the values is at most 2^53", "why_tests_cant": "Tests compare single numbers with expected ones, usually in nanoseconds or with durations that are multiples of the unit; the order fails only when a duration has a fraction of a unit.", "anchors": ["writer.go:WriteOnce", "log.go:LogScaledOnCue", "syslog.go:Syslog", "stathat/stathat.go:sh", "opentsdb.go:openTSDB", "graphite.go:graphite"]}
{"id": "C123", "title": "StatHat statistics of different metrics", "statement": "In one report to StatHat no two posts go to the same statistic, so that different metrics have different statistics. This is false: a counter or gauge is posted under its own name and every other metric under its name with a point and a word, so a counter \"x.count\" and a meter \"x\" feed the same StatHat counter, which shows the sum of both. It is true exactly if no counter or gauge is called like another histogram, meter or timer with a point and one of the words (for Graphite and OpenTSDB it is always true, see C85).", "quantifier": "for all programs, registries and prefixes, all names, every report that returns normally", "why_tests_cant": "Tests export one metric at a time; the clash needs two metrics with related names, and which names are safe is a statement about all pairs of names.", "anchors": ["stathat/stathat.go:sh"]}
{"id": "C124", "title": "Librato counters of different metrics", "statement": "In one batch for Librato no two counters have the same name, so that different metrics have different counters. This is false: a counter \"x\" is sent as \"x.count\" while meters and timers are sent under their own name, so a counter \"x\" and a meter \"x.count\" are both in the batch as \"x.count\". It is true exactly if no meter or timer is called like a counter with a positive count and \".count\", whatever the namespace. Gauges can clash too: a gauge \"x.1min\" and a meter \"x\".", "quantifier": "for all programs, registries and prefixes, all names and namespaces, intervals, percentiles, every batch that BuildRequest returns", "why_tests_cant": "Tests build a batch with one metric; the clash needs two metrics with related names, and which names are safe is a statement about all pairs of names.", "anchors": ["librato/librato.go:Reporter.BuildRequest"]}
{"id": "C125", "title": "Reports of a program with UseNilMetrics", "statement": "A program that sets UseNilMetrics before anything else and leaves it set has only stubs: every metric in every registry, however it was made, is a Nil type, the clock goroutine is never started, and no operation panics except methods of a SampleSnapshot made with NewSampleSnapshot and GetOrRegister with a function that cannot be called or panics itself. Every report is made to the end: WriteOnce, the log, syslog, StatHat, OpenTSDB and Graphite reports and GetAll contain every metric with all its statistics, and all of them are zero (durations: zero in the unit asked for); WriteJSONOnce and MarshalJSON always give the JSON of all metrics.", "quantifier": "for all programs that start with UseNilMetrics = true and never reset it, all registries and prefixes, map orders, units, percentiles and configurations; the reports return for float64", "why_tests_cant": "Tests check single Nil types. That no constructor, lazy registration or Snapshot method ever brings back a real metric or starts the clock is an invariant of all programs, and that every report shows zeros must hold for all registries.", "anchors": ["metrics.go:UseNilMetrics", "counter.go:NewCounter", "timer.go:NewCustomTimer", "histogram.go:NewHistogram", "meter.go:NewMeter", "sample.go:NewSampleSnapshot", "registry.go:StandardRegistry.GetOrRegister", "writer.go:WriteOnce", "json.go:WriteJSONOnce"]}
{"id": "C126", "title": "What was recorded and what is reported", "statement": "Keep a book beside the program: every value passed to Update of a sample, of a histogram on it, or of a timer on such a histogram (for UpdateSince the time since), and a blank page at Clear. Then, whatever else the program does, Count() of the sample and of every histogram and timer that records in it is the number of entries; the sample holds only entries, and as many as there is room for. As long as all entries fit in the reservoir (1028 for NewTimer), Max, Min, Sum, Mean and all percentiles that the sample, its histograms and timers and their snapshots report are those of exactly all entries (Variance and StdDev as well, up to rounding). Later Max and Min are still entries. A snapshot keeps reporting the entries up to the moment it was taken.", "quantifier": "for all programs before and after the sample is made, by NewUniformSample, NewExpDecaySample, NewTimer, or one of them as constructor function of GetOrRegister; all reservoir sizes from 1; all histograms and timers sharing the sample; all random outcomes and times; any float arithmetic (Variance, StdDev and the rank formula: exact arithmetic)", "why_tests_cant": "A test compares a few values on one histogram. That no other call of the program, no second histogram or timer on the same sample, no percentile read that sorts the reservoir, no rescaling and no snapshot ever adds, loses or changes an entry is a statement about all programs.", "anchors": ["sample.go:UniformSample.Update", "sample.go:UniformSample.Clear", "sample.go:UniformSample.Percentiles", "sample.go:ExpDecaySample.update", "sample.go:ExpDecaySample.Clear", "histogram.go:StandardHistogram.Update", "histogram.go:StandardHistogram.Snapshot", "timer.go:StandardTimer.Update", "timer.go:StandardTimer.UpdateSince", "timer.go:NewTimer", "registry.go:StandardRegistry.GetOrRegister"]}
{"id": "C127", "title": "What was counted and what is reported", "statement": "Keep books beside the program: for a counter the balance of Inc and Dec since it was made or cleared, for a gauge the last Update, for a meter the number of events marked by Mark and by the timers that have it. Then, whatever else the program does with other metrics, registries, snapshots and the clock, Count() of the counter is the balance, Value() of the gauge is the last Update (bit by bit for a float gauge), and Count() of the meter is the number marked until it is stopped (by Stop, or by Unregister or UnregisterAll of any registry that has it or a timer with it) and never changes afterwards. Every report shows these numbers, for a counter the balance — a Graphite or OpenTSDB server reads it under prefix.name.count — and for a histogram or timer whose values fit in its reservoir the number and the statistics of exactly the values recorded (C126).", "quantifier": "for all programs before and after the metric is made, directly or as constructor function of GetOrRegister; all values; all registries, names and prefixes; all times and random outcomes; any float arithmetic (the Graphite and OpenTSDB servers: float64)", "why_tests_cant": "C01, C06 and C35 are about one metric alone, a test about a few calls. That no other operation of a whole program touches a metric, and that nothing is lost on the way through registry, snapshot, formatting and network, is a statement about all programs.", "anchors": ["counter.go:StandardCounter", "gauge.go:StandardGauge", "gauge_float64.go:StandardGaugeFloat64", "meter.go:StandardMeter.Mark", "meter.go:StandardMeter.Stop", "timer.go:StandardTimer.Update", "timer.go:StandardTimer.UpdateSince", "registry.go:StandardRegistry.Unregister", "registry.go:StandardRegistry.UnregisterAll", "registry.go:StandardRegistry.GetOrRegister", "graphite.go:graphite"]}
{"id": "C128", "title": "What goroutines have counted and recorded together", "statement": "Goroutines use counters, gauges, samples, histograms and registries concurrently; when all their calls have returned, further calls are made one after the other. They see what the library has after the calls of the goroutines, made one after the other in some order: none is lost and none is made twice. So, at the first call after that, however the calls overlapped: Count() of a counter is its balance before plus everything the goroutines added (modulo 2^64), if none cleared it; Value() of a gauge (of either kind) is a value that one of them set, if any did; Count() of a sample, and of every histogram on it, is the number of values recorded before and by the goroutines, if none cleared it; and as long as these fit in the reservoir, Max, Min, Mean, Sum and the percentiles are those of exactly these values.", "quantifier": "for all programs before, with the metrics made directly or as constructor function of GetOrRegister; any number of goroutines and calls; all interleavings of the steps of the code; all values, names, times and random outcomes; any float arithmetic", "why_tests_cant": "A test with goroutines runs a few of the interleavings, mostly harmless ones, and a lost update shows as a rare wrong total.", "anchors": ["counter.go:StandardCounter", "gauge.go:StandardGauge", "gauge_float64.go:StandardGaugeFloat64", "sample.go:UniformSample", "sample.go:ExpDecaySample", "histogram.go:StandardHistogram", "registry.go:StandardRegistry"]}
