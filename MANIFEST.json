{
 "claims": [
  {
   "property": "C01",
   "status": "proved",
   "theorems": [
    "GoMetrics.C01_counter_net_sum",
    "GoMetrics.C01_counter_exact"
   ],
   "note": "all histories, wrap and exact forms"
  },
  {
   "property": "C02",
   "status": "proved",
   "theorems": [
    "GoMetrics.C02_concurrent_final",
    "GoMetrics.C02_concurrent_read"
   ],
   "note": "all well-formed concurrent traces with one atomic instruction per call"
  },
  {
   "property": "C03",
   "status": "partial",
   "theorems": [
    "GoMetrics.C03_frozen_partial",
    "GoMetrics.C03_exact_partial",
    "GoMetrics.C03_refuted_variance",
    "GoMetrics.C03_refuted_shared"
   ],
   "note": "Proved for every history and every later history for all accessors but Variance/StdDev (any float arithmetic) and for all accessors in exact arithmetic. False of the code for Variance/StdDev in float64 (C03_refuted_variance: Percentile sorts the snapshot in place and changes the rounding) and for NewSampleSnapshot of a slice the caller keeps (C03_refuted_shared)."
  },
  {
   "property": "C04",
   "status": "proved",
   "theorems": [
    "GoMetrics.C04_rejects",
    "GoMetrics.C04_time",
    "GoMetrics.C04_stop",
    "GoMetrics.C04_again",
    "GoMetrics.C04_kind"
   ],
   "note": "All snapshot types and mutators; Time on a timer snapshot does not call the function; Stop of a snapshot changes nothing."
  },
  {
   "property": "C05",
   "status": "proved",
   "theorems": [
    "GoMetrics.C05_reads_zero",
    "GoMetrics.C05_no_effect"
   ],
   "note": "All constructors except NewSampleSnapshot (which has no Nil variant); all later histories."
  },
  {
   "property": "C06",
   "status": "proved",
   "theorems": [
    "GoMetrics.C06_gauge_last",
    "GoMetrics.C06_concurrent_final",
    "GoMetrics.C06_concurrent_final_float",
    "GoMetrics.C06_concurrent_read",
    "GoMetrics.C06_concurrent_read_float"
   ],
   "note": "sequential histories; concurrent traces for both gauge kinds"
  },
  {
   "property": "C07",
   "status": "proved",
   "theorems": [
    "GoMetrics.C07_float_gauge_bits"
   ],
   "note": "bit patterns, all histories"
  },
  {
   "property": "C08",
   "status": "proved",
   "theorems": [
    "GoMetrics.C08_reads_through",
    "GoMetrics.C08_reads_through_float",
    "GoMetrics.C08_snapshot",
    "GoMetrics.C08_snapshot_float"
   ],
   "note": "Both functional gauge types; the user function is an arbitrary environment input at each call."
  },
  {
   "property": "C09",
   "status": "proved",
   "theorems": [
    "GoMetrics.C09_health_last_verdict",
    "GoMetrics.C09_check"
   ],
   "note": "all histories and user functions given by their verdict lists"
  },
  {
   "property": "C10",
   "status": "proved",
   "theorems": [
    "GoMetrics.C10_max",
    "GoMetrics.C10_min",
    "GoMetrics.C10_empty"
   ],
   "note": ""
  },
  {
   "property": "C11",
   "status": "proved",
   "theorems": [
    "GoMetrics.C11_sum_wraps",
    "GoMetrics.C11_sum_exact",
    "GoMetrics.C11_sum_perm"
   ],
   "note": ""
  },
  {
   "property": "C12",
   "status": "partial",
   "theorems": [
    "GoMetrics.C12_mean_between_partial",
    "GoMetrics.C12_mean_between_ieee_partial",
    "GoMetrics.C12_refuted_overflow",
    "GoMetrics.C12_refuted_rounding"
   ],
   "note": "refuted in full: overflow (exact) and rounding near 2^53 (IEEE); proved for sums that fit (exact) and for |sum|<=2^53 (IEEE)"
  },
  {
   "property": "C13",
   "status": "partial",
   "theorems": [
    "GoMetrics.C13_variance_formula",
    "GoMetrics.C13_variance_zero_iff_constant",
    "GoMetrics.C13_empty",
    "GoMetrics.C13_stddev_sq",
    "GoMetrics.C13_variance_ieee_finite",
    "GoMetrics.C13_refuted_constant_rounding"
   ],
   "note": "all clauses proved except that float64 variance of a constant slice is 0, which is refuted by a witness"
  },
  {
   "property": "C14",
   "status": "proved",
   "theorems": [
    "GoMetrics.C14_percentile_total",
    "GoMetrics.C14_percentiles_total",
    "GoMetrics.C14_empty",
    "GoMetrics.C14_nan_panics"
   ],
   "note": "IEEE binary64, all non-NaN p; NaN shown to panic"
  },
  {
   "property": "C15",
   "status": "proved",
   "theorems": [
    "GoMetrics.C15_exact",
    "GoMetrics.C15_ieee"
   ],
   "note": "exact and IEEE"
  },
  {
   "property": "C16",
   "status": "proved",
   "theorems": [
    "GoMetrics.C16_rank_interpolation",
    "GoMetrics.C16_cases",
    "GoMetrics.C16_perm"
   ],
   "note": ""
  },
  {
   "property": "C17",
   "status": "proved",
   "theorems": [
    "GoMetrics.C17_batch",
    "GoMetrics.C17_batch_entry"
   ],
   "note": "any float arithmetic"
  },
  {
   "property": "C18",
   "status": "proved",
   "theorems": [
    "GoMetrics.C18_undisturbed",
    "GoMetrics.C18_undisturbed_exact",
    "GoMetrics.C18_not_touched"
   ],
   "note": "Any number of reads of any objects in any state; Variance/StdDev (not part of the claim) are covered in exact arithmetic only, see C03_refuted_variance."
  },
  {
   "property": "C19",
   "status": "proved",
   "theorems": [
    "GoMetrics.C19_size",
    "GoMetrics.C19_keeps_all"
   ],
   "note": ""
  },
  {
   "property": "C20",
   "status": "proved",
   "theorems": [
    "GoMetrics.C20_only_given"
   ],
   "note": ""
  },
  {
   "property": "C21",
   "status": "proved",
   "theorems": [
    "GoMetrics.C21_uniform",
    "GoMetrics.C21_retained",
    "GoMetrics.C21_uniform_positions",
    "GoMetrics.C21_all_draws",
    "GoMetrics.C21_after_clear"
   ],
   "note": "counting over all n! equally likely outcomes; repeated values via positions"
  },
  {
   "property": "C22",
   "status": "proved",
   "theorems": [
    "GoMetrics.C22_uniform_count",
    "GoMetrics.C22_expdecay_count"
   ],
   "note": "uniform and exponentially decaying samples"
  },
  {
   "property": "C23",
   "status": "proved",
   "theorems": [
    "GoMetrics.C23_no_panic",
    "GoMetrics.C23_negative_panics"
   ],
   "note": ""
  },
  {
   "property": "C24",
   "status": "partial",
   "theorems": [
    "GoMetrics.C24_size_partial",
    "GoMetrics.C24_refuted_zero_reservoir",
    "GoMetrics.C24_negative_panics"
   ],
   "note": "refuted for reservoir size 0 (Update panics); proved for every size >= 1 and any float arithmetic"
  },
  {
   "property": "C25",
   "status": "proved",
   "theorems": [
    "GoMetrics.C25_newest_and_given"
   ],
   "note": ""
  },
  {
   "property": "C26",
   "status": "proved",
   "theorems": [
    "GoMetrics.C26_evicts_min"
   ],
   "note": "float64, histories without NaN priorities"
  },
  {
   "property": "C27",
   "status": "proved",
   "theorems": [
    "GoMetrics.C27_top_weights",
    "GoMetrics.C27_rescale_invisible"
   ],
   "note": "exact real arithmetic; also uniqueness of the content when weights differ"
  },
  {
   "property": "C28",
   "status": "proved",
   "theorems": [
    "GoMetrics.C28_rescale_in_place"
   ],
   "note": ""
  },
  {
   "property": "C29",
   "status": "partial",
   "theorems": [
    "GoMetrics.C29_no_nan_partial",
    "GoMetrics.C29_refuted_idle"
   ],
   "note": "refuted: one update 28 h after creation stores NaN; proved when alpha*(gap+1h+1s) <= 700"
  },
  {
   "property": "C30",
   "status": "proved",
   "theorems": [
    "GoMetrics.C30_recurrence",
    "GoMetrics.C30_weights",
    "GoMetrics.C30_weights_sum"
   ],
   "note": "exact arithmetic; closed form with weights"
  },
  {
   "property": "C31",
   "status": "proved",
   "theorems": [
    "GoMetrics.C31_bounds_exact",
    "GoMetrics.C31_bounds_f64",
    "GoMetrics.C31_standard",
    "GoMetrics.C31_refuted_overflow"
   ],
   "note": "exact and IEEE; hypothesis: event totals of an interval fit int64 (refuted otherwise by a witness)"
  },
  {
   "property": "C32",
   "status": "proved",
   "theorems": [
    "GoMetrics.C32_idle_decay",
    "GoMetrics.C32_time_constant",
    "GoMetrics.C32_tends_to_zero",
    "GoMetrics.C32_idle_nonincreasing_f64"
   ],
   "note": "exact reals; monotone decay in IEEE"
  },
  {
   "property": "C33",
   "status": "proved",
   "theorems": [
    "GoMetrics.C33_conservation",
    "GoMetrics.C33_pending"
   ],
   "note": ""
  },
  {
   "property": "C34",
   "status": "partial",
   "theorems": [
    "GoMetrics.C34_single_ticker_partial",
    "GoMetrics.C34_read_partial",
    "GoMetrics.C34_nonneg_partial",
    "GoMetrics.C34_refuted_negative",
    "GoMetrics.C34_refuted_lost_tick"
   ],
   "note": "refuted: concurrent first ticks lose one, and concurrent ticks give negative rates; proved for one ticking goroutine (as in the library)"
  },
  {
   "property": "C35",
   "status": "proved",
   "theorems": [
    "GoMetrics.C35_count",
    "GoMetrics.C35_count_exact",
    "GoMetrics.C35_after_stop"
   ],
   "note": "For every history of Mark/Stop/tick/reads the count is the wrapped sum of the marks before the first Stop; exact when in range."
  },
  {
   "property": "C36",
   "status": "proved",
   "theorems": [
    "GoMetrics.C36_all_or_nothing",
    "GoMetrics.C36_before_stop",
    "GoMetrics.C36_after_stop"
   ],
   "note": "Atomic-mark machine with per-access interleaving; before, during and after Stop."
  },
  {
   "property": "C37",
   "status": "proved",
   "theorems": [
    "GoMetrics.C37_tick",
    "GoMetrics.C37_step",
    "GoMetrics.C37_history",
    "GoMetrics.C37_new",
    "GoMetrics.C37_stopped"
   ],
   "note": "Sequential histories of all calls (constructors, methods, registry calls, ticks), all map orders. Tick interleaved with Stop and NewMeter is in C36/C38."
  },
  {
   "property": "C38",
   "status": "proved",
   "theorems": [
    "GoMetrics.C38_at_most_once",
    "GoMetrics.C38_started",
    "GoMetrics.C38_single_ticker",
    "GoMetrics.C38_round"
   ],
   "note": "All numbers of goroutines, all interleavings of lock, flag, map, go and tick steps. C38_round also carries C37 over to concurrent use."
  },
  {
   "property": "C39",
   "status": "proved",
   "theorems": [
    "GoMetrics.C39_rates",
    "GoMetrics.C39_same_instant"
   ],
   "note": "Over exact reals with positive elapsed time; the float64 same-instant case is shown to give Inf/NaN."
  },
  {
   "property": "C40",
   "status": "partial",
   "theorems": [
    "GoMetrics.C40_refuted",
    "GoMetrics.C40_ordered_cut_partial",
    "GoMetrics.C40_quiet_partial"
   ],
   "note": "Refuted in general: a snapshot can mix a new count with old rates (witness schedule). Proved: the fields form an ordered cut, and without concurrent writers they agree."
  },
  {
   "property": "C41",
   "status": "proved",
   "theorems": [
    "GoMetrics.C41_accessors",
    "GoMetrics.C41_updates",
    "GoMetrics.C41_snapshot",
    "GoMetrics.C41_snapshot_nil"
   ],
   "note": "All reachable states; boundary: Snapshot of a histogram over a NilSample panics (C41_snapshot_nil)."
  },
  {
   "property": "C42",
   "status": "proved",
   "theorems": [
    "GoMetrics.C42_update",
    "GoMetrics.C42_history"
   ],
   "note": "Every update in every reachable state; history theorem for timers made by NewTimer over all later histories. Time is Update of the elapsed time (C44_recorded_partial)."
  },
  {
   "property": "C43",
   "status": "proved",
   "theorems": [
    "GoMetrics.C43_linearizable",
    "GoMetrics.C43_snapshot",
    "GoMetrics.C43_counts",
    "GoMetrics.C43_after_stop"
   ],
   "note": "All numbers of goroutines, all interleavings, any sample type. Boundary: after Stop the meter part stops counting (C43_after_stop)."
  },
  {
   "property": "C44",
   "status": "partial",
   "theorems": [
    "GoMetrics.C44_once_partial",
    "GoMetrics.C44_recorded_partial",
    "GoMetrics.C44_panic_partial",
    "GoMetrics.C44_refuted_nil"
   ],
   "note": "Proved for standard timers; false for the NilTimer that the constructors return under UseNilMetrics (C44_refuted_nil: f is never called)."
  },
  {
   "property": "C45",
   "status": "proved",
   "theorems": [
    "GoMetrics.C45_stop"
   ],
   "note": "All later histories of all calls."
  },
  {
   "property": "C46",
   "status": "proved",
   "theorems": [
    "GoMetrics.C46_history",
    "GoMetrics.C46_get"
   ],
   "note": "All histories of all calls; names are arbitrary byte strings."
  },
  {
   "property": "C47",
   "status": "proved",
   "theorems": [
    "GoMetrics.C47_duplicate",
    "GoMetrics.C47_fresh",
    "GoMetrics.C47_must",
    "GoMetrics.C47_stays"
   ],
   "note": "The error carries the name as the base registry knows it (with the prefixes)."
  },
  {
   "property": "C48",
   "status": "proved",
   "theorems": [
    "GoMetrics.C48_kinds",
    "GoMetrics.C48_register",
    "GoMetrics.C48_getOrRegister"
   ],
   "note": ""
  },
  {
   "property": "C49",
   "status": "proved",
   "theorems": [
    "GoMetrics.C49_taken",
    "GoMetrics.C49_free"
   ],
   "note": "Sequential; concurrent GetOrRegister is C51. GetOrRegisterGaugeFloat64 constructs eagerly, see C57."
  },
  {
   "property": "C50",
   "status": "proved",
   "theorems": [
    "GoMetrics.C50_linearizable",
    "GoMetrics.C50_final"
   ],
   "note": "All numbers of goroutines, all calls, all interleavings of lock, map, callback and constructor steps (user functions may return anything, panic, or never return)."
  },
  {
   "property": "C51",
   "status": "proved",
   "theorems": [
    "GoMetrics.C51_agree",
    "GoMetrics.C51_one_constructor",
    "GoMetrics.C51_constructed",
    "GoMetrics.C51_get"
   ],
   "note": "The name is not unregistered during the execution and its constructors return metrics and do not panic (Spec.Calm)."
  },
  {
   "property": "C52",
   "status": "proved",
   "theorems": [
    "GoMetrics.C52_each",
    "GoMetrics.C52_concurrent"
   ],
   "note": "Callbacks are arbitrary functions on the store and on user state. Other goroutines: C52_concurrent, on the machine of lock and map steps.."
  },
  {
   "property": "C53",
   "status": "proved",
   "theorems": [
    "GoMetrics.C53_unregister",
    "GoMetrics.C53_unregisterAll"
   ],
   "note": ""
  },
  {
   "property": "C54",
   "status": "proved",
   "theorems": [
    "GoMetrics.C54_checks",
    "GoMetrics.C54_once"
   ],
   "note": "A healthcheck bound to k names is checked k times (C54_checks); once if bound to one name."
  },
  {
   "property": "C55",
   "status": "partial",
   "theorems": [
    "GoMetrics.C55_ordered_partial",
    "GoMetrics.C55_refuted_healthcheck",
    "GoMetrics.C55_refuted_healthcheck_get",
    "GoMetrics.C55_refuted_constructor"
   ],
   "note": "False of the code for healthcheck functions and lazy constructors using the registry that called them (three refutations). Proved: Each callbacks may do anything; functions called under a registry lock may use metrics and registries of smaller number."
  },
  {
   "property": "C56",
   "status": "proved",
   "theorems": [
    "GoMetrics.C56_values",
    "GoMetrics.C56_exact",
    "GoMetrics.C56_order",
    "GoMetrics.C56_returns"
   ],
   "note": "Every history, every order in which the map is visited. The stddev field is the deviation of the sorted values: the same number in exact arithmetic (C56_exact), up to rounding in float64. C56_returns: with samples small enough for their sums and no user callback that panics, GetAll does return."
  },
  {
   "property": "C57",
   "status": "proved",
   "theorems": [
    "GoMetrics.C57_taken",
    "GoMetrics.C57_free",
    "GoMetrics.C57_new_taken",
    "GoMetrics.C57_new_free"
   ],
   "note": "All six typed getters (GetOrRegisterGaugeFloat64 constructs eagerly) and the NewRegistered functions."
  },
  {
   "property": "C58",
   "status": "proved",
   "theorems": [
    "GoMetrics.C58_prefix"
   ],
   "note": ""
  },
  {
   "property": "C59",
   "status": "proved",
   "theorems": [
    "GoMetrics.C59_each",
    "GoMetrics.C59_foreign"
   ],
   "note": "Boundary: over a registry type of another package Each panics (C59_foreign)."
  },
  {
   "property": "C60",
   "status": "partial",
   "theorems": [
    "GoMetrics.C60_refuted_unregisterAll",
    "GoMetrics.C60_refuted_runHealthchecks",
    "GoMetrics.C60_refuted_getAll",
    "GoMetrics.C60_partial"
   ],
   "note": "False of the code: GetAll, RunHealthchecks and UnregisterAll of a prefixed registry act on the whole base registry (three refutations). Proved: they cover everything under the prefix and touch no other registry."
  },
  {
   "property": "C61",
   "status": "proved",
   "theorems": [
    "GoMetrics.C61_sorted",
    "GoMetrics.C61_deterministic"
   ],
   "note": "Every registry, every visiting order, every sort that satisfies the contract of sort.Sort."
  },
  {
   "property": "C62",
   "status": "partial",
   "theorems": [
    "GoMetrics.C62_writer",
    "GoMetrics.C62_log",
    "GoMetrics.C62_syslog",
    "GoMetrics.C62_opentsdb_partial",
    "GoMetrics.C62_stathat_partial",
    "GoMetrics.C62_graphite_partial",
    "GoMetrics.C62_exact",
    "GoMetrics.C62_refuted_health",
    "GoMetrics.C62_returns"
   ],
   "note": "Full statement proved for WriteOnce, Log/LogScaled and Syslog; false for Graphite, OpenTSDB and StatHat, which skip healthchecks (C62_refuted_health): for them everything else is proved. Hypothesis of all of them: the export returns, and the duration unit survives int64(float64(unit)) (C63_unit). C62_returns proves that the exports do return when the snapshots do. expvar is in C66."
  },
  {
   "property": "C63",
   "status": "partial",
   "theorems": [
    "GoMetrics.C63_log",
    "GoMetrics.C63_opentsdb",
    "GoMetrics.C63_graphite_partial",
    "GoMetrics.C63_unit",
    "GoMetrics.C63_zero",
    "GoMetrics.C63_graphite_refuted"
   ],
   "note": "Proved for LogScaled and OpenTSDB; false for the percentiles of Graphite (C63_graphite_refuted), proved for its other statistics. C63_zero: unit 0 panics."
  },
  {
   "property": "C64",
   "status": "partial",
   "theorems": [
    "GoMetrics.C64_refuted",
    "GoMetrics.C64_partial"
   ],
   "note": "False (C64_refuted: 15% and 1.5%); proved for percentages with the same number of decimals. strconv.FormatFloat is an input."
  },
  {
   "property": "C65",
   "status": "partial",
   "theorems": [
    "GoMetrics.C65_partial",
    "GoMetrics.C65_nothing",
    "GoMetrics.C65_refuted",
    "GoMetrics.C65_refuted_rate",
    "GoMetrics.C65_numbers"
   ],
   "note": "Refuted: one NaN gauge (C65_refuted) or a meter marked at the instant it was created (C65_refuted_rate: infinite mean rate) makes WriteJSONOnce write nothing at all, and the error is dropped. C65_partial: if every float read is finite, the text is the JSON object of exactly the registered metrics; C65_nothing: otherwise nothing is written. Escaping and number formatting of encoding/json are inputs."
  },
  {
   "property": "C66",
   "status": "partial",
   "theorems": [
    "GoMetrics.C66_labels",
    "GoMetrics.C66_unique",
    "GoMetrics.C66_stuck",
    "GoMetrics.C66_partial",
    "GoMetrics.C66_returns_iff",
    "GoMetrics.C66_right",
    "GoMetrics.C66_never_again",
    "GoMetrics.C66_health_refuted",
    "GoMetrics.C66_kind_refuted",
    "GoMetrics.C66_collision_refuted",
    "GoMetrics.C66_apart"
   ],
   "note": "C66_returns_iff says exactly when a request returns; refuted for registries with a healthcheck (never returns, C66_health_refuted), for a name whose kind changes (panics with the mutex locked, all later requests hang: C66_kind_refuted, C66_never_again, C66_stuck), for colliding names (C66_collision_refuted). C66_partial: in programs without these, every request returns and publishes the current values. Simultaneous requests: C75."
  },
  {
   "property": "C67",
   "status": "partial",
   "theorems": [
    "GoMetrics.C67_time",
    "GoMetrics.C67_refuted_subsecond",
    "GoMetrics.C67_refuted_fraction",
    "GoMetrics.C67_batch_partial",
    "GoMetrics.C67_returns",
    "GoMetrics.C67_refuted_negative",
    "GoMetrics.C67_period",
    "GoMetrics.C67_period_ieee"
   ],
   "note": "Refuted in general: an interval under one second makes BuildRequest panic (C67_refuted_subsecond), the stamp is a multiple of the full seconds of the interval only (C67_refuted_fraction), and a counter that is not positive is left out (C67_refuted_negative). Proved: time stamp (C67_time), contents (C67_batch_partial), periods (C67_period, exact; C67_period_ieee, float64) and termination (C67_returns)."
  },
  {
   "property": "C68",
   "status": "partial",
   "theorems": [
    "GoMetrics.C68_value",
    "GoMetrics.C68_partial",
    "GoMetrics.C68_refuted"
   ],
   "note": "Refuted (values 0 and 2: 6 instead of 4). C68_value says what is reported instead, C68_partial that it is right exactly for constant values."
  },
  {
   "property": "C69",
   "status": "proved",
   "theorems": [
    "GoMetrics.C69_bounds",
    "GoMetrics.C69_capture",
    "GoMetrics.C69_history",
    "GoMetrics.C69_wrap"
   ],
   "note": "The contents of MemStats (ring of 256 pauses, 32-bit NumGC) follow the documentation of package runtime (Spec.Shows). Limit: nothing is recorded after a multiple of 2^32 collections (C69_wrap)."
  },
  {
   "property": "C70",
   "status": "proved",
   "theorems": [
    "GoMetrics.C70_frees",
    "GoMetrics.C70_lookups",
    "GoMetrics.C70_mallocs",
    "GoMetrics.C70_numGC",
    "GoMetrics.C70_numCgoCall"
   ],
   "note": "Counters growing by less than 2^63 (NumGC: 2^32) between captures, wrapping around in their 64 (32) bits."
  },
  {
   "property": "C71",
   "status": "partial",
   "theorems": [
    "GoMetrics.C71_first_partial",
    "GoMetrics.C71_debug_first_partial",
    "GoMetrics.C71_second",
    "GoMetrics.C71_refuted"
   ],
   "note": "False: only the first registry given ever gets the metrics (C71_refuted, C71_second). Proved for the first registry."
  },
  {
   "property": "C72",
   "status": "proved",
   "theorems": [
    "GoMetrics.C72_no_deadlock"
   ],
   "note": "Any number of goroutines; also every started call finishes when no new ones are started."
  },
  {
   "property": "C73",
   "status": "proved",
   "theorems": [
    "GoMetrics.C73_pauses",
    "GoMetrics.C73_none"
   ],
   "note": "GCs end at different times."
  },
  {
   "property": "C74",
   "status": "proved",
   "theorems": [
    "GoMetrics.C74_shown",
    "GoMetrics.C74_unregistered"
   ],
   "note": "Nothing else happens between registration and captures."
  },
  {
   "property": "C75",
   "status": "proved",
   "theorems": [
    "GoMetrics.C75_no_panic",
    "GoMetrics.C75_progress",
    "GoMetrics.C75_bounded",
    "GoMetrics.C75_complete",
    "GoMetrics.C75_value",
    "GoMetrics.C75_stuck",
    "GoMetrics.C75_refuted"
   ],
   "note": "Requests are sequences of getInt/getFloat + Set statements; reading the metrics (Model/Expvar, C66) and the HTTP response are left out. Under the discipline the property holds (C75_no_panic, C75_progress, C75_bounded, C75_complete, C75_value); without it C75_refuted gives the race and C75_stuck its consequence."
  },
  {
   "property": "C76",
   "status": "proved",
   "theorems": [
    "GoMetrics.C76_recent",
    "GoMetrics.C76_equal",
    "GoMetrics.C76_strict"
   ],
   "note": "Exact real arithmetic; rand.Float64() idealised as continuously uniform in [0,1) and independent. Times within 292 years."
  },
  {
   "property": "C77",
   "status": "partial",
   "theorems": [
    "GoMetrics.C77_insertionSort",
    "GoMetrics.C77_alone",
    "GoMetrics.C77_partial",
    "GoMetrics.C77_progress",
    "GoMetrics.C77_refuted"
   ],
   "note": "Full claim (snapshots may be shared between goroutines) refuted by C77_refuted: values 2, 1 become 2, 2. Proved for sorted values or without Percentile(s) calls. sort.Sort is a parameter with a contract; insertion sort (what sort.Sort does up to 12 elements) is proved to meet it. Element reads and writes are atomic."
  },
  {
   "property": "C78",
   "status": "partial",
   "theorems": [
    "GoMetrics.C78_delivered",
    "GoMetrics.C78_prefix",
    "GoMetrics.C78_dial",
    "GoMetrics.C78_panic",
    "GoMetrics.C78_refuted"
   ],
   "note": "Delivery, prefix, dial and panic clauses proved; the clause 'nil means delivered' is false (C78_refuted): errors of Fprintf and Flush are ignored. bufio.Writer is modelled as a library contract (size 4096, sticky error)."
  },
  {
   "property": "C79",
   "status": "proved",
   "theorems": [
    "GoMetrics.C79_in_turn",
    "GoMetrics.C79_never",
    "GoMetrics.C79_rate",
    "GoMetrics.C79_window",
    "GoMetrics.C79_responds",
    "GoMetrics.C79_cues",
    "GoMetrics.C79_close",
    "GoMetrics.C79_sleep"
   ],
   "note": "time.Tick is modelled as a library contract (channel of capacity one, ticks dropped when full, nil channel for d <= 0); time is read at the moment of each step."
  },
  {
   "property": "C80",
   "status": "partial",
   "theorems": [
    "GoMetrics.C80_posted",
    "GoMetrics.C80_empty",
    "GoMetrics.C80_nan",
    "GoMetrics.C80_run",
    "GoMetrics.C80_leak_refuted"
   ],
   "note": "All clauses proved except the one about connections, refuted by C80_leak_refuted. The JSON text and the HTTP transport are parameters."
  },
  {
   "property": "C81",
   "status": "partial",
   "theorems": [
    "GoMetrics.C81_status",
    "GoMetrics.C81_panic",
    "GoMetrics.C81_partial",
    "GoMetrics.C81_refuted"
   ],
   "note": "Full claim (GetAll does not panic) refuted by C81_refuted: two JSON exports at the same time, the service recovers in between. C81_partial: no panic if no other goroutine declares the check healthy; C81_panic says exactly what else must have happened. A read or write of the interface field is atomic in the model."
  },
  {
   "property": "C82",
   "status": "proved",
   "theorems": [
    "GoMetrics.C82_uniform",
    "GoMetrics.C82_uniform_exclusive",
    "GoMetrics.C82_uniform_progress",
    "GoMetrics.C82_uniform_history",
    "GoMetrics.C82_uniform_keeps_all",
    "GoMetrics.C82_uniform_only_given",
    "GoMetrics.C82_exp",
    "GoMetrics.C82_exp_exclusive",
    "GoMetrics.C82_exp_progress",
    "GoMetrics.C82_exp_history"
   ],
   "note": "Linearizability with respect to the sequential models of C19 to C28 (C82_uniform, C82_exp), mutual exclusion, absence of deadlock, equivalence with a sequential history. Sequentially consistent memory (justified by the mutex); fewer than 2^63 updates in the statements about uniform histories. ExpDecaySample: every statement is one step; Pop and Push of its private heap are one step each."
  },
  {
   "property": "C83",
   "status": "proved",
   "theorems": [
    "GoMetrics.C83_mean",
    "GoMetrics.C83_variance",
    "GoMetrics.C83_variance_relative",
    "GoMetrics.C83_stddev",
    "GoMetrics.C83_percentile",
    "GoMetrics.C83_rank_exact"
   ],
   "note": "Rounding error analysis of the IEEE model, against exact rational statistics (C83_rank_exact: the same code in exact arithmetic computes the reference percentile). Sqrt is taken as correctly rounded."
  },
  {
   "property": "C84",
   "status": "proved",
   "theorems": [
    "GoMetrics.C84_no_drift",
    "GoMetrics.C84_standard",
    "GoMetrics.C84_meter"
   ],
   "note": "Induction over the history with the contraction factor 1 - alpha (C84_no_drift), float64 error of the factor itself (C84_standard), meters (C84_meter). Exp is taken as correctly rounded."
  },
  {
   "property": "C85",
   "status": "proved",
   "theorems": [
    "GoMetrics.C85_numbers",
    "GoMetrics.C85_graphite",
    "GoMetrics.C85_opentsdb",
    "GoMetrics.C85_graphite_paths",
    "GoMetrics.C85_opentsdb_paths",
    "GoMetrics.C85_refuted"
   ],
   "note": "From the layout theorems C62 and the delivery theorem C78, with a byte-level model of the fmt verbs d, f and .2f, and an independent reader. Healthchecks are not exported (C62). C85_refuted: injection through a metric name."
  },
  {
   "property": "C86",
   "status": "proved",
   "theorems": [
    "GoMetrics.Mem.C86_races",
    "GoMetrics.Mem.C86_race_free",
    "GoMetrics.Mem.C86_publication",
    "GoMetrics.Mem.C86_refuted"
   ],
   "note": "Memory-access model of every method, happens-before as an inductive relation; lock discipline, mutual exclusion, safe publication. C86_refuted gives racy executions for each exception. runtime.go and debug.go are not part of this model."
  },
  {
   "property": "C87",
   "status": "proved",
   "theorems": [
    "GoMetrics.Mem.C87_aligned"
   ],
   "note": "Struct layout rules of the Go compiler, applied to every atomic access in the model of C86."
  },
  {
   "property": "C88",
   "status": "proved",
   "theorems": [
    "GoMetrics.C88_log_reads",
    "GoMetrics.C88_log",
    "GoMetrics.C88_log_lines",
    "GoMetrics.C88_librato_reads",
    "GoMetrics.C88_librato_transform",
    "GoMetrics.C88_librato",
    "GoMetrics.C88_refuted"
   ],
   "note": "time.Duration.String is modelled digit by digit. C88_refuted lists wrong labels: 10ms gives the suffix 0ms, 5ms gives ms, a minute gives m0s (Librato: s)."
  },
  {
   "property": "C89",
   "status": "partial",
   "theorems": [
    "GoMetrics.C89_hist",
    "GoMetrics.C89_timer",
    "GoMetrics.C89_whole_partial",
    "GoMetrics.C89_sent",
    "GoMetrics.C89_refuted"
   ],
   "note": "True for whole numbers of percent from 0 to 100 (C89_whole_partial). C89_hist and C89_timer say exactly which percentiles share a name; C89_refuted: 0.5 and 0.504 are sent under one name with different values, 99.9% and 99.99% of a timer are both called 100, 5% of a timer has a space in its name."
  },
  {
   "property": "C90",
   "status": "proved",
   "theorems": [
    "GoMetrics.C90_reads",
    "GoMetrics.C90_lookup",
    "GoMetrics.C90_refuted"
   ],
   "note": "encoding/json's escaping and number layout are modelled byte by byte (trusted text); only the shortest digits of a float are a parameter (`Shortest`), of which it is used that they are read as the same float64. C90_refuted shows why the lookup needs UTF-8: names 0xFE and 0xFF become the same key."
  },
  {
   "property": "C91",
   "status": "proved",
   "theorems": [
    "GoMetrics.C91_valid",
    "GoMetrics.C91_lookup",
    "GoMetrics.C91_metric",
    "GoMetrics.C91_refuted",
    "GoMetrics.C91_name_refuted"
   ],
   "note": "C91_valid is an equivalence; C91_lookup and C91_metric say what is read. C91_refuted: a meter marked in the instant of its creation makes the whole response invalid; C91_name_refuted: so does a counter named with U+0007 or a byte that is not UTF-8."
  },
  {
   "property": "C92",
   "status": "proved",
   "theorems": [
    "GoMetrics.C92_marshal",
    "GoMetrics.C92_reads",
    "GoMetrics.C92_run",
    "GoMetrics.C92_metrics",
    "GoMetrics.C92_names",
    "GoMetrics.C92_names_refuted"
   ],
   "note": "C92_reads and C92_marshal are about every batch, C92_run about every body ever posted, C92_metrics goes from the accessors to the text that is read. C92_names_refuted: names 0xFE and 0xFF give the same body. encoding/json as in C90."
  },
  {
   "property": "C93",
   "status": "proved",
   "theorems": [
    "GoMetrics.C93_independent",
    "GoMetrics.C93_parts",
    "GoMetrics.C93_fresh",
    "GoMetrics.C93_separate"
   ],
   "note": "C93_independent over all histories; C93_separate for any two separately made metrics. Calls one at a time (C86, C87 treat concurrent calls)."
  },
  {
   "property": "C94",
   "status": "proved",
   "theorems": [
    "GoMetrics.C94_mean",
    "GoMetrics.C94_mean_error",
    "GoMetrics.C94_variance",
    "GoMetrics.C94_sum",
    "GoMetrics.C94_share",
    "GoMetrics.C94_share_close",
    "GoMetrics.C94_percentile_above",
    "GoMetrics.C94_percentile_below"
   ],
   "note": "Exact arithmetic over the rationals (rounding: C12-C15 have the IEEE bounds); rand.Int63n is taken as uniform. That Sum and Variance are biased as stated is what the code does; it is recorded in DESIGN.md section 5."
  },
  {
   "property": "C95",
   "status": "proved",
   "theorems": [
    "GoMetrics.C95_add",
    "GoMetrics.C95_add_ieee",
    "GoMetrics.C95_steady",
    "GoMetrics.C95_steady_ieee",
    "GoMetrics.C95_late_refuted"
   ],
   "note": "Marks non-negative and interval totals within int64 (else counts wrap, C31); C95_late_refuted shows the case left out."
  },
  {
   "property": "C96",
   "status": "partial",
   "theorems": [
    "GoMetrics.C96_serial_partial",
    "GoMetrics.C96_pauses_partial",
    "GoMetrics.C96_debug_serial_partial",
    "GoMetrics.C96_reported_partial",
    "GoMetrics.C96_lost_refuted",
    "GoMetrics.C96_twice_refuted",
    "GoMetrics.C96_debug_refuted"
   ],
   "note": "Exactly-once recording holds for captures one at a time (C96_serial_partial, C96_pauses_partial, C96_debug_serial_partial); for overlapping captures it is false (C96_lost_refuted, C96_twice_refuted, C96_debug_refuted) and only C96_reported_partial holds. Statements are executed in one step each."
  },
  {
   "property": "C97",
   "status": "proved",
   "theorems": [
    "GoMetrics.C97_locality",
    "GoMetrics.C97_program"
   ],
   "note": "Locality of linearizability (C97_locality), for objects of any types, and its use for the whole library (C97_program): the specification is the model of all metrics (step). Meters and timers (whose rates are not linearizable, C40), snapshots read concurrently (C77), registries (C50) and functional gauges are not among the objects."
  },
  {
   "property": "C98",
   "status": "proved",
   "theorems": [
    "GoMetrics.C98_writer",
    "GoMetrics.C98_log",
    "GoMetrics.C98_syslog",
    "GoMetrics.C98_newline_refuted",
    "GoMetrics.C98_nil_refuted",
    "GoMetrics.C98_colon_refuted"
   ],
   "note": "C98_writer, C98_log, C98_syslog; that the conditions on names and the convention for nil errors cannot be dropped: C98_newline_refuted, C98_colon_refuted, C98_nil_refuted. Negative zero prints without its sign in the model of formatted numbers."
  },
  {
   "property": "C99",
   "status": "proved",
   "theorems": [
    "GoMetrics.C99_shown",
    "GoMetrics.C99_sequential",
    "GoMetrics.C99_ticks",
    "GoMetrics.C99_stale_refuted"
   ],
   "note": "C99_shown, C99_sequential, C99_ticks. C99_stale_refuted is the witness for the last part: rates that stay old though no call is running. C99_ticks is for exact arithmetic."
  },
  {
   "property": "C100",
   "status": "proved",
   "theorems": [
    "GoMetrics.C100_writer",
    "GoMetrics.C100_log",
    "GoMetrics.C100_syslog",
    "GoMetrics.C100_opentsdb",
    "GoMetrics.C100_stathat",
    "GoMetrics.C100_graphite",
    "GoMetrics.C100_sequential",
    "GoMetrics.C100_cut_refuted"
   ],
   "note": "C100_writer, C100_log, C100_syslog, C100_opentsdb, C100_stathat, C100_graphite (the last three export no healthchecks, see C62); C100_sequential links them to C61 and C62; C100_cut_refuted shows the limit. Hypotheses: the export does not panic (see C63 for when it does), and no registered metric reports the values of a slice that user code still holds. Each call of a metric is one step of the program; for what happens inside Snapshot of meters, timers and samples see C99, C43 and C82."
  },
  {
   "property": "C101",
   "status": "proved",
   "theorems": [
    "GoMetrics.C101_values",
    "GoMetrics.C101_panics",
    "GoMetrics.C101_sequential",
    "GoMetrics.C101_json",
    "GoMetrics.C101_refuted"
   ],
   "note": "C101_values, C101_json, C101_panics, C101_sequential; C101_refuted shows a schedule in which GetAll panics with a nil dereference though no call panics. Hypotheses of C101_values and C101_panics: no registered metric reports the values of a slice that user code still holds. Each call of a metric is one step of the program; for what happens inside Snapshot of meters, timers and samples see C99, C43 and C82."
  },
  {
   "property": "C102",
   "status": "partial",
   "theorems": [
    "GoMetrics.C102_batch_partial",
    "GoMetrics.C102_sequential",
    "GoMetrics.C102_returns",
    "GoMetrics.C102_torn_refuted",
    "GoMetrics.C102_zero_refuted"
   ],
   "note": "C102_batch_partial: each number is one that its accessor had at some moment while its metric was read, but not all at the same moment; C102_returns (F64), C102_sequential (without other goroutines it is the batch of C67). What is missing is false: C102_torn_refuted has a gauge with minimum 5 and maximum 1, C102_zero_refuted a counter with the value 0. Each call of a metric is one step of the program."
  },
  {
   "property": "C103",
   "status": "proved",
   "theorems": [
    "GoMetrics.C103_program",
    "GoMetrics.C103_history",
    "GoMetrics.C103_alone"
   ],
   "note": "C103_program (on top of C50, C82, C97_locality), C103_history (the states in between are those of histories of the one-at-a-time model), C103_alone (for calls that do not overlap the order is that of the calls; used to show that a wrong history is rejected)."
  },
  {
   "property": "C104",
   "status": "proved",
   "theorems": [
    "GoMetrics.C104_names",
    "GoMetrics.C104_registered",
    "GoMetrics.C104_count"
   ],
   "note": "C104_names (linearizability with one metric per name), C104_registered (the registry holds that metric), C104_count (counters: the sum). The steps of GetOrRegister are those of C50; the method of the metric is one step (justified by C02, C56, C61, C82). An example shows that an increment is lost if the name is unregistered meanwhile."
  },
  {
   "property": "C105",
   "status": "proved",
   "theorems": [
    "GoMetrics.C105_results",
    "GoMetrics.C105_exports"
   ],
   "note": "C105_results (all calls of a history), C105_exports (WriteOnce, Log, Syslog, Graphite, OpenTSDB, StatHat, GetAll, Librato). Instants are numbers of nanoseconds; the range limits of time.Time itself are left out."
  },
  {
   "property": "C106",
   "status": "proved",
   "theorems": [
    "GoMetrics.C106_clear",
    "GoMetrics.C106_histogram"
   ],
   "note": "C106_clear (counters, uniform and exponentially decaying samples), C106_histogram (histograms over these samples)."
  },
  {
   "property": "C107",
   "status": "partial",
   "theorems": [
    "GoMetrics.C107_calls_partial",
    "GoMetrics.C107_writer_partial",
    "GoMetrics.C107_log_partial",
    "GoMetrics.C107_syslog_partial",
    "GoMetrics.C107_graphite_partial",
    "GoMetrics.C107_opentsdb_partial",
    "GoMetrics.C107_stathat_partial",
    "GoMetrics.C107_expvar_partial",
    "GoMetrics.C107_getAll_partial",
    "GoMetrics.C107_json_partial",
    "GoMetrics.C107_librato_partial",
    "GoMetrics.C107_percentile_refuted",
    "GoMetrics.C107_snapshot_refuted",
    "GoMetrics.C107_health_refuted",
    "GoMetrics.C107_librato_refuted"
   ],
   "note": "C107_calls_partial (single calls), C107_writer_partial, C107_log_partial, C107_syslog_partial, C107_graphite_partial, C107_opentsdb_partial, C107_stathat_partial, C107_expvar_partial, C107_getAll_partial, C107_json_partial, C107_librato_partial: proved without percentiles of UniformSamples and SampleSnapshots, exported metrics over SampleSnapshots, and exported healthchecks. The other cases are false: C107_percentile_refuted, C107_librato_refuted, C107_snapshot_refuted, C107_health_refuted."
  },
  {
   "property": "C108",
   "status": "proved",
   "theorems": [
    "GoMetrics.C108_origin",
    "GoMetrics.C108_held",
    "GoMetrics.C108_bound",
    "GoMetrics.C108_empty",
    "GoMetrics.C108_newRegistered_refuted",
    "GoMetrics.C108_eager_refuted"
   ],
   "note": "C108_origin (where every ticked meter comes from), C108_held, C108_bound, C108_empty (programs that leave the construction to the registry). C108_newRegistered_refuted, C108_eager_refuted: the two ways to leak one."
  },
  {
   "property": "C109",
   "status": "proved",
   "theorems": [
    "GoMetrics.C109_counter",
    "GoMetrics.C109_gauge",
    "GoMetrics.C109_gaugeFloat",
    "GoMetrics.C109_ewma",
    "GoMetrics.C109_meter",
    "GoMetrics.C109_tick_refuted",
    "GoMetrics.C109_timer_refuted"
   ],
   "note": "C109_counter, C109_gauge, C109_gaugeFloat, C109_ewma, C109_meter: wait-freedom with a bound on the steps, in the machines of C02, C33, C36. Steps are atomic operations on shared fields; Go's scheduler must run the calling goroutine. Stop of a meter takes the arbiter's lock and is not claimed. C109_tick_refuted, C109_timer_refuted: calls that may wait."
  },
  {
   "property": "C110",
   "status": "proved",
   "theorems": [
    "GoMetrics.C110_counted",
    "GoMetrics.C110_update",
    "GoMetrics.C110_total"
   ],
   "note": "C110_update, C110_total for a version of the model that counts the comparisons; C110_counted: apart from the counter it is the model of the other properties (same results, same panics). Swaps are at most as many as comparisons; time for exp and rand is one call per update (and one exp per value in a rescale) and is not counted."
  },
  {
   "property": "C111",
   "status": "proved",
   "theorems": [
    "GoMetrics.C111_uniform",
    "GoMetrics.C111_uniform_increasing",
    "GoMetrics.C111_uniform_reads_refuted",
    "GoMetrics.C111_exp",
    "GoMetrics.C111_extremes",
    "GoMetrics.C111_mean_variance",
    "GoMetrics.C111_percentile",
    "GoMetrics.C111_stdDev",
    "GoMetrics.C111_overflow_refuted"
   ],
   "note": "The statistics are over exact arithmetic, the standard deviation over the reals, max and min over int64; the choice of what is kept over every float arithmetic. The two limits (percentile reads with a function that does not keep the order; a sum that leaves int64) are shown by witnesses."
  },
  {
   "property": "C112",
   "status": "proved",
   "theorems": [
    "GoMetrics.C112_rate",
    "GoMetrics.C112_rate_ieee",
    "GoMetrics.C112_slow_clock",
    "GoMetrics.C112_start_refuted",
    "GoMetrics.C112_clock",
    "GoMetrics.C112_busy_refuted"
   ],
   "note": "C112_rate (exact), C112_rate_ieee (float64), C112_clock; the limits are shown by C112_slow_clock, C112_start_refuted, C112_busy_refuted. All ticks of a meter are taken to be made at the time of their pass; time.Ticker is modelled as in C79."
  },
  {
   "property": "C113",
   "status": "proved",
   "theorems": [
    "GoMetrics.C113_stays",
    "GoMetrics.C113_stale",
    "GoMetrics.C113_refuted"
   ],
   "note": "C113_stays, C113_stale; C113_refuted is the witness against the natural claim. C113_stale is over the runs of C66 (the conditions under which a request returns)."
  },
  {
   "property": "C114",
   "status": "proved",
   "theorems": [
    "GoMetrics.C114_ticked",
    "GoMetrics.C114_exact",
    "GoMetrics.C114_two_names_refuted",
    "GoMetrics.C114_two_registries_refuted",
    "GoMetrics.C114_again_refuted"
   ],
   "note": "C114_ticked, C114_exact (with C108); the limits are C114_two_names_refuted, C114_two_registries_refuted, C114_again_refuted."
  },
  {
   "property": "C115",
   "status": "proved",
   "theorems": [
    "GoMetrics.C115_one_by_one",
    "GoMetrics.C115_after_silence",
    "GoMetrics.C115_usual",
    "GoMetrics.C115_idle"
   ],
   "note": "C115_one_by_one (any float arithmetic), C115_after_silence and C115_usual (exact reals), C115_idle (any reachable state)."
  },
  {
   "property": "C116",
   "status": "proved",
   "theorems": [
    "GoMetrics.C116_stuck",
    "GoMetrics.C116_zero_draw",
    "GoMetrics.C116_usual"
   ],
   "note": "C116_stuck, C116_zero_draw, C116_usual (1028 values, alpha 0.015). math.Exp is taken to be correctly rounded; the bounds 711 and 744 are away from the limits 709.8 and 745.1."
  },
  {
   "property": "C117",
   "status": "proved",
   "theorems": [
    "GoMetrics.C117_own",
    "GoMetrics.C117_blocked",
    "GoMetrics.C117_returns_iff",
    "GoMetrics.C117_response",
    "GoMetrics.C117_new_handler",
    "GoMetrics.C117_refuted"
   ],
   "note": "C117_own, C117_blocked, C117_returns_iff, C117_response, C117_new_handler; C117_refuted for the plain claim. One request at a time (interleaved requests: C75)."
  },
  {
   "property": "C118",
   "status": "proved",
   "theorems": [
    "GoMetrics.C118_distribution",
    "GoMetrics.C118_average",
    "GoMetrics.C118_chance",
    "GoMetrics.C118_mean",
    "GoMetrics.C118_refuted"
   ],
   "note": "C118_distribution, C118_average, C118_chance, C118_mean; C118_refuted against the plain claim of uniformity (contrast C21). Real arithmetic; draws are independent and uniform in [0,1)."
  },
  {
   "property": "C119",
   "status": "proved",
   "theorems": [
    "GoMetrics.C119_bound",
    "GoMetrics.C119_routine",
    "GoMetrics.C119_snapshot"
   ],
   "note": "C119_bound, C119_routine, C119_snapshot. Memory is counted in objects, slices, values, registry entries and meters of the clock; temporary copies (percentile reads of ExpDecaySample, the copy of a map made by Each) are not counted, nor is what the garbage collector frees."
  },
  {
   "property": "C120",
   "status": "partial",
   "theorems": [
    "GoMetrics.C120_total_partial",
    "GoMetrics.C120_again",
    "GoMetrics.C120_right",
    "GoMetrics.C120_nothing",
    "GoMetrics.C120_panic",
    "GoMetrics.C120_refuted"
   ],
   "note": "False: C120_refuted (one event, two reports, total two). What holds: C120_total_partial, C120_again, C120_right, C120_nothing. That StatHat adds up counts is taken from its documentation."
  },
  {
   "property": "C121",
   "status": "partial",
   "theorems": [
    "GoMetrics.C121_timer",
    "GoMetrics.C121_histogram_partial",
    "GoMetrics.C121_low",
    "GoMetrics.C121_refuted"
   ],
   "note": "False for histograms: C121_refuted (four times 10, one value kept: average 2.5 beside a minimum of 10). What holds: C121_timer, C121_histogram_partial (with when it is right), C121_low. That Librato shows sum / count is taken from its documentation."
  },
  {
   "property": "C122",
   "status": "partial",
   "theorems": [
    "GoMetrics.C122_writer",
    "GoMetrics.C122_log",
    "GoMetrics.C122_syslog",
    "GoMetrics.C122_stathat",
    "GoMetrics.C122_opentsdb_partial",
    "GoMetrics.C122_graphite_partial",
    "GoMetrics.C122_writer_ieee",
    "GoMetrics.C122_log_ieee",
    "GoMetrics.C122_syslog_ieee",
    "GoMetrics.C122_stathat_ieee",
    "GoMetrics.C122_opentsdb_refuted",
    "GoMetrics.C122_graphite_refuted",
    "GoMetrics.C122_getAll",
    "GoMetrics.C122_getAll_ieee",
    "GoMetrics.C122_getAll_live",
    "GoMetrics.C122_writer_live",
    "GoMetrics.C122_log_live",
    "GoMetrics.C122_syslog_live",
    "GoMetrics.C122_stathat_live"
   ],
   "note": "False for timers: C122_opentsdb_refuted (one duration of 1999 ns, unit 1 µs: maximum 1, mean 1.999), C122_graphite_refuted (maximum 1, median 1999). What holds: C122_writer, C122_log, C122_syslog, C122_stathat, C122_opentsdb_partial, C122_graphite_partial, in exact arithmetic; the first four also with float64 (_ieee), and with float64 while other goroutines run during the export (_live)."
  },
  {
   "property": "C123",
   "status": "partial",
   "theorems": [
    "GoMetrics.C123_names",
    "GoMetrics.C123_partial",
    "GoMetrics.C123_refuted"
   ],
   "note": "False: C123_refuted (a meter \"x\" with count 2 and a counter \"x.count\" with count 1: StatHat shows 3). C123_names says which statistics a report posts to; C123_partial says exactly when they are distinct."
  },
  {
   "property": "C124",
   "status": "partial",
   "theorems": [
    "GoMetrics.C124_partial",
    "GoMetrics.C124_refuted",
    "GoMetrics.C124_gauges_refuted"
   ],
   "note": "False: C124_refuted (a counter \"x\" with 1 and a meter \"x.count\" with 2), C124_gauges_refuted (a gauge \"x.1min\" and a meter \"x\"). C124_partial says exactly when the counters have different names; missing: the same for gauges, whose names contain percentiles (C89)."
  },
  {
   "property": "C125",
   "status": "proved",
   "theorems": [
    "GoMetrics.C125_stubs",
    "GoMetrics.C125_calm",
    "GoMetrics.C125_writer",
    "GoMetrics.C125_log",
    "GoMetrics.C125_syslog",
    "GoMetrics.C125_opentsdb",
    "GoMetrics.C125_stathat",
    "GoMetrics.C125_graphite",
    "GoMetrics.C125_getAll",
    "GoMetrics.C125_returns",
    "GoMetrics.C125_json"
   ],
   "note": "Sequential programs; the reports of C62 and C65 on top. UseNilMetrics set later, or reset, gives a mixture (C05, C56)."
  },
  {
   "property": "C126",
   "status": "proved",
   "theorems": [
    "GoMetrics.C126_holds",
    "GoMetrics.C126_count",
    "GoMetrics.C126_stats",
    "GoMetrics.C126_extremes",
    "GoMetrics.C126_sum",
    "GoMetrics.C126_snapshot",
    "GoMetrics.C126_stats_exact",
    "GoMetrics.C126_percentile"
   ],
   "note": "Sequential programs (concurrent ones: C97, C103). Time(f) is the Update of C44. Reservoir size 0 is left out (C24: Update panics on a decaying sample)."
  },
  {
   "property": "C127",
   "status": "proved",
   "theorems": [
    "GoMetrics.C127_counter",
    "GoMetrics.C127_gauge",
    "GoMetrics.C127_gauge_float",
    "GoMetrics.C127_meter",
    "GoMetrics.C127_meter_stopped",
    "GoMetrics.C127_report_counter",
    "GoMetrics.C127_report_gauge",
    "GoMetrics.C127_report_gauge_float",
    "GoMetrics.C127_report_meter",
    "GoMetrics.C127_report_distribution",
    "GoMetrics.C127_graphite",
    "GoMetrics.C127_opentsdb"
   ],
   "note": "Sequential programs (concurrent ones: C97, C103). A timer's update counts with its meter unless the update of its histogram panics (a histogram on a snapshot). The way to the servers assumes what C85 assumes (names without spaces and line ends)."
  },
  {
   "property": "C128",
   "status": "proved",
   "theorems": [
    "GoMetrics.C128_afterwards",
    "GoMetrics.C128_order",
    "GoMetrics.C128_counter",
    "GoMetrics.C128_gauge",
    "GoMetrics.C128_gauge_float",
    "GoMetrics.C128_count",
    "GoMetrics.C128_stats"
   ],
   "note": "The concurrent part of the program is as in C103: meters, timers, constructor functions passed to GetOrRegister, and metrics made meanwhile are left out (C104 for racing constructors)."
  }
 ]
}