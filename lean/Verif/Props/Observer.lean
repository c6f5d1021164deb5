import Verif.Lemmas.Observer
import Verif.Props.Export
import Verif.Props.GetAll

/-! Property theorem C107: looking at metrics does not change what happens later. -/

set_option linter.unusedSimpArgs false
set_option linter.unusedSectionVars false

namespace GoMetrics
open Spec Renumber

variable {F : Type} [GoFloat F] [GoSqrt F] [GoExp F]

/-- C107, single calls: nothing that the program does later can tell whether an accessor was called, or a `Snapshot()`, `Values()` or `Sample()`, of any object. For percentiles this is proved if the sample is not a
`UniformSample` or `SampleSnapshot`; it is false for those: `C107_percentile_refuted`. -/
theorem C107_calls_partial (h : List (Env F × Op F)) (env : Env F) (r : Ref) (c : Call F) (hc : looks c = true) (hp : isPercentile c = true → decaying (World.init.run h) r) :
    Indistinguishable (World.init.run h) (call env r c (World.init.run h)).1 :=
  Looked.indistinguishable (run_ok h) (tidy_run h) (looks_looked (run_ok h) (tidy_run h) env r hc hp)

section export_
variable (h : List (Env F × Op F)) (env : Env F) (g : Reg) (id : Nat) (hb : base g = some id)

/-- What is asked of the metrics that the registry shows: none is a snapshot or stands on one (`slice`), and none is a healthcheck. Without them C107 is false: `C107_snapshot_refuted`, `C107_health_refuted`. -/
def Plain (w : World F) (g : Reg) (id : Nat) : Prop :=
  ∀ name r, gets w id name = some r → (prefixes g).flatten <+: name → slice w r = none ∧ ∀ o, w.objs r = some o → isHealth o = false

/-- The same, where healthchecks are not exported (C62). -/
def NoSnapshots (w : World F) (g : Reg) (id : Nat) : Prop := ∀ name r, gets w id name = some r → (prefixes g).flatten <+: name → slice w r = none

variable {h} {g} {id}

private theorem health_ty {o : Obj F} (h : o.ty = .health) : isHealth o = true := by cases o <;> simp [Obj.ty] at h; rfl

private theorem plain_lookable {w : World F} (hp : Plain w g id) {sw : Obj F → Option (Case F)} : ∀ name r, gets w id name = some r → (prefixes g).flatten <+: name → Lookable sw w r :=
  fun name r h1 h2 => ⟨(hp name r h1 h2).1, fun o ho ht => by have := (hp name r h1 h2).2 o ho; rw [health_ty ht] at this; cases this⟩

private theorem lookable {w : World F} (hp : NoSnapshots w g id) {sw : Obj F → Option (Case F)} (hsw : ∀ o : Obj F, o.ty = .health → sw o = none) :
    ∀ name r, gets w id name = some r → (prefixes g).flatten <+: name → Lookable sw w r :=
  fun name r h1 h2 => ⟨hp name r h1 h2, fun o _ ht => hsw o ht⟩

include hb in
private theorem each_unseen {sw : Obj F → Option (Case F)} (hsw : GoodSwitch sw)
    (hp : ∀ name r, gets (World.init.run h : World F) id name = some r → (prefixes g).flatten <+: name → Lookable sw (World.init.run h) r) :
    Indistinguishable (World.init.run h) (each env g (exportMetric env sw) (World.init.run h, [])).1.1 :=
  Looked.indistinguishable (run_ok h) (tidy_run h) (each_looked (run_ok h) (tidy_run h) hb hp
    (fun _ _ o _ hk ho hl => exportMetric_looked (run_ok h) env hsw ⟨o, ho⟩ hk hl) [])

include hb
/-- C107, writer.go. -/
theorem C107_writer_partial (sorter : Sorter) (hp : Plain (World.init.run h : World F) g id) : Indistinguishable (World.init.run h) (writeOnce env sorter g (World.init.run h)).1.1 := by
  have hw : (World.init.run h : World F).Ok := run_ok h
  refine Looked.indistinguishable hw (tidy_run h) ?_
  rw [writeOnce_eq env sorter g id hb]
  refine visit_looked (P := fun e => Lookable writerSwitch (World.init.run h) e.2 ∧ ∃ o, (World.init.run h : World F).objs e.2 = some o)
    (fun e y he hy => exportMetric_looked hw env good_writer he.2 he.1 hy) _ _ (fun e he => ?_) (Looked.refl hw (tidy_run h))
  rw [(sorter.perm _).mem_iff] at he
  obtain ⟨h1, h2⟩ := (eachList_mem env g id hw e.1 e.2).1 he
  obtain ⟨o, ho, -⟩ := objs_of hw h1
  exact ⟨plain_lookable hp _ _ h1 h2, o, ho⟩

/-- C107, log.go. -/
theorem C107_log_partial (scale : Int64) (scaleString : Str) (hp : Plain (World.init.run h : World F) g id) :
    Indistinguishable (World.init.run h) (logScaledOnce env g scale scaleString (World.init.run h)).1.1 := each_unseen env hb (good_log _ _) (plain_lookable hp)

/-- C107, syslog.go. -/
theorem C107_syslog_partial (hp : Plain (World.init.run h : World F) g id) : Indistinguishable (World.init.run h) (syslogOnce env g (World.init.run h)).1.1 :=
  each_unseen env hb good_syslog (plain_lookable hp)

/-- C107, graphite.go. -/
theorem C107_graphite_partial (cfg : GraphiteConfig F) (hp : NoSnapshots (World.init.run h : World F) g id) :
    Indistinguishable (World.init.run h) (graphiteOnce env cfg g (World.init.run h)).1.1 :=
  each_unseen env hb (good_graphite cfg) (lookable hp fun o ho => by cases o <;> simp [Obj.ty] at ho; rfl)

/-- C107, opentsdb.go. -/
theorem C107_opentsdb_partial (cfg : OpenTSDBConfig) (hp : NoSnapshots (World.init.run h : World F) g id) :
    Indistinguishable (World.init.run h) (openTSDBOnce env cfg g (World.init.run h)).1.1 :=
  each_unseen env hb (good_openTSDB cfg) (lookable hp fun o ho => by cases o <;> simp [Obj.ty] at ho; rfl)

/-- C107, stathat.go. -/
theorem C107_stathat_partial (key : Str) (hp : NoSnapshots (World.init.run h : World F) g id) : Indistinguishable (World.init.run h) (stathatOnce env key g (World.init.run h)).1.1 :=
  each_unseen env hb (good_stathat key) (lookable hp fun o ho => by cases o <;> simp [Obj.ty] at ho; rfl)

/-- C107, exp.go: whether the handler answers or not. -/
theorem C107_expvar_partial (s : Expvar F) (hp : NoSnapshots (World.init.run h : World F) g id) : Indistinguishable (World.init.run h) (expHandler env g (World.init.run h, s)).1.1 := by
  refine Looked.indistinguishable (run_ok h) (tidy_run h) ?_
  have := each_looked (run_ok h) (tidy_run h) (env := env) hb hp (fun name r o y hk ho hl => expCallback_looked (name := name) (run_ok h) env ⟨o, ho⟩ hk hl) (s, false)
  rw [expHandler, syncToExpvar]
  dsimp only
  generalize each env g (expCallback env) (World.init.run h, s, false) = z at this ⊢
  obtain ⟨⟨w1, v, _ | _⟩, _ | _⟩ := z <;> exact this

/-- C107, registry.go `GetAll` (of a prefixed registry, too: it shows all metrics, C55). -/
theorem C107_getAll_partial (hp : Plain (World.init.run h : World F) (.std id) id) : Indistinguishable (World.init.run h) (getAll env g (World.init.run h)).1 := by
  refine Looked.indistinguishable (run_ok h) (tidy_run h) ?_
  rw [getAll_base env g id hb]
  have := each_looked (run_ok h) (tidy_run h) (env := env) (g := .std id) rfl hp
    (fun name r o y hk ho hl => getAllCallback_looked (name := name) (run_ok h) env ho (fun e => by have := hk.2 o ho; rw [health_ty e] at this; cases this) hk.1 hl) []
  rw [getAll]
  generalize each env (.std id) (getAllCallback env) (World.init.run h, []) = z at this ⊢
  obtain ⟨⟨w1, v⟩, _ | _⟩ := z <;> exact this

/-- C107, json.go. -/
theorem C107_json_partial (t : JsonText F) (srt : KeySorter) (hp : Plain (World.init.run h : World F) (.std id) id) :
    Indistinguishable (World.init.run h) (writeJSONOnce env t srt g (World.init.run h)).1 := by
  have := C107_getAll_partial env hb hp
  rw [writeJSONOnce, marshalJSON]
  generalize getAll env g (World.init.run h) = z at this ⊢
  obtain ⟨w1, _ | _ | data⟩ := z
  · exact this
  · exact this
  · show Indistinguishable _ (match (w1, Except.ok (jsonMarshal t srt data)) with
      | (w', Except.ok (some s)) => (w', Except.ok (s ++ [10]))
      | (w', Except.ok none) => (w', Except.ok [])
      | (w', Except.error p) => (w', Except.error p) : World F × Res Str).1
    rcases jsonMarshal t srt data with _ | s <;> exact this

/-- C107, librato.go, which reads the metrics themselves and not snapshots: no metric may have a `UniformSample` or `SampleSnapshot`. Otherwise it is false: `C107_librato_refuted`. -/
theorem C107_librato_partial (cfg : Reporter F) (now : Int64)
    (hp : ∀ name r, gets (World.init.run h : World F) id name = some r → (prefixes g).flatten <+: name → decaying (World.init.run h : World F) r) :
    Indistinguishable (World.init.run h) (buildRequest env cfg now g (World.init.run h)).1 := by
  refine Looked.indistinguishable (run_ok h) (tidy_run h) ?_
  have := each_looked (run_ok h) (tidy_run h) (env := env) hb hp (fun name r o y hk ho hl => libratoCallback_looked (name := name) (run_ok h) env cfg ho hk hl) ([], [])
  rw [buildRequest]
  split
  · exact Looked.refl (run_ok h) (tidy_run h)
  · generalize each env g (libratoCallback env cfg) (World.init.run h, [], []) = z at this ⊢
    obtain ⟨⟨w1, v⟩, _ | _⟩ := z <;> exact this

end export_

/-! ### Examples -/

theorem envAt_positional (t : Instant) : positional (envAt t : Env F) := fun _ _ => rfl

/-- A registry with a histogram over a `UniformSample` of size 2 that holds 2 and 1, and a counter. -/
def lookHistory : List (Env F × Op F) :=
  [(envAt 0, .new (.uniform 2)), (envAt 0, .new (.hist 0)), (envAt 0, .reg (.std 0) (.register (bytes "h") (.obj 1))), (envAt 0, .call 1 (.update 2)), (envAt 0, .call 1 (.update 1)),
    (envAt 0, .new .counter), (envAt 0, .reg (.std 0) (.register (bytes "c") (.obj 2)))]

/-- Afterwards: a third value, which replaces the first one (the draw is 0); `Min()`; a new counter, which is incremented. -/
def lookAfter : List (Env F × Op F) :=
  [(envAt 1, .call 0 (.update 5)), (envAt 1, .call 0 (.stat .min)), (envAt 1, .new .counter), (envAt 1, .call 3 (.inc 4)), (envAt 1, .call 3 .count)]

/-- The numbers among the results. -/
def lookNumbers (l : List (Res (OpOut F))) : List Int64 := l.filterMap fun | .ok (.out (.int n)) => some n | _ => none

private theorem lookNumbers_move (M : Move) (l : List (Res (OpOut F))) : lookNumbers (l.map (Except.map M.opOut)) = lookNumbers l := by
  unfold lookNumbers
  rw [List.filterMap_map]
  refine List.filterMap_congr fun x _ => ?_
  rcases x with e | o
  · rfl
  · rcases o with o | o
    · cases o <;> rfl
    · rfl

theorem distinguished {w w' : World F} (l : List (Env F × Op F)) (hl : ∀ x ∈ l, positional x.1)
    (h : lookNumbers (results w' (l.map fun x => (x.1, (Move.between w w').op x.2))) ≠ lookNumbers (results w l)) : ¬ Indistinguishable w w' := fun hi =>
  h (by rw [hi l hl, lookNumbers_move])

theorem lookAfter_positional : ∀ x ∈ (lookAfter : List (Env F × Op F)), positional x.1 := by
  intro x hx
  simp only [lookAfter, List.mem_cons, List.not_mem_nil, or_false] at hx
  rcases hx with rfl | rfl | rfl | rfl | rfl <;> exact envAt_positional _

theorem look_plain : Plain (World.init.run lookHistory : World F64) (.std 0) 0 := by
  intro name r h1 _
  have h2 : (World.init.run lookHistory : World F64).regs 0 = [(bytes "c", 2), (bytes "h", 1)] := by decide +kernel
  rw [gets_eq] at h1
  have h3 := lookup_some_mem h1
  rw [h2] at h3
  simp only [List.mem_cons, Prod.mk.injEq, List.not_mem_nil, or_false] at h3
  have h4 : slice (World.init.run lookHistory : World F64) 1 = none ∧ slice (World.init.run lookHistory : World F64) 2 = none := by decide +kernel
  have h5 : ((World.init.run lookHistory : World F64).objs 1).all (fun o => !isHealth o) = true ∧ ((World.init.run lookHistory : World F64).objs 2).all (fun o => !isHealth o) = true := by decide +kernel
  rcases h3 with ⟨-, rfl⟩ | ⟨-, rfl⟩
  rotate_left
  · exact ⟨h4.1, fun o ho => by have := h5.1; rw [ho] at this; simpa using this⟩
  · exact ⟨h4.2, fun o ho => by have := h5.2; rw [ho] at this; simpa using this⟩

/-- After `WriteOnce` the results are the same, though it has made three objects: the new counter is number 6 and not 3. -/
example : results (writeOnce (envAt 0) byName (.std 0) (World.init.run lookHistory : World F64)).1.1
      (lookAfter.map fun x => (x.1, (Move.between (World.init.run lookHistory) (writeOnce (envAt 0) byName (.std 0) (World.init.run lookHistory : World F64)).1.1).op x.2)) =
    (results (World.init.run lookHistory : World F64) lookAfter).map (Except.map (Move.between (World.init.run lookHistory) (writeOnce (envAt 0) byName (.std 0) (World.init.run lookHistory : World F64)).1.1).opOut) :=
  C107_writer_partial (envAt 0) rfl byName look_plain lookAfter lookAfter_positional
example : lookNumbers (results (World.init.run lookHistory : World F64) lookAfter) = [1, 4] := by decide +kernel
example : (World.init.run lookHistory : World F64).nextObj = 3 ∧ (writeOnce (envAt 0) byName (.std 0) (World.init.run lookHistory : World F64)).1.1.nextObj = 5 := by decide +kernel
example := C107_getAll_partial (F := F64) (envAt 0) (g := .std 0) rfl look_plain
example := C107_log_partial (F := F64) (envAt 0) (g := .std 0) rfl 1000000 (bytes "1ms") look_plain
example := C107_graphite_partial (F := F64) (envAt 0) (g := .std 0) rfl { durationUnit := 1000, pre := [112], percentiles := [.fin (1 / 2)], now := 7, formatFloat := fun _ => bytes "50" }
  fun name r h1 h2 => (look_plain name r h1 h2).1
example := C107_calls_partial (F := F64) lookHistory (envAt 0) 1 (.stat .max) rfl fun h => by cases h

/-- A registry with a histogram over an `ExpDecaySample`. -/
def decayHistory : List (Env F × Op F) :=
  [(envAt 0, .new (.exp 2 (GoFloat.lit 1))), (envAt 0, .new (.hist 0)), (envAt 0, .reg (.std 0) (.register (bytes "h") (.obj 1))), (envAt 0, .call 1 (.update 2))]

theorem decay_decaying : decaying (World.init.run decayHistory : World F64) 1 := by
  have h1 : (match (World.init.run decayHistory : World F64).objs 1 with | some (.hist (.std q)) => decide (q = 0) | _ => false) = true := by decide +kernel
  have h0 : (match (World.init.run decayHistory : World F64).objs 0 with | some (.sample (.exp _)) => true | _ => false) = true := by decide +kernel
  split at h1
  case h_2 => cases h1
  rename_i q h1'
  obtain rfl := of_decide_eq_true h1
  split at h0
  case h_2 => cases h0
  rename_i s h0'
  rintro x y (rfl | h2 | h2) hy
  · rw [h1'] at hy
    cases hy
  · simp only [histSample, h1', Option.some.injEq] at h2
    subst h2
    rw [h0'] at hy
    cases hy
    exact .inl ⟨_, rfl⟩
  · rw [h1'] at h2
    exact h2.elim

example := C107_calls_partial (F := F64) decayHistory (envAt 0) 1 (.stat (.percentile (GoFloat.lit 0))) rfl fun _ => decay_decaying
example := C107_librato_partial (F := F64) (h := decayHistory) (envAt 0) (g := .std 0) (id := 0) rfl (newReporter 60000000000 [] [GoFloat.lit 0]) 0 fun name r h1 _ => by
  have h2 : (World.init.run decayHistory : World F64).regs 0 = [(bytes "h", 1)] := by decide +kernel
  rw [gets_eq] at h1
  have h3 := lookup_some_mem h1
  rw [h2] at h3
  simp only [List.mem_cons, Prod.mk.injEq, List.not_mem_nil, or_false] at h3
  rw [h3.2]
  exact decay_decaying

/-! ### Refutations -/

/-- C107 is false for percentiles of a `UniformSample`: they put its values in order, and the next value that is recorded then replaces another one. -/
theorem C107_percentile_refuted : ∃ (h : List (Env F64 × Op F64)) (env : Env F64) (r : Ref) (p : F64), ¬ Indistinguishable (World.init.run h) (call env r (.stat (.percentile p)) (World.init.run h)).1 :=
  ⟨lookHistory, envAt 0, 1, GoFloat.lit 0, distinguished lookAfter lookAfter_positional (by decide +kernel)⟩

/-- A registry with a histogram over a `SampleSnapshot` of the program's slice `[2, 1]`. -/
def sliceHistory : List (Env F × Op F) :=
  [(envAt 0, .slice (.make [2, 1])), (envAt 0, .new (.sampleSnap 2 0)), (envAt 0, .new (.hist 0)), (envAt 0, .reg (.std 0) (.register (bytes "h") (.obj 1)))]

/-- Afterwards: the program sets the first element of its slice, and asks for `Min()`. -/
def sliceAfter : List (Env F × Op F) := [(envAt 1, .slice (.set 0 0 5)), (envAt 1, .call 1 (.stat .min))]

theorem sliceAfter_positional : ∀ x ∈ (sliceAfter : List (Env F × Op F)), positional x.1 := by
  intro x hx
  simp only [sliceAfter, List.mem_cons, List.not_mem_nil, or_false] at hx
  rcases hx with rfl | rfl <;> exact envAt_positional _

/-- C107 is false for exports of a metric over a `SampleSnapshot`: `WriteOnce` puts the slice the program gave it in order. -/
theorem C107_snapshot_refuted : ∃ (h : List (Env F64 × Op F64)) (env : Env F64) (id : Nat), ¬ Indistinguishable (World.init.run h) (writeOnce env byName (.std id) (World.init.run h)).1.1 :=
  ⟨sliceHistory, envAt 0, 0, distinguished sliceAfter sliceAfter_positional (by decide +kernel)⟩

/-- The errors among the results. -/
def lookErrors (l : List (Res (OpOut F))) : List GoError := l.filterMap fun | .ok (.out (.err e)) => some e | _ => none

/-- A registry with a healthcheck. -/
def checkHistory : List (Env F × Op F) := [(envAt 0, .new (.health 0)), (envAt 0, .reg (.std 0) (.register (bytes "x") (.obj 0)))]

/-- C107 is false for exports of a healthcheck: `WriteOnce` runs the check, and later `Error()` gives its result. -/
theorem C107_health_refuted : ∃ (h : List (Env F64 × Op F64)) (env : Env F64) (id : Nat), ¬ Indistinguishable (World.init.run h) (writeOnce env byName (.std id) (World.init.run h)).1.1 := by
  refine ⟨checkHistory, envAt 0, 0, fun hi => ?_⟩
  have h1 := congrArg lookErrors (hi [(envAt 1, .call 0 .error)] (by
    intro x hx
    rw [List.mem_singleton] at hx
    subst hx
    exact envAt_positional _))
  revert h1
  decide +kernel

private theorem squares_keep {w : World F} {r : Ref} {s : UniformSample} (hr : w.objs r = some (.sample (.uniform s))) (env : Env F) : ∃ v, sumSquares env r w = (w, .ok v) := by
  have h1 : readInt env r .count w = (w, .ok s.count) := by simp only [readInt, act_bind]; rw [call_obj hr]; rfl
  have h2 : ∃ v, readFloat env r (.stat .mean) w = (w, .ok v) := by simp only [readFloat, act_bind]; rw [call_obj hr]; exact ⟨_, rfl⟩
  have h3 : ∃ v, readFloat env r (.stat .stdDev) w = (w, .ok v) := by simp only [readFloat, act_bind]; rw [call_obj hr]; exact ⟨_, rfl⟩
  obtain ⟨m, h2⟩ := h2
  obtain ⟨d, h3⟩ := h3
  simp only [sumSquares, act_bind, h1, h2, h3]
  split <;> exact ⟨_, rfl⟩

/-- What the Librato exporter does to a histogram over a `UniformSample`, with one percentile. -/
private theorem metric_sorts {w : World F} {r q : Ref} {s : UniformSample} (hr : w.objs r = some (.hist (.std q))) (hq : w.objs q = some (.sample (.uniform s))) (hn : s.count > 0)
    (env : Env F) (cfg : Reporter F) (name : Str) {p : F} (hp : cfg.percentiles = [p]) :
    (libratoMetric env cfg name r (.hist (.std q)) w).1 = (call env q (.stat (.percentile p)) w).1 := by
  have h0 : readInt env r .count w = (w, .ok s.count) := by
    have hc : call env q .count w = (w, .ok (.int s.count)) := by rw [call_obj hq]; rfl
    have : call env r .count w = (w, .ok (.int s.count)) := by
      rw [call_obj hr]
      show callSample env q .count w = _
      rw [callSample, act_bind_getObj, hq]
      rfl
    simp only [readInt, act_bind, this]
    rfl
  have h1 : call env r .sample w = (w, .ok (.ref q)) := by rw [call_obj hr]; rfl
  have rd : ∀ c : Call F, c = .count ∨ c = .stat .max ∨ c = .stat .min ∨ c = .stat .sum → ∃ n, readInt env q c w = (w, .ok n) := by
    rintro c (rfl | rfl | rfl | rfl) <;> · simp only [readInt, act_bind]; rw [call_obj hq]; exact ⟨_, rfl⟩
  obtain ⟨a, h2⟩ := rd .count (by simp)
  obtain ⟨b, h3⟩ := rd (.stat .max) (by simp)
  obtain ⟨c, h4⟩ := rd (.stat .min) (by simp)
  obtain ⟨d, h5⟩ := rd (.stat .sum) (by simp)
  obtain ⟨e, h6⟩ := squares_keep hq env
  simp only [libratoMetric, act_bind, h0, hn, if_true, h1, h2, h3, h4, h5, h6, hp, percentileGauges, readFloat]
  generalize call env q (.stat (.percentile p)) w = z
  obtain ⟨w', e' | o⟩ := z
  · rfl
  · cases o <;> rfl

/-- C107 is false for `BuildRequest` of librato.go and a histogram over a `UniformSample`: it takes the percentiles of the sample itself. -/
theorem C107_librato_refuted : ∃ (h : List (Env F64 × Op F64)) (env : Env F64) (id : Nat) (interval : Int64) (ps : List F64) (now : Int64),
    ¬ Indistinguishable (World.init.run h) (buildRequest env (newReporter interval [] ps) now (.std id) (World.init.run h)).1 := by
  refine ⟨lookHistory, envAt 0, 0, 60000000000, [GoFloat.lit 0], 0, ?_⟩
  have key : (buildRequest (envAt 0) (newReporter 60000000000 [] [GoFloat.lit 0]) 0 (.std 0) (World.init.run lookHistory : World F64)).1 =
      (call (envAt 0) 0 (.stat (.percentile (GoFloat.lit 0))) (World.init.run lookHistory)).1 := by
    have hl : (World.init.run lookHistory : World F64).regs 0 = [(bytes "c", 2), (bytes "h", 1)] := by decide +kernel
    have h2 : (match (World.init.run lookHistory : World F64).objs 2 with | some (.counter (.std n)) => decide (n = ⟨0⟩) | _ => false) = true := by decide +kernel
    have h1 : (match (World.init.run lookHistory : World F64).objs 1 with | some (.hist (.std q)) => decide (q = 0) | _ => false) = true := by decide +kernel
    have h0 : (match (World.init.run lookHistory : World F64).objs 0 with | some (.sample (.uniform s)) => decide (s.count > 0) | _ => false) = true := by decide +kernel
    generalize (World.init.run lookHistory : World F64) = w at *
    split at h2
    case h_2 => cases h2
    rename_i n h2'
    obtain rfl := of_decide_eq_true h2
    split at h1
    case h_2 => cases h1
    rename_i q h1'
    obtain rfl := of_decide_eq_true h1
    split at h0
    case h_2 => cases h0
    rename_i s h0'
    have hm := metric_sorts h1' h0' (of_decide_eq_true h0) (envAt 0) (newReporter 60000000000 [] [GoFloat.lit 0]) (bytes "h") rfl
    have hc : libratoCallback (envAt 0) (newReporter 60000000000 [] [GoFloat.lit 0]) (bytes "c") 2 (w, [], []) = ((w, [], []), none) := by
      have : readInt (envAt 0) 2 .count w = (w, .ok 0) := by simp only [readInt, act_bind]; rw [call_obj h2']; rfl
      simp only [libratoCallback, h2', libratoMetric, act_bind, this]
      rfl
    have he : eachList (envAt 0) (.std 0) w = (w, .ok (some [(bytes "c", 2), (bytes "h", 1)])) := by rw [← hl]; rfl
    rw [buildRequest, if_neg (by show ¬ (60000000000 : Int64) / 1000000000 = 0; decide), each, he]
    simp only [visit, hc]
    simp only [libratoCallback, h1']
    generalize libratoMetric (envAt 0) (newReporter 60000000000 [] [GoFloat.lit 0]) (bytes "h") 1 (.hist (.std 0)) w = z at hm ⊢
    obtain ⟨w', e' | o⟩ := z <;> exact hm
  rw [key]
  exact distinguished lookAfter lookAfter_positional (by decide +kernel)

end GoMetrics
