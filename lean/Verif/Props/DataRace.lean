import Verif.Lemmas.Race
import Verif.Spec.Race
/-
C86: data races.
-/
namespace GoMetrics.Mem
open Spec

theorem metricVar_of_prot {x : Loc} (h : x.prot = .pointer) : MetricVar x := by
  rcases x with ⟨⟨k, n⟩, g⟩
  cases k <;> cases g <;> first
    | exact .runtime rfl
    | exact .debug rfl
    | exact absurd h (by simp [Loc.prot, prot])

theorem unsynchronised_of_prot {x : Loc} (h : x.prot = .unprotected ∨ x.prot = .pointer) : Unsynchronised x := by
  rcases h with h | h
  · rcases x with ⟨⟨k, n⟩, g⟩
    cases k <;> cases g <;> first
      | exact .verdict rfl
      | exact .elements rfl
      | exact .useNilMetrics rfl
      | exact .shortHostName rfl
      | exact .reading rfl (by decide)
      | exact absurd h (by simp [Loc.prot, prot])
  · exact .metricVar (metricVar_of_prot h)

theorem PtrOrdered.of_no_race {tr : Trace} (h : ∀ y i j, MetricVar y → ¬ Race tr y i j) : PtrOrdered tr := by
  intro i j t u x v w hp hij hi hj
  by_contra hn
  refine h x i j (metricVar_of_prot hp) ⟨hij, _, _, .write, .read, hi, hj, ?_, by simp [Act.access],
    by simp [Act.access], rfl, hn⟩
  rintro rfl
  exact hn (.po hij hi hj rfl)

/-- C86.  In every execution of every program that uses the library from any number
of goroutines, every data race is on one of the fields that the library leaves to
the caller to synchronise.  So counters, gauges, EWMAs, meters, samples, histograms,
timers, registries and the arbiter are free of data races.  The only way to get one on
these is to race for the variables that hold the metrics of runtime.go and debug.go. -/
theorem C86_races {tr : Trace} (hx : Execution tr) {x : Loc} {i j : Nat} (h : Race tr x i j) :
    Unsynchronised x ∨ ∃ y i' j', MetricVar y ∧ Race tr y i' j' := by
  by_cases hs : ∃ y i' j', MetricVar y ∧ Race tr y i' j'
  · exact .inr hs
  · exact .inl (unsynchronised_of_prot (hx.race_unprotected
      (.of_no_race fun y i' j' hy hr => hs ⟨y, i', j', hy, hr⟩) h))

theorem care_ordered {tr : Trace} {x : Loc} (h : TakenCare tr x) {i j : Nat} {t u : Tid} {v w : Option Obj}
    {b : Act} (hij : i < j) (hi : tr[i]? = some ⟨t, .write x v⟩) (hj : tr[j]? = some ⟨u, b⟩)
    (hb : b = .read x w ∨ b = .write x w) : HB tr i j := by
  have mi := List.mem_of_getElem? hi
  have mj := List.mem_of_getElem? hj
  rcases h with h | ⟨o, h⟩ | ⟨k, f, hk, h1, h2⟩
  · exact absurd rfl (h _ mi v)
  · exact .po hij hi hj ((h _ mi v (.inr rfl)).trans (h _ mj w hb).symm)
  · obtain ⟨ht, hik⟩ := h1 i _ v hi rfl
    rcases hb with rfl | rfl
    · rcases h2 j _ w hj rfl with hu | hu
      · exact .po hij hi hj (ht.trans hu.symm)
      · rcases Nat.lt_or_eq_of_le hik with hlt | rfl
        · exact .trans (.po hlt hi hk ht) hu
        · exact hu
    · exact .po hij hi hj (ht.trans (h1 j _ w hj rfl).1.symm)

theorem care_ordered' {tr : Trace} {x : Loc} (h : TakenCare tr x) {i j : Nat} {t u : Tid} {v w : Option Obj}
    (hij : i < j) (hi : tr[i]? = some ⟨t, .read x v⟩) (hj : tr[j]? = some ⟨u, .write x w⟩) : HB tr i j := by
  have mi := List.mem_of_getElem? hi
  have mj := List.mem_of_getElem? hj
  rcases h with h | ⟨o, h⟩ | ⟨k, f, hk, h1, h2⟩
  · exact absurd rfl (h _ mj w)
  · exact .po hij hi hj ((h _ mi v (.inl rfl)).trans (h _ mj w (.inr rfl)).symm)
  · obtain ⟨ht, hjk⟩ := h1 j _ w hj rfl
    rcases h2 i _ v hi rfl with hu | hu
    · exact .po hij hi hj (hu.trans ht.symm)
    · have := hu.lt
      omega

/-- C86.  A program in which each of these fields is not written after its
initialisation, or only used by one goroutine, or set by one goroutine before the others
use it, has no data race at all. -/
theorem C86_race_free {tr : Trace} (hx : Execution tr) (hu : ∀ x, Unsynchronised x → TakenCare tr x) :
    ¬ ∃ x i j, Race tr x i j := by
  rintro ⟨x, i, j, h⟩
  have hs : PtrOrdered tr := fun i j t u x v w hp hij hi hj =>
    care_ordered (hu x (.metricVar (metricVar_of_prot hp))) hij hi hj (.inl rfl)
  have hp := hx.race_unprotected hs h
  have hij := h.1
  have hc := hu x (unsynchronised_of_prot hp)
  obtain ⟨⟨t, p⟩, ⟨u, q⟩, a, b, hi, hj, hne, ha, hb, hab, hn, h1, h2⟩ := hx.race_uses hs h
  have shape : ∀ {k : Nat} {t : Tid} {p : Act} {a : Access}, tr[k]? = some ⟨t, p⟩ → p.access x = some a →
      (∀ rf, p ≠ .new x.obj rf) → (∃ v, p = .read x v ∧ a = .read) ∨ (∃ v, p = .write x v ∧ a = .write) := by
    intro k t p a hk h hnew
    have hg := hx.good hk
    cases p with
    | new o rf =>
      simp only [Act.access] at h
      split at h
      · subst o; exact absurd rfl (hnew rf)
      · cases h
    | read y v =>
      simp only [Act.access] at h
      split at h
      · subst y; left; exact ⟨v, rfl, by simpa using h.symm⟩
      · cases h
    | write y v =>
      simp only [Act.access] at h
      split at h
      · subst y; right; exact ⟨v, rfl, by simpa using h.symm⟩
      · cases h
    | atomic y =>
      simp only [Act.access] at h
      split at h
      · subst y
        rcases hp with hp | hp <;> simp [Good, hp] at hg
      · cases h
    | _ => simp [Act.access] at h
  rcases shape hi ha h1 with ⟨v, rfl, rfl⟩ | ⟨v, rfl, rfl⟩
  · rcases shape hj hb h2 with ⟨w, rfl, rfl⟩ | ⟨w, rfl, rfl⟩
    · simp [Access.conflict] at hab
    · exact hn (care_ordered' hc hij hi hj)
  · rcases shape hj hb h2 with ⟨w, rfl, rfl⟩ | ⟨w, rfl, rfl⟩
    · exact hn (care_ordered hc hij hi hj (.inl rfl))
    · exact hn (care_ordered hc hij hi hj (w := w) (.inr rfl))

/-- C86.  Safe publication: whichever way a goroutine got hold of an object (from a
registry, from the arbiter, as a part of another object, from another goroutine, from the
variables of runtime.go and debug.go if there is no race for these), the construction of
the object happens before everything the goroutine does with it. -/
theorem C86_publication {tr : Trace} (hx : Execution tr) (hs : ∀ y i j, MetricVar y → ¬ Race tr y i j)
    {j : Nat} {u : Tid} {a : Act} {o : Obj} (hj : tr[j]? = some ⟨u, a⟩) (ho : o ∈ a.uses) :
    ∃ i s refs, tr[i]? = some ⟨s, .new o refs⟩ ∧ HB tr i j := by
  obtain ⟨n, s, rf, h1, h2, h3⟩ := hx.published (.of_no_race hs) j u o ((hx.wf j _ hj).1 o ho)
  exact ⟨n, s, rf, h2, h3 j _ le_rfl hj⟩

/-! ### Concrete executions -/

/-- A registry, a counter and a healthcheck of the examples. -/
def exReg : Obj := ⟨.registry, 1⟩
/-- See `exReg`. -/
def exCounter : Obj := ⟨.counter, 2⟩
/-- See `exReg`. -/
def exHealth : Obj := ⟨.healthcheck, 3⟩
/-- A sample snapshot and its slice. -/
def exSnap : Obj := ⟨.sampleSnapshot, 4⟩
/-- See `exSnap`. -/
def exSlice : Obj := ⟨.slice, 5⟩

/-- Goroutine 0 creates a registry and a counter, starts goroutine 1 and registers the
counter; goroutine 1 gets it from the registry and both increment it. -/
def exShared : Trace :=
  [⟨0, .new globals []⟩, ⟨0, .new exReg []⟩, ⟨0, .spawn 1⟩,
   ⟨0, .read ⟨globals, .useNilMetrics⟩ none⟩, ⟨0, .new exCounter []⟩,
   ⟨0, .acq exReg true⟩, ⟨0, .read ⟨exReg, .metrics⟩ none⟩, ⟨0, .write ⟨exReg, .metrics⟩ (some exCounter)⟩,
   ⟨0, .rel exReg true⟩,
   ⟨1, .acq exReg false⟩, ⟨1, .read ⟨exReg, .metrics⟩ (some exCounter)⟩, ⟨1, .rel exReg false⟩,
   ⟨1, .atomic ⟨exCounter, .count⟩⟩, ⟨0, .atomic ⟨exCounter, .count⟩⟩]

theorem exShared_execution : Execution exShared := by
  refine .of 2 (by decide +kernel) (by decide) ?_
  intro t ht
  obtain rfl | rfl : t = 0 ∨ t = 1 := by omega
  · refine ⟨proj 0 exShared, .ok, ?_, List.prefix_rfl⟩
    have h5 : Lang .user [.atomic ⟨exCounter, .count⟩] .ok :=
      Lang.userThen (c := .counter .inc exCounter) (.act _) .userNil
    have h4 := Lang.userThen (c := .registry (.register (some exCounter)) exReg) (r := .ok)
      (.locked (.seq (.act _) (.altR (.act _)))) h5
    have h3 := Lang.userThen (c := .newCounter) (Lang.unlessNil_alloc (o := exCounter) rfl) h4
    have h2 := Lang.userAct (a := .spawn 1) trivial h3
    have h1 := Lang.userThen (c := .newRegistry) (.alloc (o := exReg) rfl .skip) h2
    exact Lang.userAct (a := .new globals []) (by simp [UserAct]) h1
  · refine ⟨proj 1 exShared, .ok, ?_, List.prefix_rfl⟩
    have h2 : Lang .user [.atomic ⟨exCounter, .count⟩] .ok :=
      Lang.userThen (c := .counter .inc exCounter) (.act _) .userNil
    exact Lang.userThen (c := .registry .get exReg) (r := .ok) (.locked (.load .skip)) h2

/-- The hypotheses of `C86_race_free` hold in `exShared`: nobody writes to an
unsynchronised field. -/
theorem exShared_race_free : ¬ ∃ x i j, Race exShared x i j := by
  refine C86_race_free exShared_execution fun x hx => .inl ?_
  intro e he v hv
  have key : ∀ e ∈ exShared, ∀ x v, e.act = .write x v → x = ⟨exReg, .metrics⟩ := by
    intro e he x v h
    simp only [exShared, List.mem_cons, List.not_mem_nil, or_false] at he
    rcases he with rfl | rfl | rfl | rfl | rfl | rfl | rfl | rfl | rfl | rfl | rfl | rfl | rfl | rfl <;>
      simp at h
    exact h.1.symm
  rw [key e he x v hv] at hx
  cases hx with
  | reading h => cases h
  | metricVar h => cases h

/-- The increment of goroutine 1 uses the counter, which goroutine 0 created after it
started goroutine 1. -/
example : ∃ i s refs, exShared[i]? = some ⟨s, .new exCounter refs⟩ ∧ HB exShared i 12 :=
  C86_publication exShared_execution (fun y i j _ h => exShared_race_free ⟨y, i, j, h⟩) (j := 12) (u := 1) (a := .atomic ⟨exCounter, .count⟩) rfl (by simp [Act.uses])

/-- Goroutine 0 marks a healthcheck as healthy while goroutine 1 reads its error. -/
def exHealthRace : Trace :=
  [⟨0, .new globals []⟩, ⟨0, .read ⟨globals, .useNilMetrics⟩ none⟩, ⟨0, .new exHealth []⟩, ⟨0, .spawn 1⟩,
   ⟨0, .write ⟨exHealth, .err⟩ none⟩, ⟨1, .read ⟨exHealth, .err⟩ none⟩]

/-- Two goroutines ask one sample snapshot for a percentile: the first sorts while the
second reads. -/
def exSnapshotRace : Trace :=
  [⟨0, .new exSlice []⟩, ⟨0, .new exSnap [(.values, exSlice)]⟩, ⟨0, .spawn 1⟩,
   ⟨1, .read ⟨exSnap, .values⟩ (some exSlice)⟩,
   ⟨0, .read ⟨exSnap, .values⟩ (some exSlice)⟩, ⟨0, .read ⟨exSlice, .contents⟩ none⟩,
   ⟨0, .write ⟨exSlice, .contents⟩ none⟩, ⟨1, .read ⟨exSlice, .contents⟩ none⟩]

/-- `UseNilMetrics` is set while another goroutine creates a counter. -/
def exNilRace : Trace :=
  [⟨0, .new globals []⟩, ⟨0, .spawn 1⟩,
   ⟨0, .write ⟨globals, .useNilMetrics⟩ none⟩, ⟨1, .read ⟨globals, .useNilMetrics⟩ none⟩]

/-- Two OpenTSDB exporters start at the same time. -/
def exHostRace : Trace :=
  [⟨0, .new globals []⟩, ⟨0, .spawn 1⟩, ⟨0, .read ⟨globals, .shortHostName⟩ none⟩,
   ⟨0, .write ⟨globals, .shortHostName⟩ none⟩, ⟨1, .read ⟨globals, .shortHostName⟩ none⟩]

theorem race_of_neighbours {tr : Trace} {x : Loc} {i : Nat} {e f : Ev} {a b : Access} (hi : tr[i]? = some e)
    (hj : tr[i + 1]? = some f) (hne : e.tid ≠ f.tid) (ha : e.act.access x = some a) (hb : f.act.access x = some b)
    (hc : a.conflict b = true) (h : edge e f = false) : Race tr x i (i + 1) :=
  ⟨by omega, e, f, a, b, hi, hj, hne, ha, hb, hc, not_HB_succ hi hj h⟩

theorem exHealthRace_execution : Execution exHealthRace := by
  refine .of 2 (by decide +kernel) (by decide) ?_
  intro t ht
  obtain rfl | rfl : t = 0 ∨ t = 1 := by omega
  · refine ⟨proj 0 exHealthRace, .ok, ?_, List.prefix_rfl⟩
    have h3 : Lang .user [.write ⟨exHealth, .err⟩ none] .ok :=
      Lang.userThen (c := .healthcheck .healthy exHealth) (.act _) .userNil
    have h2 := Lang.userAct (a := .spawn 1) trivial h3
    have h1 := Lang.userThen (c := .newHealthcheck) (Lang.unlessNil_alloc (o := exHealth) rfl) h2
    exact Lang.userAct (a := .new globals []) (by simp [UserAct]) h1
  · exact ⟨proj 1 exHealthRace, .ok,
      Lang.userThen (c := .healthcheck .error exHealth) (.act _) .userNil, List.prefix_rfl⟩

/-- The hypotheses of `C86_races`: an execution with a race. -/
example : Unsynchronised ⟨exHealth, .err⟩ ∨ ∃ y i' j', MetricVar y ∧ Race exHealthRace y i' j' :=
  C86_races exHealthRace_execution (i := 4) (j := 5)
    (race_of_neighbours rfl rfl (by decide) (a := .write) (b := .read) (by decide) (by decide) rfl (by decide))

theorem exSnapshotRace_execution : Execution exSnapshotRace := by
  have hp : Lang (body (.sample .percentile exSnap)) [.read ⟨exSnap, .values⟩ (some exSlice),
      .read ⟨exSlice, .contents⟩ none, .write ⟨exSlice, .contents⟩ none, .read ⟨exSlice, .contents⟩ none] .ok :=
    .load (.seq (.act _) (.seq (.act _) (.act _)))
  refine .of 2 (by decide +kernel) (by decide) ?_
  intro t ht
  obtain rfl | rfl : t = 0 ∨ t = 1 := by omega
  · have h2 := Lang.userAct (a := .spawn 1) trivial (Lang.userThen hp .userNil)
    have h1 := Lang.userThen (c := .newSampleSnapshot exSlice) (.alloc (o := exSnap) rfl .skip) h2
    exact ⟨_, .ok, Lang.userAct (a := .new exSlice []) (by simp [UserAct, exSlice]) h1,
      [.read ⟨exSlice, .contents⟩ none], rfl⟩
  · exact ⟨_, .ok, Lang.userThen hp .userNil,
      [.write ⟨exSlice, .contents⟩ none, .read ⟨exSlice, .contents⟩ none], rfl⟩

theorem exNilRace_execution : Execution exNilRace := by
  refine .of 2 (by decide +kernel) (by decide) ?_
  intro t ht
  obtain rfl | rfl : t = 0 ∨ t = 1 := by omega
  · have h2 : Lang .user [.spawn 1, .write ⟨globals, .useNilMetrics⟩ none] .ok :=
      Lang.userAct (a := .spawn 1) trivial (.userAct (by simp [UserAct]) .userNil)
    exact ⟨_, .ok, Lang.userAct (a := .new globals []) (by simp [UserAct]) h2, List.prefix_rfl⟩
  · exact ⟨_, .ok, Lang.userThen (c := .newCounter) (Lang.unlessNil_alloc (o := exCounter) rfl) .userNil,
      [.new exCounter []], rfl⟩

theorem exHostRace_execution : Execution exHostRace := by
  have hp : Lang (body .shortHostname) [.read ⟨globals, .shortHostName⟩ none,
      .write ⟨globals, .shortHostName⟩ none, .read ⟨globals, .shortHostName⟩ none] .ok :=
    .seq (.act _) (.seq (.altR (.act _)) (.act _))
  refine .of 2 (by decide +kernel) (by decide) ?_
  intro t ht
  obtain rfl | rfl : t = 0 ∨ t = 1 := by omega
  · have h2 := Lang.userAct (a := .spawn 1) trivial (Lang.userThen hp .userNil)
    exact ⟨_, .ok, Lang.userAct (a := .new globals []) (by simp [UserAct]) h2,
      [.read ⟨globals, .shortHostName⟩ none], rfl⟩
  · exact ⟨_, .ok, Lang.userThen hp .userNil,
      [.write ⟨globals, .shortHostName⟩ none, .read ⟨globals, .shortHostName⟩ none], rfl⟩

/-- Two goroutines capture the statistics of the garbage collector at the same time. -/
def exCaptureRace : Trace :=
  [⟨0, .new globals []⟩, ⟨0, .spawn 1⟩, ⟨1, .read ⟨globals, .gcStats⟩ none⟩,
   ⟨0, .read ⟨globals, .gcStats⟩ none⟩, ⟨0, .write ⟨globals, .gcStats⟩ none⟩,
   ⟨1, .write ⟨globals, .gcStats⟩ none⟩]

theorem exCaptureRace_execution : Execution exCaptureRace := by
  have hp : Lang (body .captureDebugGCStatsOnce)
      [.read ⟨globals, .gcStats⟩ none, .write ⟨globals, .gcStats⟩ none] .panic :=
    .seq (.act _) (.seq (.act _) (.panic _))
  refine .of 2 (by decide +kernel) (by decide) ?_
  intro t ht
  obtain rfl | rfl : t = 0 ∨ t = 1 := by omega
  · have h2 := Lang.userAct (a := .spawn 1) trivial (Lang.userThen hp .userNil)
    exact ⟨_, .ok, Lang.userAct (a := .new globals []) (by simp [UserAct]) h2, [], rfl⟩
  · exact ⟨_, .ok, Lang.userThen hp .userNil, [], rfl⟩

/-- The metrics that `RegisterDebugGCStats` creates in the example: gauges, histograms with
their samples, and the timer with its meter. -/
def exGauge (n : Nat) : Obj := ⟨.gauge, n⟩
/-- See `exGauge`. -/
def exSample (n : Nat) : Obj := ⟨.expDecaySample, n⟩
/-- See `exGauge`. -/
def exHist (n : Nat) : Obj := ⟨.histogram, n⟩
/-- See `exGauge`. -/
def exEwma (n : Nat) : Obj := ⟨.ewma, n⟩
/-- See `exGauge`. -/
def exState : Obj := ⟨.meterState, 17⟩
/-- See `exGauge`. -/
def exMeter : Obj := ⟨.meter, 21⟩
/-- See `exGauge`. -/
def exTimer : Obj := ⟨.timer, 22⟩

/-- What goroutine 0 does from the call of `RegisterDebugGCStats` on until all variables
are set. -/
def exRegisterActs : List Act :=
  [.atomic ⟨debugOnce, .done⟩, .acq debugOnce true, .atomic ⟨debugOnce, .done⟩,
   .read ⟨globals, .useNilMetrics⟩ none, .new (exGauge 10) [], .write (debugVar 0) (some (exGauge 10)),
   .read ⟨globals, .useNilMetrics⟩ none, .new (exGauge 11) [], .write (debugVar 1) (some (exGauge 11)),
   .read ⟨globals, .useNilMetrics⟩ none, .new (exSample 12) [],
   .read ⟨globals, .useNilMetrics⟩ none, .new (exHist 13) [(.sample, exSample 12)], .write (debugVar 2) (some (exHist 13)),
   .read ⟨globals, .useNilMetrics⟩ none, .new (exGauge 14) [], .write (debugVar 3) (some (exGauge 14)),
   .read ⟨globals, .useNilMetrics⟩ none,
   .read ⟨globals, .useNilMetrics⟩ none, .new (exSample 15) [],
   .read ⟨globals, .useNilMetrics⟩ none, .new (exHist 16) [(.sample, exSample 15)],
   .read ⟨globals, .useNilMetrics⟩ none, .new exState [],
   .read ⟨globals, .useNilMetrics⟩ none, .new (exEwma 18) [], .read ⟨globals, .useNilMetrics⟩ none, .new (exEwma 19) [],
   .read ⟨globals, .useNilMetrics⟩ none, .new (exEwma 20) [],
   .new exMeter [(.snapshot, exState), (.a1, exEwma 18), (.a5, exEwma 19), (.a15, exEwma 20)],
   .acq arbiter true, .write ⟨arbiter, .meters⟩ (some exMeter), .read ⟨arbiter, .started⟩ none,
   .write ⟨arbiter, .started⟩ none, .spawn 2, .rel arbiter true,
   .new exTimer [(.histogram, exHist 16), (.meter, exMeter)], .write (debugVar 4) (some exTimer)]

/-- Goroutine 0 registers the statistics of the garbage collector, while goroutine 1 captures
them: it finds the timer in the variable and asks for its histogram. -/
def exVarRace : Trace :=
  [⟨0, .new globals []⟩, ⟨0, .new arbiter []⟩, ⟨0, .new debugOnce []⟩, ⟨0, .new exReg []⟩, ⟨0, .spawn 1⟩] ++
  exRegisterActs.map (⟨0, ·⟩) ++
  [⟨1, .read ⟨globals, .gcStats⟩ none⟩, ⟨1, .write ⟨globals, .gcStats⟩ none⟩, ⟨1, .read (debugVar 4) (some exTimer)⟩,
   ⟨1, .acq exTimer true⟩, ⟨1, .read ⟨exTimer, .histogram⟩ (some (exHist 16))⟩]

theorem Lang.setVar {x mk kind} {o : Obj} {p} (ho : o.kind = kind) (h : Lang mk p .ok) :
    Lang (setVar x mk kind) (p ++ [.write x (some o)]) .ok :=
  .seq h (.altR (.any ho (.act _)))

theorem exRegister_lang : Lang (body (.registerDebugGCStats exReg)) (exRegisterActs ++ [.rel debugOnce true]) .panic := by
  have hg : ∀ i n, Lang (newVar (debugVar i) .gauge)
      [.read ⟨globals, .useNilMetrics⟩ none, .new (exGauge n) [], .write (debugVar i) (some (exGauge n))] .ok :=
    fun i n => Lang.setVar (o := exGauge n) rfl (.call (c := .newGauge) (Lang.unlessNil_alloc (o := exGauge n) rfl))
  have hs : ∀ n, Lang newExpDecaySampleCode [.read ⟨globals, .useNilMetrics⟩ none, .new (exSample n) []] .ok :=
    fun n => Lang.unlessNil_alloc (o := exSample n) rfl
  have hh : ∀ n s, Lang (newHistogramCode (some (exSample s)))
      [.read ⟨globals, .useNilMetrics⟩ none, .new (exHist n) [(.sample, exSample s)]] .ok :=
    fun n s => Lang.unlessNil_alloc (o := exHist n) rfl
  have h2 : Lang (newVar (debugVar 2) .histogram) [.read ⟨globals, .useNilMetrics⟩ none, .new (exSample 12) [],
      .read ⟨globals, .useNilMetrics⟩ none, .new (exHist 13) [(.sample, exSample 12)],
      .write (debugVar 2) (some (exHist 13))] .ok :=
    Lang.setVar (o := exHist 13) rfl (.seq (.call (c := .newExpDecaySample) (hs 12)) (.altR (.any (o := exSample 12)
      (k := fun s => .call (.newHistogram (some s))) rfl (.call (c := .newHistogram (some (exSample 12))) (hh 13 12)))))
  have hm : Lang newMeterCode (exRegisterActs.drop 22 |>.take 15) .ok :=
    .seq (.act _) (.altR (.alloc (o := exState) rfl
      (.seq (.act _) (.altR (.alloc (o := exEwma 18) rfl
        (.seq (.act _) (.altR (.alloc (o := exEwma 19) rfl
          (.seq (.act _) (.altR (.alloc (o := exEwma 20) rfl
            (.alloc (o := exMeter) rfl (.locked (.seq (.act _) (.seq (.act _) (.altR (.seq (.act _) (.go 2))))))))))))))))))
  have ht : Lang (newVar (debugVar 4) .timer) (exRegisterActs.drop 17) .ok :=
    Lang.setVar (o := exTimer) rfl (.call (c := .newTimer) (.seq (.act _) (.altR (.seq (hs 15)
      (.seq (.any (o := exSample 15) rfl (hh 16 15)) (.seq hm
      (.any (o := exHist 16) rfl (.any (o := exMeter) rfl (.alloc (o := exTimer) rfl .skip)))))))))
  have hall : Lang (block ((List.range 5).map fun i => newVar (debugVar i) (debugKind i))) (exRegisterActs.drop 3) .ok :=
    .seq (hg 0 10) (.seq (hg 1 11) (.seq h2 (.seq (hg 3 14) ht)))
  have h := Lang.seq (c := at' debugOnce .done) (.act _) (.altR (c := .skip) (.locked (m := debugOnce) (w := true)
    (.seq (c := at' debugOnce .done) (.act _) (.altR (c := .skip) (.seqPanic (d := at' debugOnce .done)
      (.seq hall (.panic (block ((List.range 5).map fun i => registerVar exReg (debugVar i))))))))))
  exact h

theorem exVarRace_execution : Execution exVarRace := by
  refine .of 2 (by decide +kernel) (by decide +kernel) ?_
  intro t ht
  obtain rfl | rfl : t = 0 ∨ t = 1 := by omega
  · have h5 := Lang.userAct (a := .spawn 1) trivial (Lang.userThen exRegister_lang .userNil)
    have h4 := Lang.userThen (c := .newRegistry) (.alloc (o := exReg) rfl .skip) h5
    have h3 := Lang.userAct (a := .new debugOnce []) (by simp [UserAct, debugOnce]) h4
    have h2 := Lang.userAct (a := .new arbiter []) (by simp [UserAct]) h3
    exact ⟨_, .ok, Lang.userAct (a := .new globals []) (by simp [UserAct]) h2, [.rel debugOnce true], by decide +kernel⟩
  · have hp : Lang (body .captureDebugGCStatsOnce)
        [.read ⟨globals, .gcStats⟩ none, .write ⟨globals, .gcStats⟩ none, .read (debugVar 4) (some exTimer),
         .acq exTimer true, .read ⟨exTimer, .histogram⟩ (some (exHist 16)), .rel exTimer true] .panic :=
      .seq (.act _) (.seq (.act _) (.seqPanic (.load (.locked (.seqPanic (.load (.panic _)))))))
    exact ⟨_, .ok, Lang.userThen hp .userNil, [.rel exTimer true], by decide +kernel⟩

theorem exVarRace_cut : ∀ i j : Fin exVarRace.length, i < j → edge exVarRace[i] exVarRace[j] = true →
    (j.1 < 5 || 44 ≤ j.1) = true → (i.1 < 5 || 44 ≤ i.1) = true := by decide +kernel

/-- Nothing that goroutine 0 does after it has started goroutine 1 happens before an event
of goroutine 1. -/
theorem exVarRace_not_HB {i j : Nat} (hi : 5 ≤ i) (hi' : i < 44) (hj : 44 ≤ j) : ¬ HB exVarRace i j := by
  refine not_HB_of_cut (fun k => k < 5 || 44 ≤ k) ?_ (by simp; omega) (by simp; omega)
  intro i j e f hij hi hj he hS
  obtain ⟨hi', rfl⟩ := List.getElem?_eq_some_iff.1 hi
  obtain ⟨hj', rfl⟩ := List.getElem?_eq_some_iff.1 hj
  exact exVarRace_cut ⟨i, hi'⟩ ⟨j, hj'⟩ hij he hS

/-- Goroutine 0 sets `UseNilMetrics` and then starts goroutine 1, which creates a counter. -/
def exSetNil : Trace :=
  [⟨0, .new globals []⟩, ⟨0, .write ⟨globals, .useNilMetrics⟩ none⟩, ⟨0, .spawn 1⟩,
   ⟨1, .read ⟨globals, .useNilMetrics⟩ none⟩, ⟨1, .new exCounter []⟩]

theorem exSetNil_execution : Execution exSetNil := by
  refine .of 2 (by decide +kernel) (by decide) ?_
  intro t ht
  obtain rfl | rfl : t = 0 ∨ t = 1 := by omega
  · have h2 : Lang .user [.write ⟨globals, .useNilMetrics⟩ none, .spawn 1] .ok :=
      Lang.userAct (by simp [UserAct]) (.userAct trivial .userNil)
    exact ⟨_, .ok, Lang.userAct (a := .new globals []) (by simp [UserAct]) h2, List.prefix_rfl⟩
  · exact ⟨_, .ok, Lang.userThen (c := .newCounter) (Lang.unlessNil_alloc (o := exCounter) rfl) .userNil, List.prefix_rfl⟩

/-- The hypotheses of `C86_race_free` hold: `UseNilMetrics` is set before the other goroutine
reads it. -/
example : ¬ ∃ x i j, Race exSetNil x i j := by
  refine C86_race_free exSetNil_execution fun x hx => ?_
  by_cases hn : x = ⟨globals, .useNilMetrics⟩
  · subst hn
    right; right
    refine ⟨2, ⟨0, .spawn 1⟩, rfl, ?_, ?_⟩
    · intro i e v hi he
      rcases i with _ | _ | _ | _ | _ | i <;> simp [exSetNil] at hi <;> subst hi <;> simp at he ⊢
    · intro i e v hi he
      rcases i with _ | _ | _ | _ | _ | i <;> simp [exSetNil] at hi <;> subst hi <;> simp at he ⊢
      exact .go (t := 0) (u := 1) (a := .read ⟨globals, .useNilMetrics⟩ none) (by omega) rfl rfl
  · left
    intro e he v hv
    simp only [exSetNil, List.mem_cons, List.not_mem_nil, or_false] at he
    rcases he with rfl | rfl | rfl | rfl | rfl <;> simp at hv
    exact hn hv.1.symm

/-- C86.  The exceptions are real: there are executions with a data race on the verdict
of a healthcheck, on the elements of a snapshot that is asked for percentiles by two
goroutines, on `UseNilMetrics`, on `shortHostName`, on the readings of two simultaneous
captures; and an execution with a race on a variable of debug.go as a consequence of
which also the construction of a timer races with its use. -/
theorem C86_refuted :
    (∃ tr h i j, Execution tr ∧ h.kind = .healthcheck ∧ Race tr ⟨h, .err⟩ i j) ∧
    (∃ tr s sl i j, Execution tr ∧ s.kind = .sampleSnapshot ∧ (∃ e ∈ tr, e.act = .new s [(.values, sl)]) ∧
      Race tr ⟨sl, .contents⟩ i j) ∧
    (∃ tr i j, Execution tr ∧ Race tr ⟨globals, .useNilMetrics⟩ i j) ∧
    (∃ tr i j, Execution tr ∧ Race tr ⟨globals, .shortHostName⟩ i j) ∧
    (∃ tr i j, Execution tr ∧ Race tr ⟨globals, .gcStats⟩ i j) ∧
    (∃ tr y t i j i' j', Execution tr ∧ MetricVar y ∧ Race tr y i j ∧ t.kind = .timer ∧
      Race tr ⟨t, .histogram⟩ i' j') := by
  refine ⟨⟨exHealthRace, exHealth, 4, 5, exHealthRace_execution, rfl, ?_⟩,
    ⟨exSnapshotRace, exSnap, exSlice, 6, 7, exSnapshotRace_execution, rfl, ⟨⟨0, _⟩, by simp [exSnapshotRace], rfl⟩, ?_⟩,
    ⟨exNilRace, 2, 3, exNilRace_execution, ?_⟩, ⟨exHostRace, 3, 4, exHostRace_execution, ?_⟩,
    ⟨exCaptureRace, 4, 5, exCaptureRace_execution, ?_⟩,
    ⟨exVarRace, debugVar 4, exTimer, 43, 46, 42, 48, exVarRace_execution, .debug rfl, ?_, rfl, ?_⟩⟩
  · exact race_of_neighbours rfl rfl (by decide) (a := .write) (b := .read) (by decide) (by decide) rfl (by decide)
  · exact race_of_neighbours rfl rfl (by decide) (a := .write) (b := .read) (by decide) (by decide) rfl (by decide)
  · exact race_of_neighbours rfl rfl (by decide) (a := .write) (b := .read) (by decide) (by decide) rfl (by decide)
  · exact race_of_neighbours rfl rfl (by decide) (a := .write) (b := .read) (by decide) (by decide) rfl (by decide)
  · exact race_of_neighbours rfl rfl (by decide) (a := .write) (b := .write) (by decide) (by decide) rfl (by decide)
  · exact ⟨by omega, ⟨0, .write (debugVar 4) (some exTimer)⟩, ⟨1, .read (debugVar 4) (some exTimer)⟩, .write, .read,
      by decide +kernel, by decide +kernel, by decide, by decide, by decide, rfl,
      exVarRace_not_HB (by omega) (by omega) (by omega)⟩
  · exact ⟨by omega, ⟨0, .new exTimer [(.histogram, exHist 16), (.meter, exMeter)]⟩,
      ⟨1, .read ⟨exTimer, .histogram⟩ (some (exHist 16))⟩, .write, .read,
      by decide +kernel, by decide +kernel, by decide, by decide, by decide, rfl,
      exVarRace_not_HB (by omega) (by omega) (by omega)⟩

end GoMetrics.Mem
