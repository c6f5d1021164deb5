import Verif.Go.Memory
/-
The memory that the library leaves to the caller to synchronise.
-/
namespace GoMetrics.Mem.Spec
open GoMetrics.Mem

/-- The variables that hold the readings of the last capture (runtime.go:11, 47-51, debug.go:20). -/
def readings : List Fld := [.memStats, .frees, .lookups, .mallocs, .numGC, .numCgoCalls, .gcStats]

/-- The variables that hold the metrics of runtime.go and debug.go: the fields of
`runtimeMetrics` and `debugMetrics`, which `RegisterRuntimeMemStats` and
`RegisterDebugGCStats` set. -/
inductive MetricVar : Loc → Prop where
  | runtime {g : Obj} {i : Nat} : g.kind = .globals → MetricVar ⟨g, .runtimeMetric i⟩
  | debug {g : Obj} {i : Nat} : g.kind = .globals → MetricVar ⟨g, .debugMetric i⟩

/-- Fields without any synchronisation: the verdict of a healthcheck, the elements of
a slice (of a sample snapshot, or one that `Values` returned), the package variables
`UseNilMetrics` and `shortHostName`, and those of runtime.go and debug.go. -/
inductive Unsynchronised : Loc → Prop where
  | verdict {h : Obj} : h.kind = .healthcheck → Unsynchronised ⟨h, .err⟩
  | elements {s : Obj} : s.kind = .slice → Unsynchronised ⟨s, .contents⟩
  | useNilMetrics {g : Obj} : g.kind = .globals → Unsynchronised ⟨g, .useNilMetrics⟩
  | shortHostName {g : Obj} : g.kind = .globals → Unsynchronised ⟨g, .shortHostName⟩
  | reading {g : Obj} {f : Fld} : g.kind = .globals → f ∈ readings → Unsynchronised ⟨g, f⟩
  | metricVar {x : Loc} : MetricVar x → Unsynchronised x

/-- One goroutine sets `x`, and the others read it after that: there is a moment `j` of this
goroutine after its last write to `x` that happens before every read of another goroutine. -/
def SetBefore (tr : Trace) (x : Loc) : Prop :=
  ∃ j f, tr[j]? = some f ∧
    (∀ i e v, tr[i]? = some e → e.act = .write x v → e.tid = f.tid ∧ i ≤ j) ∧
    (∀ i e v, tr[i]? = some e → e.act = .read x v → e.tid = f.tid ∨ HB tr j i)

/-- The caller takes care of `x`: after its initialisation it is not written any
more, or only one goroutine accesses it, or one goroutine sets it before the others use it. -/
def TakenCare (tr : Trace) (x : Loc) : Prop :=
  (∀ e ∈ tr, ∀ v, e.act ≠ .write x v) ∨
  (∃ t, ∀ e ∈ tr, ∀ v, (e.act = .read x v ∨ e.act = .write x v) → e.tid = t) ∨
  SetBefore tr x

end GoMetrics.Mem.Spec
