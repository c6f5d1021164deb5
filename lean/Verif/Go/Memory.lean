/-
Memory accesses of goroutines, the happens-before relation of the Go memory
model (go.dev/ref/mem) and data races.

An execution is one list of events in the order in which they took place; each
event is the action of one goroutine.  Values are left out except for pointers
to objects of the library: which object a pointer read gave is part of the
event, because a goroutine can only reach an object to which it got a pointer.
-/
namespace GoMetrics.Mem

/-- The types of objects in memory: the structs of the library that several
goroutines can share, plus

* `meterState`: the `MeterSnapshot` that a `StandardMeter` points to and that no
  method returns (meter.go:129), in contrast to `meterSnapshot`, the copies that
  `Snapshot` returns (meter.go:194-203);
* `slice`: the backing array of a `[]int64` held by a sample snapshot or by the caller;
* `globals`: the package variables `UseNilMetrics` (metrics.go:13), `shortHostName`
  (opentsdb.go:13), and those of runtime.go:11-51 and debug.go:10-20;
* `once`: a `sync.Once` (runtime.go:54, debug.go:21);
* `foreign`: implementations of the library's interfaces written by the user. -/
inductive Kind where
  | counter | gauge | gaugeFloat64 | functionalGauge | functionalGaugeFloat64
  | healthcheck | ewma | meter | meterState | meterSnapshot | arbiter
  | uniformSample | expDecaySample | sampleSnapshot | slice
  | histogram | histogramSnapshot | timer | timerSnapshot
  | registry | prefixedRegistry | globals | once | foreign
  deriving DecidableEq, Repr

/-- Field names.  `heap` is the contents of the `expDecaySampleHeap` an
`ExpDecaySample` points to (sample.go:549-551), `contents` the elements of a
slice.  A map (`metrics`, `meters`) and a slice with its elements (`values` of a
`UniformSample`) count as one field.  `memStats` is the whole struct (runtime.go:11),
`gcStats` with the slice `Pause` (debug.go:20); `runtimeMetric i` and `debugMetric i` are
the fields of `runtimeMetrics` (runtime.go:12-46) and `debugMetrics` (debug.go:10-19) in
the order of their declaration. -/
inductive Fld where
  | count | value | f | err
  | uncounted | alpha | rate | init
  | snapshot | a1 | a5 | a15 | startTime | stopped
  | rate1 | rate5 | rate15 | rateMean
  | started | meters
  | reservoirSize | values | t0 | t1 | heap | contents
  | sample | histogram | meter
  | metrics | underlying | prefix
  | useNilMetrics | shortHostName
  | done
  | memStats | frees | lookups | mallocs | numGC | numCgoCalls | gcStats
  | runtimeMetric (i : Nat) | debugMetric (i : Nat)
  deriving DecidableEq, Repr

/-- An object in memory. -/
structure Obj where
  kind : Kind
  id : Nat
  deriving DecidableEq, Repr

/-- A memory location: a field of an object. -/
structure Loc where
  obj : Obj
  fld : Fld
  deriving DecidableEq, Repr

/-- Goroutines. -/
abbrev Tid := Nat

/-- Actions of a goroutine.  Each object has at most one mutex, so that a mutex
is named by its object; `true` is `Lock`/`Unlock`, `false` is `RLock`/`RUnlock`.

* `new o refs`: an object comes into being and all its fields get their first
  value, by plain writes; `refs` are the pointers among these values.
* `read x v`, `write x v`: plain accesses; `v` is the pointer read or written, if
  it is one.
* `atomic x`: a function of sync/atomic.
* `spawn u`: a go statement that starts goroutine `u`.
* `send k o`, `recv k o`: hands a pointer to another goroutine by any means of
  synchronisation outside of the library (channels, the caller's own mutexes,
  …); `k` identifies the message. -/
inductive Act where
  | new (o : Obj) (refs : List (Fld × Obj))
  | read (x : Loc) (v : Option Obj)
  | write (x : Loc) (v : Option Obj)
  | atomic (x : Loc)
  | acq (m : Obj) (excl : Bool)
  | rel (m : Obj) (excl : Bool)
  | spawn (u : Tid)
  | send (k : Nat) (o : Obj)
  | recv (k : Nat) (o : Obj)
  deriving DecidableEq, Repr

/-- An event: an action of a goroutine. -/
structure Ev where
  tid : Tid
  act : Act
  deriving DecidableEq, Repr

/-- Executions. -/
abbrev Trace := List Ev

/-- The actions of goroutine `t`. -/
def proj (t : Tid) (tr : Trace) : List Act :=
  (tr.filter (fun e => e.tid = t)).map Ev.act

/-- `i` happens before `j` (go.dev/ref/mem): program order; `Unlock` before later
`Lock` and `RLock`; `RUnlock` before later `Lock`; a go statement before the
goroutine it starts; a message before its receipt; transitively.  Atomic
operations are not used as synchronisation, which only makes races more likely. -/
inductive HB (tr : Trace) : Nat → Nat → Prop where
  | po {i j e f} : i < j → tr[i]? = some e → tr[j]? = some f → e.tid = f.tid → HB tr i j
  | lock {i j t u m w w'} : i < j → tr[i]? = some ⟨t, .rel m w⟩ → tr[j]? = some ⟨u, .acq m w'⟩ →
      (w = true ∨ w' = true) → HB tr i j
  | go {i j t u a} : i < j → tr[i]? = some ⟨t, .spawn u⟩ → tr[j]? = some ⟨u, a⟩ → HB tr i j
  | msg {i j t u k o} : i < j → tr[i]? = some ⟨t, .send k o⟩ → tr[j]? = some ⟨u, .recv k o⟩ → HB tr i j
  | trans {i j k} : HB tr i j → HB tr j k → HB tr i k

/-- What an action does to a location. -/
inductive Access where
  | read | write | atomic
  deriving DecidableEq, Repr

/-- How an action accesses a location, if it does. -/
def Act.access (x : Loc) : Act → Option Access
  | .new o _ => if o = x.obj then some .write else none
  | .read y _ => if y = x then some .read else none
  | .write y _ => if y = x then some .write else none
  | .atomic y => if y = x then some .atomic else none
  | _ => none

/-- Two accesses conflict unless both are reads or both are atomic.  (An atomic
access counts as a write even if it is a load, so that more pairs conflict.) -/
def Access.conflict : Access → Access → Bool
  | .read, .read => false
  | .atomic, .atomic => false
  | _, _ => true

/-- A data race on `x`: conflicting accesses of two goroutines that are not
ordered by happens-before.  (`HB` only relates earlier events to later ones.) -/
def Race (tr : Trace) (x : Loc) (i j : Nat) : Prop :=
  i < j ∧ ∃ e f a b, tr[i]? = some e ∧ tr[j]? = some f ∧ e.tid ≠ f.tid ∧
    e.act.access x = some a ∧ f.act.access x = some b ∧ a.conflict b = true ∧ ¬ HB tr i j

/-! ### Which lists of events are executions -/

/-- Objects to which each goroutine has a pointer after a trace: those it created,
those it read from memory or received, and those known to the goroutine that
started it, at that time. -/
def known (tr : Trace) : Tid → List Obj :=
  tr.foldl learn (fun _ => [])
where
  /-- One event. -/
  learn (k : Tid → List Obj) (e : Ev) : Tid → List Obj :=
    match e.act with
    | .new o _ => fun t => if t = e.tid then o :: k t else k t
    | .read _ (some o) => fun t => if t = e.tid then o :: k t else k t
    | .recv _ o => fun t => if t = e.tid then o :: k t else k t
    | .spawn u => fun t => if t = u then k e.tid ++ k t else k t
    | _ => k

/-- Objects a goroutine must have a pointer to for an action. -/
def Act.uses : Act → List Obj
  | .new _ refs => refs.map Prod.snd
  | .read x _ => [x.obj]
  | .write x v => x.obj :: v.toList
  | .atomic x => [x.obj]
  | .acq m _ | .rel m _ => [m]
  | .spawn _ => []
  | .send _ o => [o]
  | .recv _ _ => []

/-- Whether an action puts a pointer to `o` into location `x`. -/
def Act.stores (x : Loc) (o : Obj) : Act → Bool
  | .new p refs => p = x.obj && (x.fld, o) ∈ refs
  | .write y v => y = x && v = some o
  | _ => false

/-- The object that an action creates. -/
def Act.creates : Act → Option Obj
  | .new o _ => some o
  | _ => none

/-- How often goroutine `t` acquired `m` and has not yet released it. -/
def holdCount (tr : Trace) (t : Tid) (m : Obj) (w : Bool) : Int :=
  (tr.count ⟨t, .acq m w⟩ : Int) - tr.count ⟨t, .rel m w⟩

/-- Goroutine `t` holds `m` (exclusively or shared) after a trace. -/
def Holds (tr : Trace) (t : Tid) (m : Obj) (w : Bool) : Prop := 0 < holdCount tr t m w

/-- Goroutines that occur in a trace. -/
def tids (tr : Trace) : List Tid := tr.map Ev.tid

/-- What the Go runtime guarantees about the next event `e` after `tr`:

* an object that comes into being is not in use yet;
* a goroutine only uses objects it has a pointer to;
* a pointer read from a location was stored there before;
* a message received was sent before;
* `Lock` waits until nobody holds the mutex, `RLock` until nobody holds it exclusively. -/
def Possible (tr : Trace) (e : Ev) : Prop :=
  (∀ o ∈ e.act.uses, o ∈ known tr e.tid) ∧
  match e.act with
  | .new o _ => ∀ d ∈ tr, o ∉ d.act.uses ∧ d.act.creates ≠ some o
  | .read x (some o) => ∃ d ∈ tr, d.act.stores x o = true
  | .recv k o => ∃ d ∈ tr, d.act = .send k o
  | .acq m w => ∀ u ∈ tids tr, ¬ Holds tr u m true ∧ (w = true → ¬ Holds tr u m false)
  | _ => True

/-- Every event of `tr` was possible when it took place. -/
def WellFormed (tr : Trace) : Prop :=
  ∀ i e, tr[i]? = some e → Possible (tr.take i) e

end GoMetrics.Mem
