import Verif.Spec.Program
import Verif.Spec.World
import Verif.Model.AtomicConc
import Verif.Model.SampleConc

/-! A concurrent program that uses counters, gauges, samples and histograms, and the same program with one call at a time. -/

namespace GoMetrics.Spec
open GoMetrics

variable {F : Type} [GoFloat F] [GoSqrt F] [GoExp F]

/-- What the caller of a method gets to see. -/
inductive Seen (F : Type) where
  | unit
  | int (n : Int64)
  | bits (b : FloatBits)
  | float (x : F)
  | floats (xs : List F)
  | size (n : Nat)
  /-- a new slice with these elements -/
  | vals (l : List Int64)
  /-- a snapshot of a counter / gauge / float gauge -/
  | counterSnap (n : Int64)
  | gaugeSnap (n : Int64)
  | gaugeFSnap (b : FloatBits)
  /-- a snapshot of a sample or histogram: count and values -/
  | snap (n : Int64) (l : List Int64)
  | panic (p : Panic)

/-- The object `q` is a snapshot of a sample with this count and these values. -/
def SnapAt (w : World F) (q : Ref) (n : Int64) (l : List Int64) : Prop := ∃ a, w.objs q = some (.sample (.snap n a)) ∧ w.arrs a = l

/-- The result of an operation of the one-at-a-time model shows this to the caller. -/
def ShowsTo (w : World F) : Res (OpOut F) → Seen F → Prop
  | .ok (.out .unit), x => x = .unit
  | .ok (.out (.int n)), x => x = .int n
  | .ok (.out (.bits b)), x => x = .bits b
  | .ok (.out (.float y)), x => x = .float y
  | .ok (.out (.floats ys)), x => x = .floats ys
  | .ok (.out (.size n)), x => x = .size n
  | .ok (.out (.slice a)), x => x = .vals (w.arrs a)
  | .ok (.out (.ref q)), .counterSnap n => w.objs q = some (.counter (.snap n))
  | .ok (.out (.ref q)), .gaugeSnap n => w.objs q = some (.gauge (.snap n))
  | .ok (.out (.ref q)), .gaugeFSnap b => w.objs q = some (.gaugeF (.snap b))
  | .ok (.out (.ref q)), .snap n l => SnapAt w q n l ∨ ∃ q', w.objs q = some (.hist (.snap q')) ∧ SnapAt w q' n l
  | .error p, x => x = .panic p
  | _, _ => False

/-- One operation of the one-at-a-time model (Model/Registry `step`): a call on object `o.1`, with some answers of the clock and the random source. -/
def WorldCall (w : World F) (o : Ref × Call F) (x : Seen F) (w' : World F) : Prop := ∃ env, w' = (step env (.call o.1 o.2) w).1 ∧ ShowsTo w' (step env (.call o.1 o.2) w).2 x

/-- The object whose fields a call uses: for a histogram its sample (histogram.go:156-202). -/
def usedBy (w : World F) (o : Ref × Call F) : Ref :=
  match w.objs o.1 with
  | some (.hist (.std s)) => s
  | _ => o.1

/-- The call as a method of the counter, gauge, sample. -/
def asCounter : Call F → CounterM → Prop
  | .clear, m => m = .clear
  | .count, m => m = .count
  | .dec i, m => m = .dec i
  | .inc i, m => m = .inc i
  | .snapshot, m => m = .snapshot
  | _, _ => False
def asGauge : Call F → GaugeM Int64 → Prop
  | .update v, m => m = .update v
  | .value, m => m = .value
  | .snapshot, m => m = .snapshot
  | _, _ => False
def asGaugeF : Call F → GaugeM FloatBits → Prop
  | .updateF v, m => m = .update v
  | .value, m => m = .value
  | .snapshot, m => m = .snapshot
  | _, _ => False
def asStat : StatCall F → SnapCall F
  | .max => .max
  | .mean => .mean
  | .min => .min
  | .percentile p => .percentiles [p]
  | .percentiles ps => .percentiles ps
  | .stdDev => .stdDev
  | .sum => .sum
  | .variance => .variance
def asSample : Call F → SampleCall F → Prop
  | .update v, m => m = .update v
  | .clear, m => m = .clear
  | .count, m => m = .count
  | .size, m => m = .size
  | .values, m => m = .values
  | .snapshot, m => m = .snapshot
  | .stat c, m => m = .stat (asStat c)
  | _, _ => False
/-- `Histogram` has no `Size` and no `Values`. -/
def ofHist : Call F → Bool
  | .size | .values => false
  | _ => true

/-- The results of the methods, as the caller sees them. -/
def atomSeen (mk : AtomRes → Seen F) (c : Call F) (r : AtomRes) : Seen F :=
  match c with
  | .snapshot => mk r
  | _ => match r with
    | .unit => .unit
    | .int n => .int n
    | .bits b => .bits b
def snapOf (i : Int64 → Seen F) : AtomRes → Seen F
  | .int n => i n
  | .bits b => .gaugeFSnap b
  | .unit => .unit
def sampleSeen (c : Call F) : SampleRes F → Seen F
  | .unit => .unit
  | .int n => .int n
  | .len n => .size n
  | .vals l => .vals l
  | .snap n l => .snap n l
  | .panic p => .panic p
  | .stat (.int v) => .int v
  | .stat (.float x) => .float x
  | .stat (.floats (.error p)) => .panic p
  | .stat (.floats (.ok xs)) => match c, xs with
    | .stat (.percentile _), [x] => .float x
    | _, xs => .floats xs

/-- The sample has been made by `NewExpDecaySample` with a positive size, and has been used since. -/
def ExpUsed (s : ExpDecaySample F) : Prop := ∃ (k : Nat) (alpha : F) (now : Instant) (s0 : ExpDecaySample F) (ops : List (ExpOp F)), 0 < k ∧ ExpDecaySample.new k alpha now = .ok s0 ∧ s0.run ops = .ok s

/-- `h` are events that the code of the object produces in some execution, when any number of goroutines call its methods from the state `o` on.
Only counters, gauges and samples that are no snapshots, functional gauges or stubs are used. `sorter`: the algorithm of `sort.Sort`. -/
def Produced (sorter : Nat → MemProg Unit) (o : Option (Obj F)) (h : List (HEv (Ref × Call F) (Seen F))) : Prop :=
  match o with
  | some (.counter (.std c)) => ∃ sched c' ls tr, (atomMachine counterDo).run c (fun _ => .idle) sched = some (c', ls, tr) ∧
      List.Forall₂ (SameEv (fun o m => asCounter o.2 m) fun o => atomSeen (snapOf .counterSnap) o.2) h (hist tr)
  | some (.gauge (.std v)) => ∃ sched v' ls tr, (atomMachine gaugeDo).run v (fun _ => .idle) sched = some (v', ls, tr) ∧
      List.Forall₂ (SameEv (fun o m => asGauge o.2 m) fun o => atomSeen (snapOf .gaugeSnap) o.2) h (hist tr)
  | some (.gaugeF (.std b)) => ∃ sched b' ls tr, (atomMachine gaugeFDo).run b (fun _ => .idle) sched = some (b', ls, tr) ∧
      List.Forall₂ (SameEv (fun o m => asGaugeF o.2 m) fun o => atomSeen (snapOf .gaugeSnap) o.2) h (hist tr)
  | some (.sample (.uniform s)) => ∃ sched s' ls tr, (bodyMachine (uniformBody (F := F) sorter)).run ⟨none, s⟩ (fun _ => .idle) sched = some (s', ls, tr) ∧
      List.Forall₂ (SameEv (fun o m => asSample o.2 m) fun o => sampleSeen o.2) h (hist tr)
  | some (.sample (.exp s)) => ExpUsed s ∧ ∃ sched s' ls tr, (bodyMachine (expBody (F := F))).run ⟨none, s⟩ (fun _ => .idle) sched = some (s', ls, tr) ∧
      List.Forall₂ (SameEv (fun o m => asSample o.2 m) fun o => sampleSeen o.2) h (hist tr)
  | _ => h = []

/-- `h` is the history of a concurrent program that starts when the metrics are as in `w`: every goroutine makes one call at a time, the events on every object are produced by its code,
and histograms are used through their interface. -/
structure ProgramHistory (sorter : Nat → MemProg Unit) (w : World F) (h : List (HEv (Ref × Call F) (Seen F))) : Prop where
  one : OneCall (fun _ => none) h
  object : ∀ k, Produced sorter (w.objs k) (part (usedBy w) k h)
  hist : ∀ e ∈ h, ∀ s, w.objs (evOp e).1 = some (.hist (.std s)) → ofHist (evOp e).2 = true

end GoMetrics.Spec
