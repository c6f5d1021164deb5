import Verif.Model.Registry

/-! Vocabulary for statements about programs using several metrics: what a program can observe by calling accessors. -/

namespace GoMetrics.Spec
open GoMetrics

variable {F : Type}

/-- The accessors that return numbers (or an error): `Count`, `Value`, `Rate`, `Max`…`Variance`, `Size`, `Rate1`…`RateMean`, `Error`. -/
def accessor : Call F → Bool
  | .count | .value | .rate | .stat _ | .size | .rates _ | .error => true
  | _ => false

/-- All accessors but `Variance` and `StdDev`. -/
def orderFree : Call F → Bool
  | .stat .variance | .stat .stdDev => false
  | c => accessor c

/-- What calling `c` on the object `r` returns. -/
def observe [GoFloat F] [GoSqrt F] [GoExp F] (w : World F) (env : Env F) (r : Ref) (c : Call F) : Res (Out F) := (call env r c w).2

/-- The slice whose values a sample snapshot, or a histogram or timer built on one, reports. -/
def sampleSlice (w : World F) (r : Ref) : Option ArrId :=
  match w.objs r with
  | some (.sample (.snap _ a)) => some a
  | _ => none
def histSlice (w : World F) (r : Ref) : Option ArrId :=
  match w.objs r with
  | some (.hist (.std s)) | some (.hist (.snap s)) => sampleSlice w s
  | _ => none
def slice (w : World F) (r : Ref) : Option ArrId :=
  match w.objs r with
  | some (.timer (.std h _)) | some (.timer (.snap h _)) => histSlice w h
  | some (.hist _) => histSlice w r
  | _ => sampleSlice w r

/-- The sample behind a histogram. -/
def histSample (w : World F) (r : Ref) : Option Ref :=
  match w.objs r with
  | some (.hist (.std s)) | some (.hist (.snap s)) => some s
  | _ => none

/-- `x` is the object `r` or one of those it is made of: the sample of a histogram; the histogram, its sample and the meter of a timer. -/
def partOf (w : World F) (r x : Ref) : Prop :=
  x = r ∨ histSample w r = some x ∨
    match w.objs r with
    | some (.timer (.std h m)) | some (.timer (.snap h m)) => x = h ∨ x = m ∨ histSample w h = some x
    | _ => False

/-- `r` is a meter that ticks: a `StandardMeter` that has not been stopped. -/
def live (w : World F) (r : Ref) : Prop := ∃ m, w.objs r = some (.meter (.std m)) ∧ m.stopped = false

/-- `Stop()` on `x` is `Stop()` of the meter `r`: `x` is `r` or a timer with the meter `r`. -/
def stopTarget (w : World F) (x r : Ref) : Prop := x = r ∨ ∃ h, w.objs x = some (.timer (.std h r))

/-- The standard registry below all prefixes, and the full name. -/
def base : Reg → Option Nat
  | .std id => some id
  | .prefixed u _ => base u
  | .foreign => none
def fullName : Reg → Str → Str
  | .prefixed u p, name => fullName u (p ++ name)
  | _, name => name

/-- The call stops the meter `r`: `Stop()`, or `Unregister` or `UnregisterAll` of a registry where it or its timer is registered. -/
def stops (w : World F) : Op F → Ref → Prop
  | .call x .stop, r => stopTarget w x r
  | .reg g (.unregister name), r => ∃ id x, base g = some id ∧ (fullName g name, x) ∈ w.regs id ∧ stopTarget w x r
  | .reg g .unregisterAll, r => ∃ id name x, base g = some id ∧ (name, x) ∈ w.regs id ∧ stopTarget w x r
  | _, _ => False

/-- The object does not report the values of a slice that user code passed to `NewSampleSnapshot` and still holds. -/
def ownsValues (w : World F) (r : Ref) : Prop := ∀ a, slice w r = some a → w.shared a = false

/-- The objects that `Snapshot()` makes (the `*Snapshot` types). -/
def isSnapshot : Obj F → Bool
  | .counter (.snap _) | .gauge (.snap _) | .gaugeF (.snap _) | .ewma (.snap _) | .sample (.snap _ _) | .hist (.snap _)
  | .meter (.snap _) | .timer (.snap _ _) => true
  | _ => false

/-- The `Nil*` types. -/
def isStub : Obj F → Bool
  | .counter .nil | .gauge .nil | .gaugeF .nil | .health .nil | .ewma .nil | .sample .nil | .hist .nil | .meter .nil | .timer .nil => true
  | _ => false

/-- The mutating methods of each interface (`Stop` apart). -/
def mutates : Obj F → Call F → Bool
  | .counter _, .clear | .counter _, .inc _ | .counter _, .dec _ => true
  | .gauge _, .update _ => true
  | .gaugeF _, .updateF _ => true
  | .health _, .check | .health _, .healthy | .health _, .unhealthy _ => true
  | .ewma _, .tick | .ewma _, .update _ => true
  | .sample _, .clear | .sample _, .update _ => true
  | .hist _, .clear | .hist _, .update _ => true
  | .meter _, .mark _ => true
  | .timer _, .updateD _ | .timer _, .updateSince _ => true
  | _, _ => false

/-- Every constructor except `NewSampleSnapshot`, which makes a snapshot also with `UseNilMetrics`. -/
def constructor : NewOp F → Bool
  | .sampleSnap _ _ => false
  | _ => true

/-- A zero of the right shape: `Percentiles` gives one zero for each percentile asked for. -/
def isZero [GoFloat F] : Call F → Out F → Prop
  | .stat (.percentiles ps), o => o = .floats (List.replicate ps.length (GoFloat.lit 0))
  | _, o => o = .int 0 ∨ o = .float (GoFloat.lit 0) ∨ o = .bits 0 ∨ o = .size 0 ∨ o = .err none

/-- The accessor belongs to the interface of the object. -/
def has : Obj F → Call F → Bool
  | .counter _, .count => true
  | .gauge _, .value | .gaugeF _, .value => true
  | .health _, .error => true
  | .ewma _, .rate => true
  | .sample _, .count | .sample _, .size | .sample _, .stat _ => true
  | .hist _, .count | .hist _, .stat _ => true
  | .meter _, .count | .meter _, .rates _ => true
  | .timer _, .count | .timer _, .stat _ | .timer _, .rates _ => true
  | _, _ => false

/-- The values a sample holds (those of `Values()`). -/
def contents [GoFloat F] [GoSqrt F] [GoExp F] (w : World F) (env : Env F) (r : Ref) : List Int64 :=
  match call env r .values w with
  | (w', .ok (.slice a)) => w'.arrs a
  | _ => []

/-- The constructor, or the call, uses the object `r`: it builds a histogram or timer on it, or calls one of its methods. -/
def newUses : NewOp F → Ref → Prop
  | .hist s, r => s = r
  | .customTimer h m, r => h = r ∨ m = r
  | _, _ => False
def uses : Op F → Ref → Prop
  | .new c, r => newUses c r
  | .call x _, r => x = r
  | .reg _ (.getOrRegister _ (.ctor c)), r => newUses c r
  | _, _ => False

/-- The durations recorded with the timer `r`: by `Update(d)`, and by `UpdateSince(ts)` the time from `ts` to now. -/
def durations (r : Ref) : List (Env F × Op F) → List (Env F × Int64)
  | [] => []
  | (env, .call x (.updateD d)) :: h => if x = r then (env, d) :: durations r h else durations r h
  | (env, .call x (.updateSince ts)) :: h => if x = r then (env, Int64.ofInt (timeSub env.now ts)) :: durations r h else durations r h
  | _ :: h => durations r h

/-- The integer in a result. -/
def intOf : Res (Out F) → Option Int64
  | .ok (.int n) => some n
  | _ => none

/-- An environment for examples: the clock shows `t`. -/
def envAt [GoFloat F] (t : Instant) : Env F :=
  { now := t, int63 := 0, float64 := GoFloat.lit (1 / 2), gaugeFn := fun f => Int64.ofInt f + 7, gaugeFFn := fun _ => 7,
    checkFn := fun _ => [.unhealthy (some 1)], order := fun l => l, order_perm := fun l => .refl l }

end GoMetrics.Spec

namespace GoMetrics
variable {F : Type}

/-- From `w` to `w'` nothing that existed has changed (there may be new objects and slices). -/
structure Ext (w w' : World F) : Prop where
  objs : ∀ r, r < w.nextObj → w'.objs r = w.objs r
  next : w.nextObj ≤ w'.nextObj
  arrs : ∀ a, a < w.nextArr → w'.arrs a = w.arrs a ∧ w'.shared a = w.shared a
  nextA : w.nextArr ≤ w'.nextArr
  meters : w'.meters = w.meters
  regs : w'.regs = w.regs
  started : w'.started = w.started
  useNil : w'.useNil = w.useNil

end GoMetrics
