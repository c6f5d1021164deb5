import Verif.Go.Body
import Verif.Model.SnapshotConc
import Verif.Model.Uniform
import Verif.Model.ExpDecay

/-!
`UniformSample` (sample.go:397-535) and `ExpDecaySample` (sample.go:32-186) used by any number of goroutines: the methods as programs on the shared fields.

In `UniformSample` every read or write of `count`, of the slice header and of a slice element is a step of its own (with `append` one step); statistics read the slice in place, and `Percentile(s)` sorts it in place
(by any algorithm `sorter`, as in Model/SnapshotConc). In `ExpDecaySample` a step is a statement; `Pop` and `Push` of the heap are one step each, every round of the rescale loop is two. A panic inside a method runs the
deferred `Unlock` and then leaves the method.
-/

namespace GoMetrics
open GoFloat

variable {F : Type} [GoFloat F]

/-- The methods of interface `Sample` (sample.go:15-30); `Percentile(p)` is `Percentiles` of one element. -/
inductive SampleCall (F : Type) where
  | update (v : Int64)
  | clear
  | count
  | size
  | values
  | snapshot
  | stat (c : SnapCall F)
  deriving DecidableEq

inductive SampleRes (F : Type) where
  | unit
  | int (n : Int64)
  | len (n : Nat)
  | vals (l : List Int64)
  /-- a new `SampleSnapshot` with this count and a copy of the values -/
  | snap (count : Int64) (l : List Int64)
  | stat (r : SnapRes F)
  | panic (p : Panic)
  deriving DecidableEq

/-- The deferred `Unlock`, then the return or the panic. -/
def leave {S X : Type} (r : SampleRes F) : Body S X (SampleRes F) := .unlock (.ret r)

/-! ### UniformSample -/

/-- A computation on the elements of `s.values`; then `fin` with its result. -/
def onValues {α : Type} (fin : α → Body UniformSample Nat (SampleRes F)) : MemProg α → Body UniformSample Nat (SampleRes F)
  | .ret a => fin a
  | .read i k => .act id fun s => match s.values[i]? with
    | some v => onValues fin (k v)
    | none => leave (.panic .index)
  | .write i v k => .act (fun s => { s with values := s.values.set i v }) fun s => if i < s.values.length then onValues fin k else leave (.panic .index)

/-- sample.go:507-519 `Update`. The answer to a question is the next draw of the random source. -/
def uniformUpdate (v : Int64) : Body UniformSample Nat (SampleRes F) :=
  .lock <|
  -- 510: s.count++
  .act id fun s0 => .act (fun s => { s with count := s0.count + 1 }) fun _ =>
  -- 511
  .act id fun s1 => if (s1.values.length : Int) < s1.reservoirSize then
    -- 512
    .act (fun s => { s with values := s.values ++ [v] }) fun _ => leave .unit
  else
    -- 514
    .act id fun s2 => .ask fun draw => match int63n s2.count.toInt draw with
      | .error p => leave (.panic p)
      | .ok r =>
        -- 515, 516
        .act id fun s3 => if (r : Int) < s3.values.length then .act (fun s => { s with values := s.values.set r v }) fun _ => leave .unit else leave .unit

variable [GoSqrt F]

/-- The methods of `UniformSample`. -/
def uniformBody (sorter : Nat → MemProg Unit) : SampleCall F → Body UniformSample Nat (SampleRes F)
  | .update v => uniformUpdate v
  -- 420-425
  | .clear => .lock <| .act (fun s => { s with count := 0 }) fun _ => .act (fun s => { s with values := [] }) fun _ => leave .unit
  -- 429-433
  | .count => .lock <| .act id fun s => leave (.int s.count)
  -- 474-478
  | .size => .lock <| .act id fun s => leave (.len s.values.length)
  -- 522-528: `copy`
  | .values => .lock <| .act id fun s => onValues (fun l => leave (.vals l)) (readRange s.values.length 0 .ret)
  -- 481-490: `copy`, then the count
  | .snapshot => .lock <| .act id fun s => onValues (fun l => .act id fun s => leave (.snap s.count l)) (readRange s.values.length 0 .ret)
  -- 437-471, 493-504, 531-535
  | .stat c => .lock <| .act id fun s => onValues (fun r => leave (.stat r)) (snapProg sorter s.values.length c)

/-! ### ExpDecaySample -/

variable [GoExp F]

/-- sample.go:181-184: `m` rounds of the rescale loop from index `i`; `t0` is the old start time. -/
def rescaleBody (t0 : Instant) : (m i : Nat) → Body (ExpDecaySample F) (Instant × F) (SampleRes F)
  | 0, _ => leave .unit
  | m + 1, i => .act id fun s => match index (s.values.s ++ s.values.rest) i with
    | .error p => leave (.panic p)
    | .ok x =>
      let y : Item F := { k := mul x.k (ExpDecaySample.factor s.alpha t0 s.t0), v := x.v }
      .act (fun s => match s.values.push y with | .ok h => { s with values := h } | .error _ => s) fun s => match s.values.push y with
        | .ok _ => rescaleBody t0 m (i + 1)
        | .error p => leave (.panic p)

/-- sample.go:170-185: `update` after the possible `Pop`. -/
def expPush (t : Instant) (v : Int64) : Body (ExpDecaySample F) (Instant × F) (SampleRes F) :=
  -- 172: rand.Float64()
  .ask fun x =>
  -- 171-174
  .act (fun s => match s.values.push { k := ExpDecaySample.key s.alpha s.t0 t x.2, v := v } with | .ok h => { s with values := h } | .error _ => s) fun s =>
  match s.values.push { k := ExpDecaySample.key s.alpha s.t0 t x.2, v := v } with
  | .error p => leave (.panic p)
  | .ok _ =>
    -- 175-177: the old slice (its length) and the old start time
    .act id fun s => if t > s.t1 then
      -- 178, 179, 180
      .act (fun s => { s with values := s.values.clear }) fun _ => .act (fun s => { s with t0 := t }) fun _ => .act (fun s => { s with t1 := s.t0 + hour }) fun _ =>
      rescaleBody s.t0 s.values.s.length 0
    else leave .unit

/-- sample.go:141-143 `Update`: the clock is read before the mutex is taken; 164-186 `update`. -/
def expUpdate (v : Int64) : Body (ExpDecaySample F) (Instant × F) (SampleRes F) :=
  .ask fun now => .lock <|
  -- 167
  .act id fun s0 => .act (fun s => { s with count := s0.count + 1 }) fun _ =>
  -- 168
  .act id fun s => if (s.values.size : Int) = s.reservoirSize then
    -- 169
    .act (fun s => match s.values.pop with | .ok (_, h) => { s with values := h } | .error _ => s) fun s => match s.values.pop with
      | .error p => leave (.panic p)
      | .ok _ => expPush now.1 v
  else expPush now.1 v

/-- sample.go:119-123, 149-153: copying the values one by one. -/
def copyItems (fin : List Int64 → Body (ExpDecaySample F) (Instant × F) (SampleRes F)) : (m i : Nat) → List Int64 → Body (ExpDecaySample F) (Instant × F) (SampleRes F)
  | 0, _, acc => fin acc
  | m + 1, i, acc => .act id fun s => match s.values.s[i]? with
    | some x => copyItems fin m (i + 1) (acc ++ [x.v])
    | none => leave (.panic .index)

/-- The statistics of a private copy of the values: sample.go:82-107, 131-138, 158-160. -/
def copyStat (l : List Int64) : SnapCall F → SnapRes F
  | .max => .int (sampleMax l)
  | .min => .int (sampleMin l)
  | .sum => .int (sampleSum l)
  | .mean => .float (sampleMean l)
  | .variance => .float (sampleVariance l)
  | .stdDev => .float (sampleStdDev l)
  | .percentiles ps => .floats ((samplePercentiles l ps).map Prod.fst)

/-- The methods of `ExpDecaySample`. -/
def expBody : SampleCall F → Body (ExpDecaySample F) (Instant × F) (SampleRes F)
  | .update v => expUpdate v
  -- 63-70
  | .clear => .lock <| .act (fun s => { s with count := 0 }) fun _ => .ask fun now => .act (fun s => { s with t0 := now.1 }) fun _ => .act (fun s => { s with t1 := s.t0 + hour }) fun _ =>
      .act (fun s => { s with values := s.values.clear }) fun _ => leave .unit
  -- 74-78
  | .count => .lock <| .act id fun s => leave (.int s.count)
  -- 109-113
  | .size => .lock <| .act id fun s => leave (.len s.values.size)
  -- 146-155
  | .values => .lock <| .act id fun s => copyItems (fun l => leave (.vals l)) s.values.s.length 0 []
  -- 116-128
  | .snapshot => .lock <| .act id fun s => copyItems (fun l => .act id fun s => leave (.snap s.count l)) s.values.s.length 0 []
  | .stat c => .lock <| .act id fun s => copyItems (fun l => leave (.stat (copyStat l c))) s.values.s.length 0 []

end GoMetrics
