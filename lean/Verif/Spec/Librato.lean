import Verif.Model.Librato
import Verif.Spec.Registry

/-! What a Librato batch should contain (C67, C68). -/

namespace GoMetrics.Spec
open GoMetrics

variable {F : Type}

/-- A value of a summary gauge: count, sum, extremes and sum of squares of a distribution. -/
structure Summary (F : Type) where
  count : Int64
  sum : F
  max : Int64
  min : Int64
  sumSquares : F

variable [GoFloat F] [GoSqrt F] [GoExp F]

/-- The fixed gauges of the rates, with the suffixes of the names. -/
def rateSuffixes (pre : String) : List (Str × Call F) :=
  [(bytes (pre ++ ".1min"), .rates .rate1), (bytes (pre ++ ".5min"), .rates .rate5), (bytes (pre ++ ".15min"), .rates .rate15)]

/-- The measurement `m` has this name, the float value `v`, and no other number; it is marked as a duration if it is one. -/
def plain (m : Measurement F) (name : List (Piece (GoMetrics.Field F))) (v : GoMetrics.Field F) (duration : Bool := false) : Prop :=
  m.name = name ∧ m.value = some v ∧ m.count = none ∧ m.sum = none ∧ m.max = none ∧ m.min = none ∧ m.sumSquares = none ∧ (m.attributes = .timer ↔ duration = true)

/-- The measurement `m` is a summary, marked as one of durations if it is. -/
def summarises (m : Measurement F) (name : List (Piece (GoMetrics.Field F))) (s : Summary F) (duration : Bool := false) : Prop :=
  m.name = name ∧ m.value = none ∧ m.count = some s.count.toUInt64 ∧ m.sum = some s.sum ∧ m.max = some (GoFloat.ofInt s.max.toInt) ∧ m.min = some (GoFloat.ofInt s.min.toInt) ∧
    m.sumSquares = some s.sumSquares ∧ (m.attributes = .timer ↔ duration = true)

/-- The float64 value of an accessor of `r`. -/
def gives (w : World F) (env : Env F) (r : Ref) (c : Call F) (x : F) : Prop := observe w env r c = .ok (.float x)
def givesInt (w : World F) (env : Env F) (r : Ref) (c : Call F) (n : Int64) : Prop := observe w env r c = .ok (.int n)

/-- What `sumSquares` computes: from a count, a mean and a standard deviation. -/
def sumSquaresOf (n : Int64) (mean dev : F) : F :=
  let count : F := GoFloat.ofInt n.toInt
  let x := GoFloat.add (GoFloat.mul (GoFloat.mul count dev) (GoFloat.mul count dev)) (GoFloat.div (GoFloat.mul (GoFloat.mul count mean) (GoFloat.mul count mean)) count)
  if GoFloat.le x x then x else GoFloat.lit 0

/-- The standard deviation of the values of a sample, whatever their order (rounding may depend on it). -/
def isDev (vs : Option (List Int64)) (dev : F) : Prop :=
  match vs with
  | none => dev = GoFloat.lit 0
  | some vs => ∃ ws, ws.Perm vs ∧ dev = sampleStdDev ws

/-- The reported sum of squares (what this number is: C68). -/
def SquaresFrom (w : World F) (env : Env F) (r : Ref) (n : Int64) (x : F) : Prop :=
  ∃ mean dev, gives w env r (.stat .mean) mean ∧ isDev (recorded w r) dev ∧ x = sumSquaresOf n mean dev

/-- The counters and gauges of one metric, as librato.go documents them by its names: a counter for each counter, meter and timer (for counters only
when positive); the value of each gauge; a summary and the percentiles of each histogram and timer that has values; the rates. -/
def LibratoBlock (w : World F) (env : Env F) (ps : List F) (name : Str) (r : Ref) (o : Obj F) (cs gs : List (Measurement F)) : Prop :=
  let counterFor (suffix : String) (n : Int64) : Prop := ∃ c, cs = [c] ∧ plain c (textOf (name ++ bytes suffix)) (.float (GoFloat.ofInt n.toInt))
  let gaugesFor (l : List (List (Piece (GoMetrics.Field F)) × Call F)) (gs : List (Measurement F)) (duration : Bool := false) : Prop :=
    List.Forall₂ (fun e g => ∃ x, gives w env r e.2 x ∧ plain g e.1 (.float x) duration) l gs
  let rates (pre : String) := (rateSuffixes pre).map fun e => (textOf (name ++ e.1), e.2)
  match o with
  | .counter _ => gs = [] ∧ ∃ n, givesInt w env r .count n ∧ (0 < n.toInt → counterFor ".count" n) ∧ (n.toInt ≤ 0 → cs = [])
  | .gauge _ => cs = [] ∧ ∃ n g, givesInt w env r .value n ∧ gs = [g] ∧ plain g (textOf name) (.float (GoFloat.ofInt n.toInt))
  | .gaugeF _ => cs = [] ∧ ∃ b g, observe w env r .value = .ok (.bits b) ∧ gs = [g] ∧ plain g (textOf name) (.bits b)
  | .hist _ => cs = [] ∧ ∃ n, givesInt w env r .count n ∧ (n.toInt ≤ 0 → gs = []) ∧
      (0 < n.toInt → ∃ g pcts s sum, gs = g :: pcts ∧ summarises g (textOf (name ++ bytes ".hist")) s ∧ s.count = n ∧ givesInt w env r (.stat .max) s.max ∧
        givesInt w env r (.stat .min) s.min ∧ givesInt w env r (.stat .sum) sum ∧ s.sum = GoFloat.ofInt sum.toInt ∧ SquaresFrom w env r n s.sumSquares ∧
        gaugesFor (ps.map fun p => (textOf (name ++ bytes ".hist.") ++ [.val (bytes ".2f") (.float p)], .stat (.percentile p))) pcts)
  | .meter _ => ∃ n, givesInt w env r .count n ∧ counterFor "" n ∧ gaugesFor (rates "") gs
  | .timer _ => ∃ n, givesInt w env r .count n ∧ counterFor "" n ∧ (n.toInt ≤ 0 → gs = []) ∧
      (0 < n.toInt → ∃ g pcts rs s mean, gs = g :: pcts ++ rs ∧ summarises g (textOf (name ++ bytes ".timer.mean")) s true ∧ s.count = n ∧ givesInt w env r (.stat .max) s.max ∧
        givesInt w env r (.stat .min) s.min ∧ gives w env r (.stat .mean) mean ∧ s.sum = GoFloat.mul mean (GoFloat.ofInt n.toInt) ∧ SquaresFrom w env r n s.sumSquares ∧
        gaugesFor (ps.map fun p => (textOf (name ++ bytes ".timer.") ++ [.val (bytes "2.0f") (.float (GoFloat.mul p (GoFloat.lit 100)))], .stat (.percentile p))) pcts true ∧
        gaugesFor (rates ".rate") rs)
  | _ => cs = [] ∧ gs = []

/-- The period of a measurement: the interval in seconds, for some as an integer. -/
def periodOk (d : Int64) (m : Measurement F) : Prop :=
  m.period = .float (durationSeconds d) ∨ m.period = .int (Int64.ofInt (GoFloat.toInt (durationSeconds d : F)))

/-- The name in the batch: with the namespace and a period before it, if one is set. -/
def libratoName (namesp name : Str) : Str := if namesp = [] then name else namesp ++ [46] ++ name

/-- The batch of an export in the state `w` consists of the counters and gauges of each metric of the registry `id` whose name starts with `pre`, and of
nothing else. -/
def Batched (w : World F) (id : Nat) (pre : Str) (cs gs : List (Measurement F)) (block : Str → Ref → Obj F → List (Measurement F) → List (Measurement F) → Prop) : Prop :=
  ∃ blocks : List (Str × Ref × List (Measurement F) × List (Measurement F)), cs = (blocks.map fun b => b.2.2.1).flatten ∧ gs = (blocks.map fun b => b.2.2.2).flatten ∧
    (blocks.map fun b => b.1).Nodup ∧ (∀ name, name ∈ (blocks.map fun b => b.1) ↔ gets w id name ≠ none ∧ pre <+: name) ∧
    ∀ name r cs gs, (name, r, cs, gs) ∈ blocks → gets w id name = some r ∧ ∃ o, w.objs r = some o ∧ block name r o cs gs

end GoMetrics.Spec
