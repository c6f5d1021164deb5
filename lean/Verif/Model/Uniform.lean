import Verif.Model.Stats

/-! Model of `UniformSample`, /repo/sample.go:397-535. -/

namespace GoMetrics

/-- `rand.Int63n(n)` (math/rand): panics for n <= 0, otherwise some number in [0,n). `draw` is the outcome of the random source; every
number below `n` is `draw % n` for some draw. -/
def int63n (n : Int) (draw : Nat) : Res Nat :=
  if n ≤ 0 then .error .randArg else .ok (draw % n.toNat)

/-- sample.go:400-405 (the mutex is left out here: every method holds it for its whole body). -/
structure UniformSample where
  count : Int64
  reservoirSize : Int
  values : List Int64
  deriving DecidableEq

namespace UniformSample

/-- sample.go:409-417 `NewUniformSample` (not UseNilMetrics): `make` panics on a negative size. -/
def new (reservoirSize : Int) : Res UniformSample :=
  if reservoirSize < 0 then .error .makeslice
  else .ok { count := 0, reservoirSize := reservoirSize, values := [] }

/-- sample.go:420-425 `Clear` (`make` with the same size). -/
def clear (s : UniformSample) : UniformSample := { s with count := 0, values := [] }

/-- sample.go:507-519 `Update`. -/
def update (s : UniformSample) (v : Int64) (draw : Nat) : Res UniformSample :=
  let s := { s with count := s.count + 1 }
  if (s.values.length : Int) < s.reservoirSize then
    .ok { s with values := s.values ++ [v] }
  else do
    let r ← int63n s.count.toInt draw
    if (r : Int) < s.values.length then
      return { s with values := s.values.set r v }
    else return s

/-- sample.go:459-471 `Percentile(s)`: the scores and the sample afterwards, whose slice has been sorted in place
(line 282) even if a later index panics. -/
def percentiles {F : Type} [GoFloat F] (s : UniformSample) (ps : List F) : Res (List F) × UniformSample :=
  ((samplePercentiles s.values ps).map Prod.fst, { s with values := sortInts s.values })

/-- sample.go:474-478 `Size`. -/
def size (s : UniformSample) : Nat := s.values.length

end UniformSample

/-- The calls that change a uniform sample (percentile reads reorder it). -/
inductive UniformOp where
  | update (v : Int64) (draw : Nat)
  | clear
  | percentiles
  deriving DecidableEq

def UniformSample.apply (s : UniformSample) : UniformOp → Res UniformSample
  | .update v r => s.update v r
  | .clear => .ok s.clear
  | .percentiles => .ok (s.percentiles ([] : List Rat)).2

def UniformSample.run (s : UniformSample) (ops : List UniformOp) : Res UniformSample := ops.foldlM UniformSample.apply s

end GoMetrics
