import Verif.Go.Basic
import Verif.Go.Float
import Mathlib.Data.List.Sort

/-! Model of the statistics functions of /repo/sample.go (lines 235-297, 369-395, 612-616). -/

namespace GoMetrics
open GoFloat

/-- sample.go:236-247 `SampleMax`. -/
def sampleMax (values : List Int64) : Int64 :=
  if values.length = 0 then 0
  else values.foldl (fun max v => if max < v then v else max) Int64.minValue

/-- sample.go:258-269 `SampleMin`. -/
def sampleMin (values : List Int64) : Int64 :=
  if values.length = 0 then 0
  else values.foldl (fun min v => if min > v then v else min) Int64.maxValue

/-- sample.go:375-381 `SampleSum`: int64 accumulation, wrapping. -/
def sampleSum (values : List Int64) : Int64 := values.foldl (fun sum v => sum + v) 0

/-- sample.go:250-255 `SampleMean`. -/
def sampleMean {F : Type} [GoFloat F] (values : List Int64) : F :=
  if values.length = 0 then lit 0
  else div (ofInt (sampleSum values).toInt) (ofInt values.length)

/-- sample.go:384-395 `SampleVariance`. -/
def sampleVariance {F : Type} [GoFloat F] (values : List Int64) : F :=
  if values.length = 0 then lit 0
  else
    let m : F := sampleMean values
    let sum := values.foldl (fun sum v => let d := sub (ofInt v.toInt) m; add sum (mul d d)) (lit 0)
    div sum (ofInt values.length)

/-- sample.go:370-372 `SampleStdDev`. -/
def sampleStdDev {F : Type} [GoFloat F] [GoSqrt F] (values : List Int64) : F :=
  GoSqrt.sqrt (sampleVariance values)

/-- `sort.Sort` on an `int64Slice` (sample.go:282, 612-616): the slice is rearranged into increasing order. Any correct sorting
algorithm gives this result because equal int64 values are indistinguishable. -/
def sortInts (values : List Int64) : List Int64 := values.insertionSort (· ≤ ·)

/-- sample.go:284-293: one score on the sorted slice. -/
def percentileSorted {F : Type} [GoFloat F] (values : List Int64) (p : F) : Res F :=
  let size : Int := values.length
  let pos := mul p (ofInt (size + 1))
  if lt pos (lit 1) then do
    let v ← index values 0
    return ofInt v.toInt
  else if le (ofInt size) pos then do
    let v ← index values (size - 1)
    return ofInt v.toInt
  else do
    let l ← index values (toInt pos - 1)
    let u ← index values (toInt pos)
    let lower : F := ofInt l.toInt
    let upper : F := ofInt u.toInt
    return add lower (mul (sub pos (floor pos)) (sub upper lower))

/-- sample.go:278-297 `SamplePercentiles`: returns the scores and the contents of the argument slice afterwards (it is sorted in
place when it is not empty, also when a later index panics; the panic case does not report the slice). -/
def samplePercentiles {F : Type} [GoFloat F] (values : List Int64) (ps : List F) : Res (List F × List Int64) :=
  if 0 < values.length then do
    let sorted := sortInts values
    let scores ← ps.mapM (percentileSorted sorted)
    return (scores, sorted)
  else return (ps.map (fun _ => lit 0), values)

/-- sample.go:272-274 `SamplePercentile`. -/
def samplePercentile {F : Type} [GoFloat F] (values : List Int64) (p : F) : Res (F × List Int64) := do
  let (scores, values) ← samplePercentiles values [p]
  let s ← index scores 0
  return (s, values)

end GoMetrics
