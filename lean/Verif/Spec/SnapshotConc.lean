import Verif.Model.SnapshotConc

/-! What concurrent readers of a sample snapshot should see; what is expected of a sorting algorithm. -/

namespace GoMetrics.Spec
open GoMetrics

variable {F : Type} [GoFloat F] [GoSqrt F]

/-- The result of a call on a snapshot with these values, by the statistics functions of Model/Stats. -/
def statOf (values : List Int64) : SnapCall F → SnapRes F
  | .max => .int (sampleMax values)
  | .min => .int (sampleMin values)
  | .sum => .int (sampleSum values)
  | .mean => .float (sampleMean values)
  | .variance => .float (sampleVariance values)
  | .stdDev => .float (sampleStdDev values)
  | .percentiles ps => .floats ((samplePercentiles values ps).map Prod.fst)

/-- Running a computation alone: result and slice afterwards; `none` if it uses an index out of range. -/
def runAlone {α : Type} : MemProg α → List Int64 → Option (α × List Int64)
  | .ret a, mem => some (a, mem)
  | .read i k, mem => match mem[i]? with
    | some v => runAlone (k v) mem
    | none => none
  | .write i v k, mem => if i < mem.length then runAlone k (mem.set i v) else none

/-- A computation that, run alone, writes nothing. -/
def readsOnly {α : Type} : MemProg α → List Int64 → Prop
  | .ret _, _ => True
  | .read i k, mem => ∀ v, mem[i]? = some v → readsOnly (k v) mem
  | .write _ _ _, _ => False

/-- A sorting algorithm: alone, it sorts; it writes nothing if the slice is sorted. -/
structure SortsInPlace (sorter : Nat → MemProg Unit) : Prop where
  sorts : ∀ mem, runAlone (sorter mem.length) mem = some ((), sortInts mem)
  calm : ∀ mem : List Int64, mem.Pairwise (· ≤ ·) → readsOnly (sorter mem.length) mem

end GoMetrics.Spec
