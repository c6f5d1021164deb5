import Verif.Model.Stats
import Verif.Go.Machine

/-!
One `SampleSnapshot` (sample.go:299-356) read by any number of goroutines. Its methods take no lock. `Percentile` and `Percentiles` sort the slice of the snapshot in place (sample.go:282);
every read and every write of an element is a separate step.

`sort.Sort` is a parameter (`sorter`): any algorithm that reads and writes the elements. `sortProg` is insertion sort (package sort, `insertionSort`), which is what `sort.Sort` is for slices of at most 12
elements (before Go 1.19: at most 6), with `Less` and `Swap` of `int64Slice` (sample.go:612-616). Reads and writes of an int64 are atomic (64-bit machines).
-/

namespace GoMetrics
open GoFloat

/-- A computation that reads and writes the elements of one slice. -/
inductive MemProg (α : Type) where
  | ret (a : α)
  | read (i : Nat) (k : Int64 → MemProg α)
  | write (i : Nat) (v : Int64) (k : MemProg α)

variable {α : Type}

/-- One computation after the other. -/
def MemProg.bind {β : Type} : MemProg α → (α → MemProg β) → MemProg β
  | .ret a, f => f a
  | .read i k, f => .read i fun v => (k v).bind f
  | .write i v k, f => .write i v (k.bind f)

/-- The inner loop of insertion sort, from index `j` downwards: `for ; j > 0 && Less(j, j-1); j-- { Swap(j, j-1) }`. sample.go:615 `Less` reads element `j`, then `j-1`;
sample.go:616 `Swap` evaluates the right side `p[j-1], p[j]`, then assigns `p[j]`, then `p[j-1]`. -/
def insertProg : Nat → MemProg α → MemProg α
  | 0, k => k
  | j + 1, k => .read (j + 1) fun a => .read j fun b => if a < b then .read j fun x => .read (j + 1) fun y => .write (j + 1) x (.write j y (insertProg j k)) else k

/-- The outer loop of insertion sort: `m` rounds from index `i`. -/
def sortRounds : (m i : Nat) → MemProg α → MemProg α
  | 0, _, k => k
  | m + 1, i, k => insertProg i (sortRounds m (i + 1) k)

/-- Insertion sort of `n` elements. -/
def sortProg (n : Nat) : MemProg Unit := sortRounds (n - 1) 1 (.ret ())

/-- `values[i]` of a slice of length `n`. -/
def readProg (n : Nat) (i : Int) (k : Int64 → MemProg (Res α)) : MemProg (Res α) := if 0 ≤ i ∧ i < n then .read i.toNat k else .ret (.error .index)

/-- `for _, v := range values`: reads `m` elements from index `i` on. -/
def readRange : (m i : Nat) → (List Int64 → MemProg α) → MemProg α
  | 0, _, k => k []
  | m + 1, i, k => .read i fun v => readRange m (i + 1) fun l => k (v :: l)

variable {F : Type} [GoFloat F]

/-- sample.go:284-293: one score. -/
def scoreProg (n : Nat) (p : F) (k : F → MemProg (Res α)) : MemProg (Res α) :=
  let size : Int := n
  let pos := mul p (ofInt (size + 1))
  if lt pos (lit 1) then readProg n 0 fun v => k (ofInt v.toInt)
  else if le (ofInt size) pos then readProg n (size - 1) fun v => k (ofInt v.toInt)
  else readProg n (toInt pos - 1) fun l => readProg n (toInt pos) fun u =>
    let lower : F := ofInt l.toInt
    let upper : F := ofInt u.toInt
    k (add lower (mul (sub pos (floor pos)) (sub upper lower)))

/-- sample.go:283-295: the scores of the percentiles `ps`. -/
def scoresProg (n : Nat) : List F → (List F → MemProg (Res α)) → MemProg (Res α)
  | [], k => k []
  | p :: ps, k => scoreProg n p fun x => scoresProg n ps fun xs => k (x :: xs)

/-- sample.go:278-297 `SamplePercentiles`. -/
def percentilesProg (sorter : Nat → MemProg Unit) (n : Nat) (ps : List F) : MemProg (Res (List F)) :=
  if 0 < n then (sorter n).bind fun _ => scoresProg n ps fun xs => .ret (.ok xs) else .ret (.ok (ps.map fun _ => lit 0))

/-- sample.go:384-395 `SampleVariance`: one pass for the mean, one for the deviations. -/
def varianceProg (n : Nat) (k : F → MemProg α) : MemProg α :=
  if n = 0 then k (lit 0)
  else readRange n 0 fun l1 =>
    let m : F := sampleMean l1
    readRange n 0 fun l2 => k (div (l2.foldl (fun sum v => let d := sub (ofInt v.toInt) m; add sum (mul d d)) (lit 0)) (ofInt n))

/-- The methods of a sample snapshot that look at its values (sample.go:315-356). -/
inductive SnapCall (F : Type) where
  | max | min | sum | mean | variance | stdDev
  | percentiles (ps : List F)
  deriving DecidableEq

inductive SnapRes (F : Type) where
  | int (v : Int64)
  | float (x : F)
  | floats (r : Res (List F))
  deriving DecidableEq

/-- What a call does with the slice of length `n`. -/
def snapProg [GoSqrt F] (sorter : Nat → MemProg Unit) (n : Nat) : SnapCall F → MemProg (SnapRes F)
  | .max => readRange n 0 fun l => .ret (.int (sampleMax l))
  | .min => readRange n 0 fun l => .ret (.int (sampleMin l))
  | .sum => readRange n 0 fun l => .ret (.int (sampleSum l))
  | .mean => readRange n 0 fun l => .ret (.float (sampleMean l))
  | .variance => varianceProg n fun x => .ret (.float x)
  | .stdDev => varianceProg n fun x => .ret (.float (GoSqrt.sqrt x))
  | .percentiles ps => (percentilesProg sorter n ps).bind fun r => .ret (.floats r)

/-- What a goroutine is doing: nothing, or the rest of a call. -/
inductive SnapL (F : Type) where
  | idle
  | run (c : SnapCall F) (p : MemProg (SnapRes F))

/-- An idle goroutine makes a call; otherwise a goroutine takes its next step. -/
inductive SnapIn (F : Type) where
  | call (c : SnapCall F)
  | step

inductive SnapEv (F : Type) where
  | call (t : Nat) (c : SnapCall F)
  | ret (t : Nat) (c : SnapCall F) (r : SnapRes F)
  deriving DecidableEq

/-- One step of goroutine `t`. The shared state is the slice of the snapshot. -/
def snapStep [GoSqrt F] (sorter : Nat → MemProg Unit) (t : Nat) : SnapIn F → List Int64 → SnapL F → Option (List Int64 × SnapL F × List (SnapEv F))
  | .call c, mem, .idle => some (mem, .run c (snapProg sorter mem.length c), [.call t c])
  | .step, mem, .run c (.ret r) => some (mem, .idle, [.ret t c r])
  | .step, mem, .run c (.read i k) => match mem[i]? with
    | some v => some (mem, .run c (k v), [])
    | none => none
  | .step, mem, .run c (.write i v k) => if i < mem.length then some (mem.set i v, .run c k, []) else none
  | _, _, _ => none

def snapMachine (F : Type) [GoFloat F] [GoSqrt F] (sorter : Nat → MemProg Unit) : Machine (List Int64) (SnapL F) (SnapIn F) (SnapEv F) := ⟨snapStep sorter⟩

end GoMetrics
