import Verif.Model.Uniform
import Verif.Model.ExpDecay

/-! Specifications of the samples: they mention only the calls made. -/

namespace GoMetrics.Spec
open GoMetrics

/-- The values passed to `Update` since construction or the last `Clear`, oldest first. -/
def uniformGiven (ops : List UniformOp) : List Int64 :=
  ops.foldl (fun acc o => match o with
    | .update v _ => acc ++ [v]
    | .clear => []
    | .percentiles => acc) []

/-- Number of `Update` calls in a history. -/
def nUpdates (ops : List UniformOp) : Nat := ops.countP fun o => match o with | .update _ _ => true | _ => false

/-- All equally likely outcomes of the random source for `n` calls: the i-th call (from 0) draws a number in [0, i+1). -/
def allDraws : Nat → List (List Nat)
  | 0 => [[]]
  | n + 1 => (allDraws n).flatMap fun d => (List.range (n + 1)).map fun r => d ++ [r]

/-- `n` updates, the i-th one with value `v i` and random draw `d[i]`, each followed by `reads i` percentile reads. -/
def updatesAndReads (v : Nat → Int64) (reads : Nat → Nat) (d : List Nat) (n : Nat) : List UniformOp :=
  (List.range n).flatMap fun i => .update (v i) (d.getD i 0) :: List.replicate (reads i) .percentiles

/-- An update made to an exponentially decaying sample. -/
structure Given (F : Type) where
  t : Instant
  v : Int64
  u : F

/-- The updates since construction or the last `Clear`, oldest first. -/
def expGiven {F : Type} (ops : List (ExpOp F)) : List (Given F) :=
  ops.foldl (fun acc o => match o with
    | .update t v u => acc ++ [⟨t, v, u⟩]
    | .clear _ => []) []

/-- Every call happens at or after the previous one and at most `gap` nanoseconds later (`last` is the time of the previous call). -/
def Steady {F : Type} (gap : Int) : Instant → List (ExpOp F) → Prop
  | _, [] => True
  | last, .update t _ _ :: ops => last ≤ t ∧ t - last ≤ gap ∧ Steady gap t ops
  | last, .clear t :: ops => last ≤ t ∧ t - last ≤ gap ∧ Steady gap t ops

end GoMetrics.Spec
