import Verif.Spec.Sample
import Mathlib.Algebra.BigOperators.Group.Finset.Basic
import Mathlib.Data.Rat.Defs

/-! Specification of estimates: what is read from a sample, over all outcomes of the random source, against the textbook
statistics of all the values that were fed. -/

namespace GoMetrics.Spec
open GoMetrics Finset

/-- The average of a quantity over a list of equally likely cases. -/
def average {α : Type} (cases : List α) (f : α → ℚ) : ℚ := (cases.map f).sum / cases.length

/-- The share of the equally likely cases in which something happens. -/
def chance {α : Type} (cases : List α) (p : α → Bool) : ℚ := (cases.countP p : ℚ) / cases.length

/-- A new sample of size `k` after `n` updates (the i-th with value `v i` and draw `d[i]`) and percentile reads in between. -/
def fed (k : Nat) (v : Nat → Int64) (reads : Nat → Nat) (n : Nat) (d : List Nat) : Res UniformSample :=
  (UniformSample.new k).bind fun s0 => s0.run (updatesAndReads v reads d n)

/-- A statistic of the values a sample holds (0 if there is no sample because a call panicked). -/
def estimate (f : List Int64 → ℚ) : Res UniformSample → ℚ
  | .ok s => f s.values
  | .error _ => 0

/-- A statement about the values a sample holds (false after a panic). -/
def holds (p : List Int64 → Bool) : Res UniformSample → Bool
  | .ok s => p s.values
  | .error _ => false

/-- The mean of the first `n` values. -/
def fedMean (v : Nat → Int64) (n : Nat) : ℚ := (∑ i ∈ range n, ((v i).toInt : ℚ)) / n

/-- The variance of the first `n` values (divided by `n`). -/
def fedVariance (v : Nat → Int64) (n : Nat) : ℚ := (∑ i ∈ range n, (((v i).toInt : ℚ) - fedMean v n) ^ 2) / n

/-- The share of the first `n` values that meet a condition. -/
def fedShare (c : Int64 → Bool) (v : Nat → Int64) (n : Nat) : ℚ := (((range n).filter fun i => c (v i) = true).card : ℚ) / n

/-- The share of the values of a list that meet a condition. -/
def share (c : Int64 → Bool) (vs : List Int64) : ℚ := (vs.countP c : ℚ) / vs.length

end GoMetrics.Spec
