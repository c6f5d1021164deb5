import Verif.Spec.Recency

/-! Vocabulary for C118: what a decaying sample holds after updates of equal weight. -/

namespace GoMetrics.Spec
open GoMetrics MeasureTheory

/-- The values that the sample finally holds (`Values()`), after the calls `pre` on a new sample `s` and `n` updates. -/
noncomputable def heldValues {n : Nat} (s : ExpDecaySample ℝ) (pre : List (ExpOp ℝ)) (t : Fin n → Instant) (v : Fin n → Int64) (u : Fin n → ℝ) : List Int64 :=
  match s.run (pre ++ updatesAt t v u) with
  | .ok s' => s'.vals
  | .error _ => []

/-- The values of the updates in `B` and of the newest one. -/
def withNewest {n : Nat} (v : Fin (n + 1) → Int64) (B : Finset (Fin n)) : Multiset Int64 := v (Fin.last n) ::ₘ B.val.map fun a => v a.castSucc

/-- The mean of all values given. -/
noncomputable def givenMean {n : Nat} (v : Fin n → Int64) : ℝ := (∑ a, ((v a).toInt : ℝ)) / n

end GoMetrics.Spec
