import Verif.Spec.Sample
import Verif.Lemmas.ExpKeys
import Mathlib.MeasureTheory.Constructions.Pi
import Mathlib.MeasureTheory.Measure.Lebesgue.Basic

/-! The random draws of an exponentially decaying sample as a probability space. -/

namespace GoMetrics.Spec
open GoMetrics MeasureTheory

/-- `n` independent results of `rand.Float64()`, idealised as uniformly distributed in [0,1). -/
noncomputable def uniformDraws (n : Nat) : Measure (Fin n → ℝ) := Measure.pi fun _ => volume.restrict (Set.Ico 0 1)

/-- Updates number 0, 1, …: at the times `t`, of the values `v`, with the draws `u`. -/
def updatesAt {n : Nat} (t : Fin n → Instant) (v : Fin n → Int64) (u : Fin n → ℝ) : List (ExpOp ℝ) := List.ofFn fun a => .update (t a) (v a) (u a)

/-- The draws for which the sample finally holds the value `x`: `n` updates after the calls `pre` on a new sample `s`. -/
def retained {n : Nat} (s : ExpDecaySample ℝ) (pre : List (ExpOp ℝ)) (t : Fin n → Instant) (v : Fin n → Int64) (x : Int64) : Set (Fin n → ℝ) :=
  {u | ∃ s', s.run (pre ++ updatesAt t v u) = .ok s' ∧ x ∈ s'.vals}

end GoMetrics.Spec
