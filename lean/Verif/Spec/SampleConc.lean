import Verif.Model.SampleConc
import Verif.Spec.Body
import Verif.Spec.SnapshotConc
import Verif.Spec.Sample

/-! One call on a sample, as a whole: by the sequential model (Model/Uniform, Model/ExpDecay). -/

namespace GoMetrics.Spec
open GoMetrics

variable {F : Type} [GoFloat F] [GoSqrt F] [GoExp F]

def UniformCall : UniformSample → SampleCall F → SampleRes F → UniformSample → Prop
  | s, .update v, r, s' => (r = .unit ∧ ∃ draw, s.update v draw = .ok s') ∨ ∃ p draw, r = .panic p ∧ s.update v draw = .error p ∧ s' = { s with count := s.count + 1 }
  | s, .clear, r, s' => r = .unit ∧ s' = s.clear
  | s, .count, r, s' => r = .int s.count ∧ s' = s
  | s, .size, r, s' => r = .len s.size ∧ s' = s
  | s, .values, r, s' => r = .vals s.values ∧ s' = s
  | s, .snapshot, r, s' => r = .snap s.count s.values ∧ s' = s
  | s, .stat (.percentiles ps), r, s' => r = .stat (.floats (s.percentiles ps).1) ∧ s' = (s.percentiles ps).2
  | s, .stat c, r, s' => r = .stat (statOf s.values c) ∧ s' = s

def ExpCall : ExpDecaySample F → SampleCall F → SampleRes F → ExpDecaySample F → Prop
  | s, .update v, r, s' => r = .unit ∧ ∃ t u, s.update t v u = .ok s'
  | s, .clear, r, s' => r = .unit ∧ ∃ now, s' = s.clear now
  | s, .count, r, s' => r = .int s.count ∧ s' = s
  | s, .size, r, s' => r = .len s.size ∧ s' = s
  | s, .values, r, s' => r = .vals s.vals ∧ s' = s
  | s, .snapshot, r, s' => r = .snap s.count s.vals ∧ s' = s
  | s, .stat c, r, s' => r = .stat (statOf s.vals c) ∧ s' = s

/-- The calls that record or forget values. -/
def changes : SampleCall F → Bool
  | .update _ => true
  | .clear => true
  | _ => false

/-- The values given to the sample by these calls. -/
def updated (calls : List (SampleCall F)) : List Int64 := calls.filterMap fun | .update v => some v | _ => none

/-- The calls of a sequential history, without the random draws and times. -/
def uniformCalls (ops : List UniformOp) : List (SampleCall F) := ops.filterMap fun | .update v _ => some (.update v) | .clear => some .clear | .percentiles => none
def expCalls (ops : List (ExpOp F)) : List (SampleCall F) := ops.map fun | .update _ v _ => .update v | .clear _ => .clear

end GoMetrics.Spec
