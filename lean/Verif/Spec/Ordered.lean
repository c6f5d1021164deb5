import Verif.Spec.Export
import Verif.Spec.Stats

/-! The numbers of one report should be in order (C122). -/

namespace GoMetrics.Spec
open GoMetrics

section
variable {F : Type} [GoFloat F]

/-- The number in a report (texts count as 0). -/
def num : GoMetrics.Field F → F
  | .int n => GoFloat.ofInt n.toInt
  | .float x => x
  | _ => GoFloat.lit 0

/-- What can never be above what: the minimum is not above the mean and the percentiles, these are not above the maximum, and higher percentiles are not below lower ones. -/
inductive Below : Call F → Call F → Prop
  | minMax : Below (.stat .min) (.stat .max)
  | minMean : Below (.stat .min) (.stat .mean)
  | meanMax : Below (.stat .mean) (.stat .max)
  | minPct (p : F) : Below (.stat .min) (.stat (.percentile p))
  | pctMax (p : F) : Below (.stat (.percentile p)) (.stat .max)
  | pcts (p q : F) : GoFloat.le p q = true → Below (.stat (.percentile p)) (.stat (.percentile q))

/-- The numbers of the rows are in order, as far as their labels say. -/
def RowsInOrder (o : Obj F) (rows : List (String × GoMetrics.Field F)) : Prop :=
  ∀ x ∈ rows, ∀ y ∈ rows, ∀ c c', means o x.1 = some c → means o y.1 = some c' → Below c c' → GoFloat.le (num x.2) (num y.2) = true

/-- The same for percentiles reported by their own: `prows` are the percentiles with their numbers. -/
def PctsInOrder (prows : List (F × GoMetrics.Field F)) : Prop := ∀ x ∈ prows, ∀ y ∈ prows, GoFloat.le x.1 y.1 = true → GoFloat.le (num x.2) (num y.2) = true
def PctsBetween (o : Obj F) (rows : List (String × GoMetrics.Field F)) (prows : List (F × GoMetrics.Field F)) : Prop :=
  ∀ x ∈ rows, ∀ y ∈ prows, (means o x.1 = some (.stat .min) → GoFloat.le (num x.2) (num y.2) = true) ∧ (means o x.1 = some (.stat .max) → GoFloat.le (num y.2) (num x.2) = true)

/-- The fields that `GetAll` gives for a metric are in order, as far as their names say. -/
def FieldsInOrder (o : Obj F) (vs : List (String × GoMetrics.Field F)) : Prop :=
  ∀ k c k' c' v v', (k, c) ∈ fieldsOf o → (k', c') ∈ fieldsOf o → (k, v) ∈ vs → (k', v') ∈ vs → Below c c' → GoFloat.le (num v) (num v') = true

/-- The sum of the values behind the metric fits in an int64 (otherwise the mean itself is wrong: C12). -/
def SumsFit (w : World F) (r : Ref) : Prop := ∀ vs, recorded w r = some vs → SumFits vs

/-- The sum of the values behind the metric, and their number, can be converted to a float64 without rounding (2^53 ns are 104 days). -/
def SumsExact (w : World F) (r : Ref) : Prop := ∀ vs, recorded w r = some vs → |total vs| ≤ 2 ^ 53 ∧ (vs.length : Int) ≤ 2 ^ 53

/-- No negative values are behind the metric. -/
def NoNegative (w : World F) (r : Ref) : Prop := ∀ vs, recorded w r = some vs → ∀ v ∈ vs, 0 ≤ v.toInt

end

variable {K : Type} [_root_.Field K] [LinearOrder K] [FloorRing K]

/-- The numbers of the rows are in order up to 1 where minimum or maximum are compared with other statistics; exactly where they are compared with each other or others with others, and
if there are no negative values also between the minimum and the others. -/
def RowsNearlyInOrder (o : Obj K) (nonneg : Prop) (rows : List (String × GoMetrics.Field K)) : Prop :=
  ∀ x ∈ rows, ∀ y ∈ rows, ∀ c c', means o x.1 = some c → means o y.1 = some c' → Below c c' →
    num x.2 < num y.2 + 1 ∧ ((c = .stat .min ↔ c' = .stat .max) → num x.2 ≤ num y.2) ∧ (nonneg → c = .stat .min → num x.2 ≤ num y.2)

end GoMetrics.Spec
