import Verif.Model.LibratoConc
import Verif.Spec.GetAllConc
import Verif.Spec.Librato

/-! What a Librato batch can contain when other goroutines use the metrics meanwhile: numbers that were right at some moment. -/

namespace GoMetrics.Spec
open GoMetrics

variable {F : Type} [GoFloat F] [GoSqrt F] [GoExp F]

/-- Between the moments `a` and `b` the accessor `c` of the metric `r` had the value `out`: when it was called, on the metric or on its sample. -/
def Sometime (a b : List (Env F × Op F)) (r : Ref) (c : Call F) (out : Out F) : Prop :=
  ∃ past env x, a <+: past ∧ past ++ [(env, .call x c)] <+: b ∧ (x = r ∨ observe (after past) env r .sample = .ok (.ref x)) ∧ observe (after past) env r c = .ok out

/-- The sum of squares as `BuildRequest` computes it, from a count, a mean and a standard deviation that the metric had between `a` and `b`, not necessarily at the same time. -/
def SquaresSometime (a b : List (Env F × Op F)) (r : Ref) (x : F) : Prop :=
  ∃ n mean dev, Sometime a b r .count (.int n) ∧ Sometime a b r (.stat .mean) (.float mean) ∧ Sometime a b r (.stat .stdDev) (.float dev) ∧ x = sumSquaresOf n mean dev

/-- The counters and gauges of one metric, like `LibratoBlock`, but each number is one that the metric had at some moment between `a` and `b`, not necessarily all at the same moment. -/
def LibratoLiveBlock (a b : List (Env F × Op F)) (ps : List F) (name : Str) (r : Ref) (o : Obj F) (cs gs : List (Measurement F)) : Prop :=
  let counterFor (suffix : String) (n : Int64) : Prop := ∃ c, cs = [c] ∧ plain c (textOf (name ++ bytes suffix)) (.float (GoFloat.ofInt n.toInt))
  let gaugesFor (l : List (List (Piece (GoMetrics.Field F)) × Call F)) (gs : List (Measurement F)) (duration : Bool := false) : Prop :=
    List.Forall₂ (fun e g => ∃ x, Sometime a b r e.2 (.float x) ∧ plain g e.1 (.float x) duration) l gs
  let rates (pre : String) := (rateSuffixes pre).map fun e => (textOf (name ++ e.1), e.2)
  match o with
  | .counter _ => gs = [] ∧ ∃ n, Sometime a b r .count (.int n) ∧ (0 < n.toInt → ∃ n', Sometime a b r .count (.int n') ∧ counterFor ".count" n') ∧ (n.toInt ≤ 0 → cs = [])
  | .gauge _ => cs = [] ∧ ∃ n g, Sometime a b r .value (.int n) ∧ gs = [g] ∧ plain g (textOf name) (.float (GoFloat.ofInt n.toInt))
  | .gaugeF _ => cs = [] ∧ ∃ x g, Sometime a b r .value (.bits x) ∧ gs = [g] ∧ plain g (textOf name) (.bits x)
  | .hist _ => cs = [] ∧ ∃ n, Sometime a b r .count (.int n) ∧ (n.toInt ≤ 0 → gs = []) ∧
      (0 < n.toInt → ∃ g pcts s sum, gs = g :: pcts ∧ summarises g (textOf (name ++ bytes ".hist")) s ∧ Sometime a b r .count (.int s.count) ∧ Sometime a b r (.stat .max) (.int s.max) ∧
        Sometime a b r (.stat .min) (.int s.min) ∧ Sometime a b r (.stat .sum) (.int sum) ∧ s.sum = GoFloat.ofInt sum.toInt ∧ SquaresSometime a b r s.sumSquares ∧
        gaugesFor (ps.map fun p => (textOf (name ++ bytes ".hist.") ++ [.val (bytes ".2f") (.float p)], .stat (.percentile p))) pcts)
  | .meter _ => ∃ n, Sometime a b r .count (.int n) ∧ counterFor "" n ∧ gaugesFor (rates "") gs
  | .timer _ => ∃ n, Sometime a b r .count (.int n) ∧ counterFor "" n ∧ ∃ n', Sometime a b r .count (.int n') ∧ (n'.toInt ≤ 0 → gs = []) ∧
      (0 < n'.toInt → ∃ g pcts rs s mean k, gs = g :: pcts ++ rs ∧ summarises g (textOf (name ++ bytes ".timer.mean")) s true ∧ Sometime a b r .count (.int s.count) ∧ Sometime a b r (.stat .max) (.int s.max) ∧
        Sometime a b r (.stat .min) (.int s.min) ∧ Sometime a b r (.stat .mean) (.float mean) ∧ Sometime a b r .count (.int k) ∧ s.sum = GoFloat.mul mean (GoFloat.ofInt k.toInt) ∧ SquaresSometime a b r s.sumSquares ∧
        gaugesFor (ps.map fun p => (textOf (name ++ bytes ".timer.") ++ [.val (bytes "2.0f") (.float (GoFloat.mul p (GoFloat.lit 100)))], .stat (.percentile p))) pcts true ∧
        gaugesFor (rates ".rate") rs)
  | _ => cs = [] ∧ gs = []

/-- The part of a batch for one metric, and the time in which its numbers were read. -/
structure LibratoSpan (F : Type) where
  name : Str
  ref : Ref
  first : List (Env F × Op F)
  last : List (Env F × Op F)
  counters : List (Measurement F)
  gauges : List (Measurement F)

/-- The batch built during the history `whole` from the registry `id`, whose list was copied at the moment `start`: the counters and gauges of each metric that was in the registry then (with a name that starts with `pre`), and nothing else. The
metrics are read one after the other. -/
def BatchedLive (start whole : List (Env F × Op F)) (id : Nat) (pre : Str) (cs gs : List (Measurement F))
    (block : List (Env F × Op F) → List (Env F × Op F) → Str → Ref → Obj F → List (Measurement F) → List (Measurement F) → Prop) : Prop :=
  ∃ spans : List (LibratoSpan F), cs = (spans.map LibratoSpan.counters).flatten ∧ gs = (spans.map LibratoSpan.gauges).flatten ∧
    (spans.map LibratoSpan.name).Nodup ∧ (∀ name, name ∈ spans.map LibratoSpan.name ↔ gets (after start : World F) id name ≠ none ∧ pre <+: name) ∧
    spans.Pairwise (fun a b => a.last <+: b.first) ∧
    ∀ x ∈ spans, gets (after start : World F) id x.name = some x.ref ∧ start <+: x.first ∧ x.first <+: x.last ∧ x.last <+: whole ∧
      ∃ o, (after x.first : World F).objs x.ref = some o ∧ block x.first x.last x.name x.ref o x.counters x.gauges

end GoMetrics.Spec
