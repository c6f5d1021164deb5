import Verif.Model.Export
import Verif.Spec.Registry
import Mathlib.Data.Nat.Digits.Defs

/-! What the output of the exporters should say: the statistics of each kind of metric, what each label means, and the layout of the lines. -/

namespace GoMetrics.Spec
open GoMetrics

variable {F : Type}

/-- `v` is the value that the accessor `c` of the metric `r` had in the state `w` (for a healthcheck: after `Check()`; the standard deviation of the
sorted values, which differs at most in rounding). -/
def Holds [GoFloat F] [GoSqrt F] [GoExp F] (w : World F) (env : Env F) (r : Ref) (c : Call F) (v : GoMetrics.Field F) : Prop :=
  (c = .stat .stdDev → v = .float (sortedDev (recorded w r))) ∧ (c ≠ .stat .stdDev → shows (observe (checked env w r) env r c) v)

/-- The statistics of a distribution, with the given percentiles. -/
def distribution (ps : List F) : List (Call F) :=
  [.count, .stat .min, .stat .max, .stat .mean, .stat .stdDev] ++ ps.map fun p => .stat (.percentile p)

/-- The four rates. -/
def allRates : List (Call F) := [.rates .rate1, .rates .rate5, .rates .rate15, .rates .rateMean]

/-- All statistics of a metric. -/
def statsOf (ps : List F) : Obj F → List (Call F)
  | .counter _ => [.count]
  | .gauge _ | .gaugeF _ => [.value]
  | .health _ => [.error]
  | .hist _ => distribution ps
  | .meter _ => .count :: allRates
  | .timer _ => distribution ps ++ allRates
  | _ => []

section labels
variable [GoFloat F]

/-- 50, 75, 95, 99 and 99.9 percent. -/
def five : List F := [GoFloat.lit (1 / 2), GoFloat.lit (3 / 4), GoFloat.lit (19 / 20), GoFloat.lit (99 / 100), GoFloat.lit (999 / 1000)]

/-- The statistic that a label stands for: for distributions, for rates, and for each kind of metric. -/
def distributionLabel : String → Option (Call F)
  | "count" => some .count
  | "min" => some (.stat .min)
  | "max" => some (.stat .max)
  | "mean" => some (.stat .mean)
  | "stddev" | "std-dev" => some (.stat .stdDev)
  | "median" | "50-percentile" => some (.stat (.percentile (GoFloat.lit (1 / 2))))
  | "75%" | "75-percentile" => some (.stat (.percentile (GoFloat.lit (3 / 4))))
  | "95%" | "95-percentile" => some (.stat (.percentile (GoFloat.lit (19 / 20))))
  | "99%" | "99-percentile" => some (.stat (.percentile (GoFloat.lit (99 / 100))))
  | "99.9%" | "999-percentile" => some (.stat (.percentile (GoFloat.lit (999 / 1000))))
  | _ => none
def rateLabel : String → Option (Call F)
  | "1-min rate" | "1-min" | "one-minute" => some (.rates .rate1)
  | "5-min rate" | "5-min" | "five-minute" => some (.rates .rate5)
  | "15-min rate" | "15-min" | "fifteen-minute" => some (.rates .rate15)
  | "mean rate" | "mean-rate" => some (.rates .rateMean)
  | _ => none
def means : Obj F → String → Option (Call F)
  | .counter _, "count" | .counter _, "" => some .count
  | .gauge _, "value" | .gauge _, "" | .gaugeF _, "value" | .gaugeF _, "" => some .value
  | .health _, "error" => some .error
  | .hist _, l => distributionLabel l
  | .meter _, "count" => some .count
  | .meter _, "mean" => some (.rates .rateMean)
  | .meter _, l => rateLabel l
  | .timer _, l => (distributionLabel l).or (rateLabel l)
  | _, _ => none

/-- The rows (label and value) contain every statistic of the metric (with the percentiles `ps`) exactly once, and each value is that of the statistic its label names, converted
by `conv`. -/
def Complete [GoSqrt F] [GoExp F] (w : World F) (env : Env F) (r : Ref) (o : Obj F) (ps : List F) (conv : Call F → GoMetrics.Field F → GoMetrics.Field F)
    (rows : List (String × GoMetrics.Field F)) : Prop :=
  (rows.map fun x => means o x.1).Perm ((statsOf ps o).map some) ∧
  ∀ x ∈ rows, ∀ c, means o x.1 = some c → ∃ v, Holds w env r c v ∧ x.2 = conv c v

/-- The statistics of a timer that are durations. -/
def isDuration : Call F → Bool
  | .stat .min | .stat .max | .stat .mean | .stat .stdDev | .stat (.percentile _) => true
  | _ => false
def isCount : Call F → Bool
  | .count => true
  | _ => false
def isTimer : Obj F → Bool
  | .timer _ => true
  | _ => false

/-- A number as a float64. -/
def asFloat : GoMetrics.Field F → GoMetrics.Field F
  | .int n => .float (GoFloat.ofInt n.toInt)
  | v => v

/-- A duration in nanoseconds expressed in the unit `du`, as a float64 … -/
def inUnit (du : F) (v : GoMetrics.Field F) : GoMetrics.Field F :=
  match asFloat v with
  | .float x => .float (GoFloat.div x du)
  | v => v
/-- … or, for integers, truncated to an integer. -/
def inUnitInt (d : Int64) (du : F) : GoMetrics.Field F → GoMetrics.Field F
  | .int n => .int (n / d)
  | v => inUnit du v

end labels

/-- How a value should be printed: integers in decimal, statistics with two decimals, float gauges with six, errors as text. -/
def verb : GoMetrics.Field F → Str
  | .int _ => bytes "d"
  | .float _ => bytes ".2f"
  | .bits _ => bytes "f"
  | .errText _ | .nil => bytes "v"

/-- A minimum width in a directive: a number without leading zero. -/
def IsWidth (w : Str) : Prop := (∀ b ∈ w, 48 ≤ b ∧ b ≤ 57) ∧ w.head? ≠ some 48

/-- The word for a kind of metric. -/
def kindWord : Obj F → String
  | .counter _ => "counter"
  | .gauge _ | .gaugeF _ => "gauge"
  | .health _ => "healthcheck"
  | .hist _ => "histogram"
  | .meter _ => "meter"
  | .timer _ => "timer"
  | _ => ""

/-- Layout of writer.go and log.go: `  label:    value` and the unit. -/
def paddedLine (unit : Str) (row : String × GoMetrics.Field F) (e : Event F) : Prop :=
  ∃ n width, IsWidth width ∧
    e = .print (textOf (bytes "  ") ++ (textOf (bytes row.1) ++ (textOf (bytes ": ") ++ (textOf (List.replicate n 32) ++ .val (width ++ verb row.2) row.2 :: (textOf unit ++ textOf [10])))))

/-- A block of writer.go and log.go: a line with kind and name, then one line for each row. -/
def PaddedBlock (unit : String → Str) (name : Str) (o : Obj F) (rows : List (String × GoMetrics.Field F)) (evs : List (Event F)) : Prop :=
  ∃ rest, evs = .print (textOf (bytes (kindWord o)) ++ (textOf [32] ++ (textOf name ++ textOf [10]))) :: rest ∧
    List.Forall₂ (fun row e => paddedLine (unit row.1) row e) rows rest

/-- The labels that come first. -/
def firstLabels : List String := ["count", "value", "error"]

/-- Layout of syslog.go: `kind name: label: value label: value …` in one message; labels are words. -/
def SyslogBlock (name : Str) (o : Obj F) (rows : List (String × GoMetrics.Field F)) (evs : List (Event F)) : Prop :=
  (∃ row ∈ rows.head?, row.1 ∈ firstLabels) ∧ (∀ row ∈ rows, (32 : UInt8) ∉ bytes row.1) ∧ ∃ parts : List (List (Piece (GoMetrics.Field F))), evs = [.print (textOf (bytes (kindWord o)) ++ (textOf [32] ++ (textOf name ++ (textOf [58] ++ parts.flatten))))] ∧
    List.Forall₂ (fun row l => l = textOf [32] ++ (textOf (bytes row.1) ++ (textOf (bytes ": ") ++ [.val (verb row.2) row.2]))) rows parts

/-- Layout of graphite.go: `prefix.name.label value now`. -/
def GraphiteLine (pre name : Str) (now : Int64) (label : Str) (v : GoMetrics.Field F) (e : Event F) : Prop :=
  e = .print (textOf pre ++ (textOf [46] ++ (textOf name ++ (textOf [46] ++ (textOf label ++ (textOf [32] ++ .val (verb v) v :: textOf [32] ++ .val [100] (.int now) :: textOf [10]))))))

/-- Layout of opentsdb.go: `put prefix.name.label now value host=host`. -/
def OpenTSDBLine (pre name : Str) (now : Int64) (host : Str) (label : Str) (v : GoMetrics.Field F) (e : Event F) : Prop :=
  e = .print (textOf (bytes "put ") ++ (textOf pre ++ (textOf [46] ++ (textOf name ++ (textOf [46] ++ (textOf label ++ (textOf [32] ++ .val [100] (.int now) :: textOf [32] ++ .val (verb v) v :: (textOf (bytes " host=") ++ (textOf host ++ textOf [10]))))))))) 

/-- Labels that need no quoting: lower case letters, digits and dashes. -/
def IsLabel (s : Str) : Prop := s ≠ [] ∧ ∀ b ∈ s, 97 ≤ b ∧ b ≤ 122 ∨ 48 ≤ b ∧ b ≤ 57 ∨ b = 45

/-- The text for a percentile in graphite.go: 100 times the percentile in decimal, without the point. -/
def pctKey [GoFloat F] (formatFloat : F → Str) (p : F) : Str := (formatFloat (GoFloat.mul p (GoFloat.lit 100))).erase 46

/-- The decimal digits of a number. -/
def digitsOf (n : Nat) : Str := if n = 0 then [48] else (Nat.digits 10 n).reverse.map fun d => 48 + UInt8.ofNat d
/-- The last `k` decimal digits. -/
def lastDigits : Nat → Nat → Str
  | 0, _ => []
  | k + 1, m => (48 + UInt8.ofNat (m / 10 ^ k % 10)) :: lastDigits k m
/-- The number `m / 10^k` with exactly `k` decimals: what `strconv.FormatFloat(x, 'f', -1, 64)` returns for a number with `k` decimals. -/
def decimal (m k : Nat) : Str := digitsOf (m / 10 ^ k) ++ if k = 0 then [] else 46 :: lastDigits k m

/-- A block of graphite.go: a line for each row, and lines for the configured percentiles; `key` turns a percentile into text. The lines may be in any order. -/
def GraphiteBlock (key : F → Str) (pre name : Str) (now : Int64) (rows : List (String × GoMetrics.Field F)) (prows : List (F × GoMetrics.Field F)) (evs : List (Event F)) : Prop :=
  (∀ row ∈ rows, IsLabel (bytes row.1)) ∧ ∃ lines plines, evs.Perm (lines ++ plines) ∧ List.Forall₂ (fun row e => GraphiteLine pre name now (bytes row.1) row.2 e) rows lines ∧
    List.Forall₂ (fun row e => GraphiteLine pre name now (key row.1 ++ bytes "-percentile") row.2 e) prows plines

/-- The kinds with percentiles. -/
def isDistribution : Obj F → Bool
  | .hist _ | .timer _ => true
  | _ => false
def isHealth : Obj F → Bool
  | .health _ => true
  | _ => false

/-- StatHat: counts are posted as counts, the other statistics as values, under `name.label` (or just the name). -/
def StatHatPost [GoFloat F] (o : Obj F) (name key : Str) (row : String × GoMetrics.Field F) (e : Event F) : Prop :=
  let stat := name ++ (if row.1 = "" then [] else 46 :: bytes row.1)
  match means o row.1 with
  | some .count => e = .count stat key row.2
  | _ => e = .value stat key row.2

/-- Byte order: a proper prefix comes first; otherwise the first different byte decides. -/
def Before (a b : Str) : Prop :=
  ∃ common : Str, (∃ y t, a = common ∧ b = common ++ y :: t) ∨ (∃ x s y t, a = common ++ x :: s ∧ b = common ++ y :: t ∧ x.toNat < y.toNat)

/-- The output `out` of an export in the state `w` consists of one block for each metric of the registry `id` whose name starts with `pre`, and
nothing else. -/
def Exported [GoFloat F] [GoSqrt F] [GoExp F] {α : Type} (w : World F) (id : Nat) (pre : Str) (out : List α) (block : Str → Ref → Obj F → List α → Prop) : Prop :=
  ∃ blocks : List (Str × Ref × List α), out = (blocks.map fun b => b.2.2).flatten ∧ (blocks.map fun b => b.1).Nodup ∧
    (∀ name, name ∈ (blocks.map fun b => b.1) ↔ gets w id name ≠ none ∧ pre <+: name) ∧
    ∀ name r evs, (name, r, evs) ∈ blocks → gets w id name = some r ∧ ∃ o, w.objs r = some o ∧ block name r o evs

/-- `Snapshot()` of every histogram and timer in the registry (with a name that starts with `pre`) returns (it panics only for a histogram over a `NilSample` and a timer over a `NilHistogram` or `NilMeter`). -/
def SnapshotsReturn [GoFloat F] [GoSqrt F] [GoExp F] (w : World F) (env : Env F) (id : Nat) (pre : Str) : Prop :=
  ∀ name r o, gets w id name = some r → pre <+: name → w.objs r = some o → isDistribution o = true → ∃ out, (call env r .snapshot w).2 = .ok out

/-- No sample is larger than a Go slice can be. -/
def SamplesFit (w : World F) : Prop := ∀ r vs, recorded w r = some vs → (vs.length : Int) ≤ maxInt64

end GoMetrics.Spec
