import Verif.Spec.Export
import Verif.Spec.Net
import Verif.Go.Digits

/-! How a server reads what Graphite and OpenTSDB send: lines, words and decimal numbers. Independent of how they were printed. -/

namespace GoMetrics.Spec
open GoMetrics

/-- A number as a server understands it. -/
inductive Reading where
  | num (q : ℚ)
  | inf (neg : Bool)
  | nan
  deriving DecidableEq

/-- The pieces between separators. -/
def splitOn (sep : UInt8) : Str → List Str
  | [] => [[]]
  | b :: s =>
    if b = sep then [] :: splitOn sep s
    else match splitOn sep s with
      | w :: ws => (b :: w) :: ws
      | [] => [[b]]

/-- A number without sign and point: one or more digits. -/
def readDigits (s : Str) : Option Nat :=
  if s ≠ [] ∧ ∀ b ∈ s, 48 ≤ b ∧ b ≤ 57 then some (s.foldl (fun n b => 10 * n + (b.toNat - 48)) 0) else none

/-- An integer. -/
def readInt : Str → Option Int
  | 45 :: s => (readDigits s).map fun n => -(n : Int)
  | s => (readDigits s).map fun n => (n : Int)

/-- A decimal number without sign. -/
def readDecimal (s : Str) : Option ℚ :=
  match splitOn 46 s with
  | [a] => (readDigits a).map fun n => (n : ℚ)
  | [a, b] => do return (← readDigits a) + (← readDigits b : Nat) / 10 ^ b.length
  | _ => none

/-- A decimal number, or one of the words for infinities and NaN. -/
def readNumber (s : Str) : Option Reading :=
  if s = bytes "NaN" then some .nan
  else if s = bytes "+Inf" then some (.inf false)
  else if s = bytes "-Inf" then some (.inf true)
  else match s with
    | 45 :: s => (readDecimal s).map fun q => .num (-q)
    | s => (readDecimal s).map .num

/-- What a server stores: where, which number, for when. -/
structure Sample where
  path : Str
  value : Reading
  time : Int
  /-- the tags of OpenTSDB -/
  tags : List Str := []
  deriving DecidableEq

/-- A line of the Graphite protocol: `path value time`. -/
def readGraphiteLine (l : Str) : Option Sample :=
  match splitOn 32 l with
  | [path, value, time] => do return { path, value := ← readNumber value, time := ← readInt time }
  | _ => none

/-- A line of the OpenTSDB telnet protocol: `put path time value tag …`. -/
def readOpenTSDBLine (l : Str) : Option Sample :=
  match splitOn 32 l with
  | put :: path :: time :: value :: tags => if put = bytes "put" then do return { path, value := ← readNumber value, time := ← readInt time, tags } else none
  | _ => none

/-- All lines; each of them ends with a newline. -/
def readLines (line : Str → Option Sample) (s : Str) : Option (List Sample) :=
  match (splitOn 10 s).reverse with
  | [] :: ls => ls.reverse.mapM line
  | _ => none

/-- What the Graphite server and the OpenTSDB server read. -/
def TcpExporter.read {F : Type} : TcpExporter F → Str → Option (List Sample)
  | .graphite _ => readLines readGraphiteLine
  | .openTSDB _ => readLines readOpenTSDBLine

/-- No spaces, newlines or other control characters. -/
def Plain (s : Str) : Prop := ∀ b ∈ s, 32 < b

/-- `x` is the float `f` to within half a unit of the `k`-th decimal. -/
def Near (k : Nat) : F64 → Reading → Prop
  | .nan, x => x = .nan
  | .inf b, x => x = .inf b
  | .fin q, x => ∃ z : ℤ, x = .num (z / 10 ^ k) ∧ |(z / 10 ^ k : ℚ) - q| ≤ 1 / (2 * 10 ^ k)

/-- `x` is the value `v`: integers exactly, statistics to two decimals, float gauges to six. -/
def Reads : GoMetrics.Field F64 → Reading → Prop
  | .int n, x => x = .num n.toInt
  | .float f, x => Near 2 f x
  | .bits b, x => Near 6 (.ofBits b) x
  | _, _ => False

/-- `prefix.name.label` -/
def pathOf (pre name label : Str) : Str := pre ++ 46 :: (name ++ 46 :: label)

/-- A sample with the value `v` under the path `prefix.name.label`. -/
def IsSample (pre name : Str) (now : Int64) (tags : List Str) (label : Str) (v : GoMetrics.Field F64) (s : Sample) : Prop :=
  s.path = pathOf pre name label ∧ s.time = now.toInt ∧ s.tags = tags ∧ Reads v s.value

/-- The samples of a metric in Graphite: one for each row, one for each percentile; `key` turns a percentile into text. The order does not matter. -/
def GraphiteSamples (key : F64 → Str) (pre name : Str) (now : Int64) (rows : List (String × GoMetrics.Field F64)) (prows : List (F64 × GoMetrics.Field F64)) (ss : List Sample) : Prop :=
  ∃ s1 s2, ss.Perm (s1 ++ s2) ∧ List.Forall₂ (fun row s => IsSample pre name now [] (bytes row.1) row.2 s) rows s1 ∧
    List.Forall₂ (fun row s => IsSample pre name now [] (key row.1 ++ bytes "-percentile") row.2 s) prows s2

end GoMetrics.Spec
