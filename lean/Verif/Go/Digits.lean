import Verif.Go.Fmt
import Verif.Go.F64
import Verif.Model.GetAll

/-!
How `fmt` turns values into text (Go packages fmt and strconv, trusted): the directives that the exporters use, `%d` and `%9d` for int64, `%f`, `%.2f` and `%12.2f` for float64, `%v` for errors.

Simplifications: the precision of `%d` (never used) is ignored; a negative zero is printed without its sign (the float model has one zero); a directive that does not go with its argument gives a complaint whose
details are left out. `strconv` prints the exact decimal expansion of a float64 rounded to the requested number of decimals, ties to even (strconv/decimal.go `shouldRoundUp`).
-/

namespace GoMetrics

/-- The digit `d`. -/
def digit (d : Nat) : UInt8 := 48 + UInt8.ofNat d

/-- strconv `formatBits`: the digits are written from the right, `acc` are those already written. The first argument bounds the number of digits. -/
def appendDigits : Nat → Nat → Str → Str
  | 0, _, acc => acc
  | fuel + 1, n, acc => if n < 10 then digit n :: acc else appendDigits fuel (n / 10) (digit (n % 10) :: acc)

/-- The number `n` in decimal (it has at most as many decimal as binary digits). -/
def decDigits (n : Nat) : Str := appendDigits (n.log2 + 1) n []

/-- The last `k` decimal digits of `n`. -/
def fracDigits : Nat → Nat → Str
  | 0, _ => []
  | k + 1, n => fracDigits k (n / 10) ++ [digit (n % 10)]

/-- `%d`. -/
def fmtInt (z : Int) : Str := if z < 0 then 45 :: decDigits z.natAbs else decDigits z.natAbs

/-- `%.kf`. -/
def fmtFixed (k : Nat) : F64 → Str
  | .nan => bytes "NaN"
  | .inf false => bytes "+Inf"
  | .inf true => bytes "-Inf"
  | .fin q =>
    let m := (roundEven (|q| * 10 ^ k)).toNat
    (if q < 0 then [45] else []) ++ decDigits (m / 10 ^ k) ++ if k = 0 then [] else 46 :: fracDigits k m

/-- The float64 with the given bits (`math.Float64frombits`; IEEE 754 binary64: sign, 11 bits of exponent, 52 bits of fraction). -/
def F64.ofBits (b : FloatBits) : F64 :=
  let neg := decide (2 ^ 63 ≤ b.toNat)
  let e : Nat := b.toNat / 2 ^ 52 % 2 ^ 11
  let f : Nat := b.toNat % 2 ^ 52
  let sign : ℚ := if neg then -1 else 1
  if e = 2047 then (if f = 0 then .inf neg else .nan)
  else if e = 0 then .fin (sign * f * 2 ^ (-1074 : ℤ))
  else .fin (sign * (2 ^ 52 + f) * 2 ^ ((e : ℤ) - 1075))

/-- A minimum width: spaces on the left. -/
def padLeft (w : Nat) (s : Str) : Str := List.replicate (w - s.length) 32 ++ s

def isDigit (b : UInt8) : Bool := 48 ≤ b && b ≤ 57

/-- A number in a directive. -/
def numberIn (s : Str) : Nat := s.foldl (fun a b => a * 10 + (b.toNat - 48)) 0

/-- Width, precision and verb of a directive like `12.2f`. -/
def directiveParts (d : Str) : Nat × Option Nat × Str :=
  let w := numberIn (d.takeWhile isDigit)
  match d.dropWhile isDigit with
  | 46 :: r => (w, some (numberIn (r.takeWhile isDigit)), r.dropWhile isDigit)
  | r => (w, none, r)

/-- A formatted value; `errText` gives the texts of errors. -/
def fmtValue (errText : Nat → Str) (directive : Str) (v : Field F64) : Str :=
  match directiveParts directive, v with
  | (w, _, [100]), .int n => padLeft w (fmtInt n.toInt)
  | (w, prec, [102]), .float x => padLeft w (fmtFixed (prec.getD 6) x)
  | (w, prec, [102]), .bits b => padLeft w (fmtFixed (prec.getD 6) (.ofBits b))
  | (w, _, [118]), .errText e => padLeft w (errText e)
  | (w, _, [118]), .nil => padLeft w (bytes "<nil>")
  | (_, _, verb), _ => bytes "%!" ++ verb ++ bytes "(?)"

/-- The text of formatted output. -/
def render (errText : Nat → Str) : List (Piece (Field F64)) → Str
  | [] => []
  | .byte b :: l => b :: render errText l
  | .val d v :: l => fmtValue errText d v ++ render errText l
  | .missing d :: l => bytes "%!" ++ d ++ bytes "(MISSING)" ++ render errText l
  | .extra :: l => bytes "%!(EXTRA ?)" ++ render errText l
  | .noVerb :: l => bytes "%!(NOVERB)" ++ render errText l

-- Tests of the definitions.
example : fmtInt 0 = bytes "0" ∧ fmtInt (-9223372036854775808) = bytes "-9223372036854775808" ∧ fmtInt 1700000000 = bytes "1700000000" := by decide +kernel
example : fmtFixed 2 (.fin (1 / 8)) = bytes "0.12" ∧ fmtFixed 2 (.fin (-3 / 8)) = bytes "-0.38" ∧ fmtFixed 6 (.fin (1 / 3)) = bytes "0.333333" ∧ fmtFixed 0 (.fin (5 / 2)) = bytes "2" := by decide +kernel
example : fmtValue (fun _ => []) (bytes "12.2f") (.float (.fin 1234)) = bytes "     1234.00" ∧ fmtValue (fun _ => []) (bytes "9d") (.int (-5)) = bytes "       -5" := by decide +kernel
example : F64.ofBits 0x3FF8000000000000 = .fin (3 / 2) ∧ F64.ofBits 0xC000000000000000 = .fin (-2) ∧ F64.ofBits 0xFFF0000000000000 = .inf true := by decide +kernel

end GoMetrics
