import Verif.Go.Digits
import Verif.Go.Utf8
import Verif.Model.Json

/-!
How `encoding/json` writes strings and numbers (Go packages encoding/json and strconv, trusted): the parameter of Model/Json, made explicit.

Simplifications: a negative zero is written without its sign (the float model has one zero).
-/

namespace GoMetrics

/-- A digit of `const hex = "0123456789abcdef"` (encode.go). -/
def hexDigit (n : Nat) : UInt8 := if n < 10 then 48 + UInt8.ofNat n else 87 + UInt8.ofNat n

/-- `htmlSafeSet` (tables.go) for bytes below 0x80: printable, and none of `"`, `\`, `<`, `>`, `&`. -/
def htmlSafe (b : UInt8) : Bool := 32 ≤ b && b != 34 && b != 92 && b != 60 && b != 62 && b != 38

/-- The `switch` in `appendString` (encode.go). `\b` and `\f` have short forms since Go 1.22 (`short`). -/
def escapeByte (short : Bool) (b : UInt8) : Str :=
  if b = 92 ∨ b = 34 then [92, b]
  else if short ∧ b = 8 then [92, 98]
  else if short ∧ b = 12 then [92, 102]
  else if b = 10 then [92, 110]
  else if b = 13 then [92, 114]
  else if b = 9 then [92, 116]
  else [92, 117, 48, 48, hexDigit (b.toNat / 16), hexDigit (b.toNat % 16)]

/-- The loop in `appendString` (encode.go) with `escapeHTML`. The number bounds the steps. -/
def quoteBody (short : Bool) : Nat → Str → Str
  | 0, _ => []
  | _, [] => []
  | n + 1, b :: t =>
    if b < 0x80 then (if htmlSafe b then [b] else escapeByte short b) ++ quoteBody short n t
    else
      let (c, size) := decodeRune (b :: t)
      if c = 0xFFFD ∧ size = 1 then bytes "\\ufffd" ++ quoteBody short n t
      else if c = 0x2028 ∨ c = 0x2029 then bytes "\\u202" ++ hexDigit (c % 16) :: quoteBody short n ((b :: t).drop size)
      else (b :: t).take size ++ quoteBody short n ((b :: t).drop size)

/-- `appendString`. -/
def jsonQuote (short : Bool) (s : Str) : Str := 34 :: (quoteBody short s.length s ++ [34])

/-- The shortest decimal digits for a positive float64: `strconv` with precision -1 gives an integer and a power of ten, whose product is read as the same float64. (That no shorter digits
would do is not used.) -/
structure Shortest where
  digits : ℚ → Nat × Int
  pos : ∀ q, 0 < q → 0 < (digits q).1
  reads : ∀ q, 0 < q → F64.round ((digits q).1 * (10 : ℚ) ^ (digits q).2) = F64.round q

/-- `%f` of `m` times 10 to the `e` with all its digits (strconv/ftoa.go `fmtF`). -/
def fixedForm (m : Nat) (e : Int) : Str :=
  if 0 ≤ e then decDigits m ++ List.replicate e.toNat 48
  else decDigits (m / 10 ^ (-e).toNat) ++ 46 :: fracDigits (-e).toNat m

/-- `%e` (strconv/ftoa.go `fmtE`): one digit before the point; the exponent has a sign and, with `two`, at least two digits. -/
def expForm (two : Bool) (m : Nat) (e : Int) : Str :=
  let ds := decDigits m
  let x : Int := ds.length - 1 + e
  ds.take 1 ++ (if ds.length = 1 then [] else 46 :: ds.drop 1) ++ 101 :: (if x < 0 then 45 else 43) :: (if two ∧ x.natAbs < 10 then [48] else []) ++ decDigits x.natAbs

/-- `floatEncoder` (encode.go): `%e` for very small and large numbers, where a negative exponent has no leading zero, else `%f`. -/
def jsonAbs (sh : Shortest) (q : ℚ) : Str :=
  if q = 0 then [48]
  else
    let (m, e) := sh.digits q
    if GoFloat.lt (F64.fin q) (GoFloat.lit (1 / 1000000)) || GoFloat.le (GoFloat.lit 1000000000000000000000) (F64.fin q) then expForm (decide (0 ≤ ((decDigits m).length : Int) - 1 + e)) m e
    else fixedForm m e
def jsonFloat (sh : Shortest) : F64 → Str
  | .fin q => if q < 0 then 45 :: jsonAbs sh (-q) else jsonAbs sh q
  | _ => []

/-- The parameter of Model/Json. -/
def goJson (sh : Shortest) (short : Bool) (errText : Nat → Str) : JsonText F64 where
  int n := fmtInt n.toInt
  float := jsonFloat sh
  bits b := jsonFloat sh (.ofBits b)
  quote := jsonQuote short
  errText := errText

-- Tests of the definitions.
example : jsonQuote true (bytes "a\"<\n\x01é ") = bytes "\"a\\\"\\u003c\\n\\u0001é\\u2028\"" ∧ jsonQuote false [97, 0xFF, 12] = bytes "\"a\\ufffd\\u000c\"" := by decide +kernel
example : fixedForm 125 (-2) = bytes "1.25" ∧ fixedForm 12 3 = bytes "12000" ∧ fixedForm 5 (-4) = bytes "0.0005" ∧ expForm true 15 20 = bytes "1.5e+21" ∧ expForm false 1 (-7) = bytes "1e-7" ∧
    expForm true 1 (-7) = bytes "1e-07" := by decide +kernel

end GoMetrics
