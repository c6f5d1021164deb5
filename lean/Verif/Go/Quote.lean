import Verif.Go.Json

/-!
How `%q` writes strings and `'g'` writes floats (Go packages fmt and strconv, trusted).

Simplification: a negative zero is written without its sign (the float model has one zero).
-/

namespace GoMetrics

/-- `strconv.IsPrint`; only what it says about ASCII is used. -/
structure Printer where
  isPrint : Nat → Bool
  ascii : ∀ c < 128, isPrint c = (decide (32 ≤ c) && decide (c < 127))

/-- The escapes in `appendEscapedRune` (strconv/quote.go) for a rune that is not printable. The default is `\U` and eight digits. -/
def goEscape (c : Nat) : Str :=
  if c = 7 then bytes "\\a"
  else if c = 8 then bytes "\\b"
  else if c = 12 then bytes "\\f"
  else if c = 10 then bytes "\\n"
  else if c = 13 then bytes "\\r"
  else if c = 9 then bytes "\\t"
  else if c = 11 then bytes "\\v"
  else if c < 32 ∨ c = 127 then bytes "\\x" ++ [hexDigit (c / 16 % 16), hexDigit (c % 16)]
  else if c < 0x10000 then bytes "\\u" ++ [hexDigit (c / 4096 % 16), hexDigit (c / 256 % 16), hexDigit (c / 16 % 16), hexDigit (c % 16)]
  else bytes "\\U" ++ [48, 48, hexDigit (c / 1048576 % 16), hexDigit (c / 65536 % 16), hexDigit (c / 4096 % 16), hexDigit (c / 256 % 16), hexDigit (c / 16 % 16), hexDigit (c % 16)]

/-- The loop of `appendQuotedWith` (strconv/quote.go); `utf8.AppendRune` of a rune gives the bytes from which it was decoded. The number bounds the steps. -/
def goQuoteBody (p : Printer) : Nat → Str → Str
  | 0, _ => []
  | _, [] => []
  | n + 1, b :: t =>
    let (c, size) := if b < 0x80 then (b.toNat, 1) else decodeRune (b :: t)
    if c = 0xFFFD ∧ size = 1 then bytes "\\x" ++ [hexDigit (b.toNat / 16), hexDigit (b.toNat % 16)] ++ goQuoteBody p n t
    else (if c = 34 ∨ c = 92 then [92, b] else if p.isPrint c then (b :: t).take size else goEscape c) ++ goQuoteBody p n ((b :: t).drop size)

/-- `%q`. -/
def goQuote (p : Printer) (s : Str) : Str := 34 :: (goQuoteBody p s.length s ++ [34])

/-- `strconv.FormatFloat(x, 'g', -1, 64)` (strconv/ftoa.go): `%e` if the exponent is less than -4 or at least 6, else `%f`. -/
def gAbs (sh : Shortest) (q : ℚ) : Str :=
  if q = 0 then [48]
  else
    let (m, e) := sh.digits q
    let x : Int := (decDigits m).length - 1 + e
    if x < -4 ∨ 6 ≤ x then expForm true m e else fixedForm m e
def gFloat (sh : Shortest) : F64 → Str
  | .nan => bytes "NaN"
  | .inf false => bytes "+Inf"
  | .inf true => bytes "-Inf"
  | .fin q => if q < 0 then 45 :: gAbs sh (-q) else gAbs sh q

-- Tests of the definitions.
private def asciiOnly : Printer := { isPrint := fun c => decide (32 ≤ c) && decide (c < 127), ascii := fun _ _ => rfl }
example : goQuote asciiOnly (bytes "a\"\n\x01é😀") = bytes "\"a\\\"\\n\\x01\\u00e9\\U0001f600\"" ∧ goQuote asciiOnly [7, 0xFF] = bytes "\"\\a\\xff\"" := by decide +kernel

end GoMetrics
