import Verif.Go.Digits

/-!
How Go prints a `time.Duration` (Go package time, time.go `Duration.String`, `fmtFrac`, `fmtInt`; trusted). The text is built from its end, `acc` is what was written already.
-/

namespace GoMetrics

/-- `fmtFrac`: writes the last `prec` decimal digits of `v` as a fraction, without zeros at its end, and without the point if nothing is left; gives the text and the digits of `v` not used. -/
def fmtFrac : Nat → Nat → Bool → Str → Str × Nat
  | 0, v, print, acc => (if print then 46 :: acc else acc, v)
  | prec + 1, v, print, acc =>
    let print := print || v % 10 != 0
    fmtFrac prec (v / 10) print (if print then digit (v % 10) :: acc else acc)

/-- The text of a positive duration of less than a second: a number and `ns`, `µs` or `ms`. -/
def subSecond (u : Nat) : Str :=
  let (prec, unit) := if u < 1000 then (0, bytes "ns") else if u < 1000000 then (3, bytes "µs") else (6, bytes "ms")
  let (t, v) := fmtFrac prec u false unit
  decDigits v ++ t

/-- The text of a duration of a second or more: hours, minutes and seconds. -/
def hoursMinutesSeconds (u : Nat) : Str :=
  let (t, s) := fmtFrac 9 u false (bytes "s")
  let t := decDigits (s % 60) ++ t
  let m := s / 60
  if m > 0 then
    let t := decDigits (m % 60) ++ bytes "m" ++ t
    let h := m / 60
    if h > 0 then decDigits h ++ bytes "h" ++ t else t
  else t

/-- The text of a duration without its sign. -/
def durAbs (u : Nat) : Str :=
  if u = 0 then bytes "0s" else if u < 1000000000 then subSecond u else hoursMinutesSeconds u

/-- `Duration.String`. -/
def durString (d : Int64) : Str := if d < 0 then 45 :: durAbs d.toInt.natAbs else durAbs d.toInt.natAbs

-- Tests of the definition.
example : durString 0 = bytes "0s" ∧ durString 1 = bytes "1ns" ∧ durString 1100 = bytes "1.1µs" ∧ durString 2200000 = bytes "2.2ms" ∧ durString 3300000000 = bytes "3.3s" ∧
    durString 245000000000 = bytes "4m5s" ∧ durString 245001000000 = bytes "4m5.001s" ∧ durString 18367001000000 = bytes "5h6m7.001s" ∧
    durString 480000000001 = bytes "8m0.000000001s" ∧ durString Int64.maxValue = bytes "2562047h47m16.854775807s" ∧
    durString Int64.minValue = bytes "-2562047h47m16.854775808s" := by decide +kernel

end GoMetrics
