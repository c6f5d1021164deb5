import Verif.Go.Basic
import Verif.Go.Float

/-! `time.Time` and `time.Duration` as used by the code: instants and durations are numbers of nanoseconds. -/

namespace GoMetrics

/-- An instant (nanoseconds since some fixed origin). Simplification: the separate wall and monotonic readings of
`time.Time` are one number; the environment may let it go backwards. -/
notation "Instant" => Int

/-- `time.Hour`, `time.Second`. -/
def hour : Int := 3600 * 10 ^ 9
def second : Int := 10 ^ 9

/-- `t.Sub(u)`: saturates at the int64 range (package time, `Time.Sub`). -/
def timeSub (t u : Instant) : Int := max minInt64 (min maxInt64 (t - u))

/-- `d.Seconds()` (package time: `sec := d / Second; nsec := d % Second; return float64(sec) + float64(nsec)/1e9`). -/
def seconds {F : Type} [GoFloat F] (d : Int) : F :=
  GoFloat.add (GoFloat.ofInt (d.tdiv second)) (GoFloat.div (GoFloat.ofInt (d.tmod second)) (GoFloat.lit (10 ^ 9)))

end GoMetrics
