import Verif.Model.Export
import Verif.Go.Duration

/-! The texts that tell the user which unit the durations of timers are in: log.go and librato/librato.go. -/

namespace GoMetrics

variable {F : Type} [GoFloat F] [GoSqrt F] [GoExp F]

/-- log.go:40 `duSuffix := scale.String()[1:]`; `none` = the slice expression panics. -/
def logSuffix (scale : Int64) : Option Str :=
  let s := durString scale
  if 1 ≤ s.length then some (s.drop 1) else none

/-- One cue of `LogScaledOnCue` (log.go:38-100) with the text of the scale. -/
def logScaled (env : Env F) (g : Reg) (scale : Int64) (w : World F) := logScaledOnce env g scale (durString scale) w

/-- librato.go:14, 20 `unitRegexp.Find`, with the expression `[^\d]+$`: the longest suffix without digits (nothing, if the last byte is a digit). -/
def unitSuffix (s : Str) : Str := (s.reverse.takeWhile fun b => !isDigit b).reverse

/-- The attributes of timers in Librato. -/
structure TimerAttributes where
  /-- `display_transform` -/
  displayTransform : Str
  /-- `display_units_short` -/
  displayUnitsShort : Str
  deriving DecidableEq

/-- librato.go:17-22 `translateTimerAttributes`. -/
def translateTimerAttributes (d : Int64) : TimerAttributes :=
  { displayTransform := bytes "x/" ++ fmtInt d.toInt, displayUnitsShort := unitSuffix (durString d) }

end GoMetrics
