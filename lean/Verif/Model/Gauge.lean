import Verif.Go.Basic

/-! Model of /repo/gauge.go and /repo/gauge_float64.go. -/

namespace GoMetrics

/-- The values of interface type `Gauge` (gauge.go:6-10): `*StandardGauge` (gauge.go:85-87), `GaugeSnapshot` (gauge.go:58),
`NilGauge` (gauge.go:72), `*FunctionalGauge` (gauge.go:105-107; the user function is identified by a number, its
results come from the environment). -/
inductive Gauge where
  | std (v : Int64)
  | snap (v : Int64)
  | nil
  | func (f : Nat)
  deriving DecidableEq

namespace Gauge

/-- gauge.go:22-27 `NewGauge`. -/
def new (useNil : Bool) : Gauge := if useNil then .nil else .std 0

/-- gauge.go:40-45 `NewFunctionalGauge`. -/
def newFunctional (useNil : Bool) (f : Nat) : Gauge := if useNil then .nil else .func f

/-- `Value`: gauge.go:100-102 (atomic load), 69, 81, 110-112 (calls the function; `env f` is what it returns now). -/
def value (env : Nat → Int64) : Gauge → Int64
  | .std v => v
  | .snap v => v
  | .nil => 0
  | .func f => env f

/-- `Update`: gauge.go:95-97 (atomic store), 64-66 (panic), 78, 118-120 (panic). -/
def update : Gauge → Int64 → Res Gauge
  | .std _, v => .ok (.std v)
  | .snap _, _ => .error (.msg "Update called on a GaugeSnapshot")
  | .nil, _ => .ok .nil
  | .func _, _ => .error (.msg "Update called on a FunctionalGauge")

/-- `Snapshot`: gauge.go:90-92, 61, 75, 115. -/
def snapshot (env : Nat → Int64) : Gauge → Gauge
  | .std v => .snap v
  | .snap v => .snap v
  | .nil => .nil
  | .func f => .snap (env f)

end Gauge

/-- A float64 given by its IEEE bit pattern: gauges only move bits around
(`math.Float64bits`/`math.Float64frombits` are the identity on bit patterns). -/
abbrev FloatBits := UInt64

/-- The values of interface type `GaugeFloat64` (gauge_float64.go:9-13): `*StandardGaugeFloat64` (90-92; stores the
bits in a uint64), `GaugeFloat64Snapshot` (63), `NilGaugeFloat64` (77), `*FunctionalGaugeFloat64` (110-112). -/
inductive GaugeF where
  | std (bits : FloatBits)
  | snap (v : FloatBits)
  | nil
  | func (f : Nat)
  deriving DecidableEq

namespace GaugeF

/-- gauge_float64.go:25-32 `NewGaugeFloat64`. -/
def new (useNil : Bool) : GaugeF := if useNil then .nil else .std 0

/-- gauge_float64.go:45-50 `NewFunctionalGaugeFloat64`. -/
def newFunctional (useNil : Bool) (f : Nat) : GaugeF := if useNil then .nil else .func f

/-- `Value`: gauge_float64.go:105-107, 74, 86, 115-117. -/
def value (env : Nat → FloatBits) : GaugeF → FloatBits
  | .std b => b
  | .snap v => v
  | .nil => 0
  | .func f => env f

/-- `Update`: gauge_float64.go:100-102, 69-71 (panic), 83, 123-125 (panic). -/
def update : GaugeF → FloatBits → Res GaugeF
  | .std _, v => .ok (.std v)
  | .snap _, _ => .error (.msg "Update called on a GaugeFloat64Snapshot")
  | .nil, _ => .ok .nil
  | .func _, _ => .error (.msg "Update called on a FunctionalGaugeFloat64")

/-- `Snapshot`: gauge_float64.go:95-97, 66, 80, 120. -/
def snapshot (env : Nat → FloatBits) : GaugeF → GaugeF
  | .std b => .snap b
  | .snap v => .snap v
  | .nil => .nil
  | .func f => .snap (env f)

end GaugeF
end GoMetrics
