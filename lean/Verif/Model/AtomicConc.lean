import Verif.Go.Conc
import Verif.Go.Machine
import Verif.Model.Counter
import Verif.Model.Gauge

/-!
Objects whose methods are one `sync/atomic` instruction each, used by any number of goroutines: `StandardCounter` (counter.go:84-112), `StandardGauge` (gauge.go:84-102),
`StandardGaugeFloat64` (gauge_float64.go:89-107). A call has three steps: it starts, the instruction is executed, it returns.
-/

namespace GoMetrics

variable {S Op R : Type}

inductive AtomL (Op R : Type) where
  | idle
  | run (o : Op)
  | done (o : Op) (r : R)

inductive AtomIn (Op : Type) where
  | call (o : Op)
  | step

/-- One step of goroutine `t`; `eff` is what the instruction does. -/
def atomStep (eff : S → Op → S × R) (t : Nat) : AtomIn Op → S → AtomL Op R → Option (S × AtomL Op R × List (CEv Op R))
  | .call o, s, .idle => some (s, .run o, [.inv t o])
  | .step, s, .run o => some ((eff s o).1, .done o (eff s o).2, [.lin t o (eff s o).2])
  | .step, s, .done o r => some (s, .idle, [.ret t o r])
  | _, _, _ => none

def atomMachine (eff : S → Op → S × R) : Machine S (AtomL Op R) (AtomIn Op) (CEv Op R) := ⟨atomStep eff⟩

/-- Results of atomic methods. -/
inductive AtomRes where
  | unit
  | int (n : Int64)
  | bits (b : FloatBits)
  deriving DecidableEq

/-- The methods of interface `Counter` (counter.go:6-12). -/
inductive CounterM where
  | clear
  | count
  | dec (i : Int64)
  | inc (i : Int64)
  | snapshot
  deriving DecidableEq

/-- counter.go:90-112; `Snapshot` is a load, the result of which is wrapped. -/
def counterDo (c : StandardCounter) : CounterM → StandardCounter × AtomRes
  | .clear => (c.clear, .unit)
  | .count => (c, .int c.count)
  | .dec i => (c.dec i, .unit)
  | .inc i => (c.inc i, .unit)
  | .snapshot => (c, .int c.count)

/-- The methods of `Gauge` (gauge.go:6-10), and of `GaugeFloat64` (gauge_float64.go:9-13) with `V` the bits of a float64. -/
inductive GaugeM (V : Type) where
  | update (v : V)
  | value
  | snapshot
  deriving DecidableEq

/-- gauge.go:90-102. -/
def gaugeDo (x : Int64) : GaugeM Int64 → Int64 × AtomRes
  | .update v => (v, .unit)
  | .value => (x, .int x)
  | .snapshot => (x, .int x)

/-- gauge_float64.go:95-107. -/
def gaugeFDo (x : FloatBits) : GaugeM FloatBits → FloatBits × AtomRes
  | .update v => (v, .unit)
  | .value => (x, .bits x)
  | .snapshot => (x, .bits x)

end GoMetrics
