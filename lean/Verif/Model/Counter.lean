import Verif.Go.Basic

/-! Model of /repo/counter.go. -/

namespace GoMetrics

/-- counter.go:85-87 `type StandardCounter struct { count int64 }`. -/
structure StandardCounter where
  count : Int64
  deriving DecidableEq

/-- The values of interface type `Counter` (counter.go:6-12) implemented in the package:
`*StandardCounter` (counter.go:85), `CounterSnapshot` (counter.go:42), `NilCounter` (counter.go:66). -/
inductive Counter where
  | std (c : StandardCounter)
  | snap (c : Int64)
  | nil
  deriving DecidableEq

namespace StandardCounter

/-- counter.go:90-92: `atomic.StoreInt64(&c.count, 0)`. -/
def clear (_c : StandardCounter) : StandardCounter := { count := 0 }

/-- counter.go:100-102: `atomic.AddInt64(&c.count, -i)` (unary minus on int64 wraps). -/
def dec (c : StandardCounter) (i : Int64) : StandardCounter := { count := c.count + (-i) }

/-- counter.go:105-107: `atomic.AddInt64(&c.count, i)`. -/
def inc (c : StandardCounter) (i : Int64) : StandardCounter := { count := c.count + i }

end StandardCounter

namespace Counter

/-- counter.go:24-29 `NewCounter`; the argument is the global `UseNilMetrics` (metrics.go:13). -/
def new (useNil : Bool) : Counter := if useNil then .nil else .std { count := 0 }

/-- `Clear`: counter.go:90-92 (std), 45-47 (snapshot panics), 69 (nil no-op). Returns the new state of the receiver. -/
def clear : Counter → Res Counter
  | .std c => .ok (.std c.clear)
  | .snap _ => .error (.msg "Clear called on a CounterSnapshot")
  | .nil => .ok .nil

/-- `Count`: counter.go:95-97, 50, 72. -/
def count : Counter → Int64
  | .std c => c.count
  | .snap c => c
  | .nil => 0

/-- `Dec`: counter.go:100-102, 53-55, 75. -/
def dec : Counter → Int64 → Res Counter
  | .std c, i => .ok (.std (c.dec i))
  | .snap _, _ => .error (.msg "Dec called on a CounterSnapshot")
  | .nil, _ => .ok .nil

/-- `Inc`: counter.go:105-107, 58-60, 78. -/
def inc : Counter → Int64 → Res Counter
  | .std c, i => .ok (.std (c.inc i))
  | .snap _, _ => .error (.msg "Inc called on a CounterSnapshot")
  | .nil, _ => .ok .nil

/-- `Snapshot`: counter.go:110-112, 63, 81. -/
def snapshot : Counter → Counter
  | .std c => .snap c.count
  | .snap c => .snap c
  | .nil => .nil

end Counter

/-- The mutating calls of the `Counter` interface. -/
inductive CounterOp where
  | clear
  | dec (i : Int64)
  | inc (i : Int64)
  deriving DecidableEq

/-- Dispatch of one mutating call. -/
def Counter.apply (c : Counter) : CounterOp → Res Counter
  | .clear => c.clear
  | .dec i => c.dec i
  | .inc i => c.inc i

/-- A history of calls made one after the other. -/
def Counter.run (c : Counter) (ops : List CounterOp) : Res Counter := ops.foldlM Counter.apply c

end GoMetrics
