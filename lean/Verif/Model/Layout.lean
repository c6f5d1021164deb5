import Verif.Model.Memory
/-
Where the fields of the library's structs lie in memory, and what sync/atomic
asks for.  On 32-bit platforms the compiler aligns 64-bit fields to 4 bytes only,
and 64-bit atomic operations on a word that is not 64-bit aligned panic; only the
first word of an allocated struct is sure to be 64-bit aligned (sync/atomic,
"Bugs").
-/
namespace GoMetrics.Mem

/-- Platforms: 386, arm, mips on the one hand, amd64, arm64, … on the other. -/
inductive Arch where
  | bits32 | bits64
  deriving DecidableEq

/-- Types of fields. -/
inductive FTy where
  | int64 | uint64 | float64 | uint32 | bool
  /-- `*T`, `map` -/
  | pointer
  | iface
  /-- `sync.Mutex`: two 32-bit words -/
  | mutex
  /-- `time.Time`: `wall uint64; ext int64; loc *Location` -/
  | time
  deriving DecidableEq

/-- Size of a pointer. -/
def Arch.word : Arch → Nat
  | .bits32 => 4
  | .bits64 => 8

/-- Size of a value. -/
def FTy.size (a : Arch) : FTy → Nat
  | .int64 | .uint64 | .float64 => 8
  | .uint32 => 4
  | .bool => 1
  | .pointer => a.word
  | .iface => 2 * a.word
  | .mutex => 8
  | .time => match a with
    | .bits32 => 20
    | .bits64 => 24

/-- Alignment of a field. -/
def FTy.align (a : Arch) : FTy → Nat
  | .int64 | .uint64 | .float64 | .pointer | .iface | .time => a.word
  | .uint32 | .mutex => 4
  | .bool => 1

/-- The next multiple of `n`. -/
def alignUp (k n : Nat) : Nat := (k + n - 1) / n * n

/-- Offset of a field: fields lie in the order of their declaration, each at the next
multiple of its alignment. -/
def offsetFrom (a : Arch) (start : Nat) : List (Fld × FTy) → Fld → Option Nat
  | [], _ => none
  | (g, ty) :: rest, x =>
    let o := alignUp start (ty.align a)
    if g = x then some o else offsetFrom a (o + ty.size a) rest x

/-- The structs with fields that are accessed atomically: counter.go:85-87,
gauge.go:85-87, gauge_float64.go:90-92, ewma.go:79-85 (the mutex of an EWMA has no name
in this model and comes last), meter.go:65-68, meter.go:128-133, and `sync.Once`. -/
def structOf : Kind → List (Fld × FTy)
  | .counter => [(.count, .int64)]
  | .gauge => [(.value, .int64)]
  | .gaugeFloat64 => [(.value, .uint64)]
  | .ewma => [(.uncounted, .int64), (.alpha, .float64), (.rate, .uint64), (.init, .uint32)]
  | .meterState | .meterSnapshot =>
    [(.count, .int64), (.rate1, .uint64), (.rate5, .uint64), (.rate15, .uint64), (.rateMean, .uint64)]
  | .meter => [(.snapshot, .pointer), (.a1, .iface), (.a5, .iface), (.a15, .iface), (.startTime, .time),
      (.stopped, .uint32)]
  | .once => [(.done, .uint32)]
  | _ => []

/-- Address of a field of an object at address `base`. -/
def addr (a : Arch) (base : Nat) (x : Loc) : Option Nat :=
  (offsetFrom a 0 (structOf x.obj.kind) x.fld).map (base + ·)

/-- Width in bytes of the function of sync/atomic used for a field. -/
def atomicWidth (x : Loc) : Option Nat :=
  ((structOf x.obj.kind).lookup x.fld).bind fun ty =>
    match ty with
    | .int64 | .uint64 => some 8 -- AddInt64, LoadInt64, StoreInt64, LoadUint64, StoreUint64
    | .uint32 => some 4 -- LoadUint32, StoreUint32, CompareAndSwapUint32
    | _ => none

end GoMetrics.Mem
