import Verif.Model.Heap
import Verif.Model.Stats
import Verif.Go.Time

/-! Model of `ExpDecaySample`, /repo/sample.go:32-186. -/

namespace GoMetrics

/-- sample.go:37-44 (without the mutex, held by every method for its whole body). -/
structure ExpDecaySample (F : Type) where
  alpha : F
  count : Int64
  reservoirSize : Int
  t0 : Instant
  t1 : Instant
  values : Heap F
  deriving DecidableEq

variable {F : Type} [GoFloat F] [GoExp F]

namespace ExpDecaySample

/-- sample.go:48-60 `NewExpDecaySample` (not UseNilMetrics); `now` is `time.Now()`. -/
def new (reservoirSize : Int) (alpha : F) (now : Instant) : Res (ExpDecaySample F) := do
  let h ← Heap.new reservoirSize
  return { alpha, count := 0, reservoirSize, t0 := now, t1 := now + hour, values := h }

/-- sample.go:63-70 `Clear`. -/
def clear (s : ExpDecaySample F) (now : Instant) : ExpDecaySample F :=
  { s with count := 0, t0 := now, t1 := now + hour, values := s.values.clear }

/-- sample.go:172: the priority of an update at time `t` with random draw `u`. -/
def key (alpha : F) (t0 t : Instant) (u : F) : F :=
  GoFloat.div (GoExp.exp (GoFloat.mul (seconds (timeSub t t0)) alpha)) u

/-- sample.go:182: the factor by which a rescale multiplies the priorities. -/
def factor (alpha : F) (t0 t : Instant) : F :=
  GoExp.exp (GoFloat.mul (GoFloat.neg alpha) (seconds (timeSub t t0)))

/-- sample.go:181-184: the rescale loop from index `i` on. `values` is the old slice of length `n`; it shares its memory with the
heap, so each element is read from the memory as it is at that moment. -/
def rescaleLoop (f : F) (n i : Nat) (h : Heap F) : Res (Heap F) :=
  if i < n then do
    let x ← index (h.s ++ h.rest) i
    let h ← h.push { k := GoFloat.mul x.k f, v := x.v }
    rescaleLoop f n (i + 1) h
  else .ok h
termination_by n - i

/-- sample.go:164-186 `update`. -/
def update (s : ExpDecaySample F) (t : Instant) (v : Int64) (u : F) : Res (ExpDecaySample F) := do
  let s := { s with count := s.count + 1 }
  let h ← (if (s.values.size : Int) = s.reservoirSize then do
      let (_, h) ← s.values.pop
      return h
    else return s.values)
  let h ← h.push { k := key s.alpha s.t0 t u, v := v }
  if t > s.t1 then
    let n := h.s.length
    let h ← rescaleLoop (factor s.alpha s.t0 t) n 0 h.clear
    return { s with t0 := t, t1 := t + hour, values := h }
  else return { s with values := h }

/-- sample.go:146-155 `Values` (a fresh slice). -/
def vals (s : ExpDecaySample F) : List Int64 := s.values.s.map Item.v

/-- sample.go:109-113 `Size`. -/
def size (s : ExpDecaySample F) : Nat := s.values.size

end ExpDecaySample

/-- The calls that change an exponentially decaying sample; `u` is the outcome of `rand.Float64()`. -/
inductive ExpOp (F : Type) where
  | update (t : Instant) (v : Int64) (u : F)
  | clear (now : Instant)

def ExpDecaySample.apply (s : ExpDecaySample F) : ExpOp F → Res (ExpDecaySample F)
  | .update t v u => s.update t v u
  | .clear now => .ok (s.clear now)

def ExpDecaySample.run (s : ExpDecaySample F) (ops : List (ExpOp F)) : Res (ExpDecaySample F) := ops.foldlM ExpDecaySample.apply s

end GoMetrics
