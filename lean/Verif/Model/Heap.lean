import Verif.Go.Basic
import Verif.Go.Float

/-! Model of `expDecaySampleHeap`, /repo/sample.go:537-610. -/

namespace GoMetrics

/-- sample.go:538-541 `expDecaySample`. -/
structure Item (F : Type) where
  k : F
  v : Int64
  deriving DecidableEq

/-- sample.go:549-551. The slice `h.s` and the memory behind it: `s` is the content of the slice, `rest` is the part of the backing
array after it. The capacity is `s.length + rest.length`. -/
structure Heap (F : Type) where
  s : List (Item F)
  rest : List (Item F)
  deriving DecidableEq

/-- `h.s[i], h.s[j] = h.s[j], h.s[i]` with bounds checks. -/
def swapItems {F : Type} (s : List (Item F)) (i j : Nat) : Res (List (Item F)) := do
  let a ← index s i
  let b ← index s j
  return (s.set i b).set j a

variable {F : Type} [GoFloat F]

/-- sample.go:583-592 `up`: `i == j` can only hold for j = 0, where Go's `(0-1)/2` is 0. -/
def heapUp (s : List (Item F)) (j : Nat) : Res (List (Item F)) :=
  let i := (j - 1) / 2
  if h : i = j then .ok s
  else do
    let a ← index s j
    let b ← index s i
    if !(GoFloat.lt a.k b.k) then return s
    else
      let s ← swapItems s i j
      heapUp s i
termination_by j
decreasing_by omega

/-- sample.go:594-610 `down`. The `j1 < 0` test guards against int overflow, which needs more than 2^62 elements (not modelled). -/
def heapDown (s : List (Item F)) (i n : Nat) : Res (List (Item F)) :=
  if h : 2 * i + 1 ≥ n then .ok s
  else do
    let a1 ← index s (2 * i + 1 : Nat)
    let j : {j : Nat // i < j ∧ j < n} ← (if h2 : 2 * i + 2 < n then do
        let a2 ← index s (2 * i + 2 : Nat)
        return (if !(GoFloat.lt a1.k a2.k) then ⟨2 * i + 2, by omega⟩ else ⟨2 * i + 1, by omega⟩)
      else return ⟨2 * i + 1, by omega⟩)
    let b ← index s j.1
    let a ← index s i
    if !(GoFloat.lt b.k a.k) then return s
    else
      let s ← swapItems s i j.1
      heapDown s j.1 n
termination_by n - i
decreasing_by
  have := j.2
  omega

namespace Heap

/-- sample.go:543-545: `make([]expDecaySample, 0, reservoirSize)`: zeroed memory, length 0. -/
def new (reservoirSize : Int) : Res (Heap F) :=
  if reservoirSize < 0 then .error .makeslice
  else .ok { s := [], rest := List.replicate reservoirSize.toNat { k := GoFloat.lit 0, v := 0 } }

/-- sample.go:553-555: `h.s = h.s[:0]` keeps the memory. -/
def clear (h : Heap F) : Heap F := { s := [], rest := h.s ++ h.rest }

/-- sample.go:557-562 `Push`: reslicing beyond the capacity panics. -/
def push (h : Heap F) (x : Item F) : Res (Heap F) :=
  match h.rest with
  | [] => .error .slice
  | _ :: rest => do
    let n := h.s.length
    let s ← heapUp (h.s ++ [x]) n
    return { s := s, rest := rest }

/-- sample.go:564-573 `Pop` (the popped item stays in memory behind the slice). -/
def pop (h : Heap F) : Res (Item F × Heap F) :=
  match h.s.length with
  | 0 => .error .index
  | n + 1 => do
    let s ← swapItems h.s 0 n
    let s ← heapDown s 0 n
    let x ← index s n
    return (x, { s := s.take n, rest := s.drop n ++ h.rest })

/-- sample.go:575-577. -/
def size (h : Heap F) : Nat := h.s.length

end Heap
end GoMetrics
