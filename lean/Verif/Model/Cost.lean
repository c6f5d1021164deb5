import Verif.Model.ExpDecay

/-!
`ExpDecaySample.Update` once more, counting the comparisons of priorities. The definitions follow /repo/sample.go:543-610 and 164-186 in the same way as `Model/Heap` and
`Model/ExpDecay`; every `<` between two priorities adds one to a counter. `C110_counted` shows that apart from the counter they compute the same.
-/

namespace GoMetrics

/-- A computation that may panic and that counts. -/
abbrev Counting (α : Type) := StateT Nat Res α

variable {F : Type} [GoFloat F]

/-- `a < b` for two priorities. -/
def lessC (a b : F) : Counting Bool := fun n => .ok (GoFloat.lt a b, n + 1)

/-- sample.go:583-592 `up`. -/
def heapUpC (s : List (Item F)) (j : Nat) : Counting (List (Item F)) :=
  let i := (j - 1) / 2
  if h : i = j then pure s
  else do
    let a ← index s j
    let b ← index s i
    if !(← lessC a.k b.k) then return s
    else
      let s ← swapItems s i j
      heapUpC s i
termination_by j
decreasing_by omega

/-- sample.go:594-610 `down`. -/
def heapDownC (s : List (Item F)) (i n : Nat) : Counting (List (Item F)) :=
  if h : 2 * i + 1 ≥ n then pure s
  else do
    let a1 ← index s (2 * i + 1 : Nat)
    let j : {j : Nat // i < j ∧ j < n} ← (if h2 : 2 * i + 2 < n then do
        let a2 ← index s (2 * i + 2 : Nat)
        return (if !(← lessC a1.k a2.k) then ⟨2 * i + 2, by omega⟩ else ⟨2 * i + 1, by omega⟩)
      else return ⟨2 * i + 1, by omega⟩)
    let b ← index s j.1
    let a ← index s i
    if !(← lessC b.k a.k) then return s
    else
      let s ← swapItems s i j.1
      heapDownC s j.1 n
termination_by n - i
decreasing_by
  have := j.2
  omega

/-- sample.go:557-562 `Push`. -/
def Heap.pushC (h : Heap F) (x : Item F) : Counting (Heap F) :=
  match h.rest with
  | [] => throw .slice
  | _ :: rest => do
    let s ← heapUpC (h.s ++ [x]) h.s.length
    return { s := s, rest := rest }

/-- sample.go:564-573 `Pop`. -/
def Heap.popC (h : Heap F) : Counting (Item F × Heap F) :=
  match h.s.length with
  | 0 => throw .index
  | n + 1 => do
    let s ← swapItems h.s 0 n
    let s ← heapDownC s 0 n
    let x ← index s n
    return (x, { s := s.take n, rest := s.drop n ++ h.rest })

variable [GoExp F]

namespace ExpDecaySample

/-- sample.go:181-184. -/
def rescaleLoopC (f : F) (n i : Nat) (h : Heap F) : Counting (Heap F) :=
  if i < n then do
    let x ← index (h.s ++ h.rest) i
    let h ← h.pushC { k := GoFloat.mul x.k f, v := x.v }
    rescaleLoopC f n (i + 1) h
  else pure h
termination_by n - i

/-- sample.go:164-186 `update`. -/
def updateC (s : ExpDecaySample F) (t : Instant) (v : Int64) (u : F) : Counting (ExpDecaySample F) := do
  let s := { s with count := s.count + 1 }
  let h ← (if (s.values.size : Int) = s.reservoirSize then do
      let (_, h) ← s.values.popC
      return h
    else return s.values)
  let h ← h.pushC { k := key s.alpha s.t0 t u, v := v }
  if t > s.t1 then
    let n := h.s.length
    let h ← rescaleLoopC (factor s.alpha s.t0 t) n 0 h.clear
    return { s with t0 := t, t1 := t + hour, values := h }
  else return { s with values := h }

/-- `Update` and `Clear` (sample.go:63-70, which compares nothing). -/
def applyC (s : ExpDecaySample F) : ExpOp F → Counting (ExpDecaySample F)
  | .update t v u => s.updateC t v u
  | .clear now => pure (s.clear now)

def runC (s : ExpDecaySample F) (ops : List (ExpOp F)) : Counting (ExpDecaySample F) := ops.foldlM applyC s

end ExpDecaySample
end GoMetrics
