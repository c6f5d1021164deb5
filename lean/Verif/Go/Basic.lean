/-
Go semantics used by the model: panics as values, bounds-checked slices, int64.

Nothing here models a file of /repo; this is the part of the Go language the model relies on
(Go spec: "Run-time panics", "Index expressions", "Integer overflow").
-/

namespace GoMetrics

/-- The run-time panics that occur in the modelled code. -/
inductive Panic where
  /-- `panic("...")` with a string argument -/
  | msg (s : String)
  /-- index out of range -/
  | index
  /-- slice bounds out of range -/
  | slice
  /-- `make([]T, 0, cap)` with a negative capacity -/
  | makeslice
  /-- failed type assertion `x.(T)` -/
  | typeAssert
  /-- integer division by zero -/
  | divZero
  /-- nil dereference / method call on a nil interface -/
  | nilDeref
  /-- `rand.Int63n(n)` with `n <= 0` -/
  | randArg
  /-- `panic(err)` with a `DuplicateMetric` error (name as bytes) -/
  | duplicate (name : List UInt8)
  /-- a panic raised by user code -/
  | user (n : Nat)
  deriving DecidableEq, Repr

/-- A Go computation that either returns or panics. -/
abbrev Res (α : Type) := Except Panic α

/-- A Go string: a sequence of bytes. -/
abbrev Str := List UInt8

/-- `a[i]` for a slice `a` and a Go `int` index: panics when out of range. -/
def index {α : Type} (a : List α) (i : Int) : Res α :=
  if 0 ≤ i then
    match a[i.toNat]? with
    | some x => .ok x
    | none => .error .index
  else .error .index

/-- Two's-complement wrap of an integer to int64, as an `Int`: the representative of `z` mod 2^64 in [-2^63, 2^63). -/
def wrap64 (z : Int) : Int := z.bmod (2 ^ 64)

/-- math.MinInt64 and math.MaxInt64. -/
def minInt64 : Int := -2 ^ 63
def maxInt64 : Int := 2 ^ 63 - 1

end GoMetrics
