import Verif.Spec.Recorded
import Verif.Spec.Registry

/-! What a program has counted and set (C127): books kept beside the program, from its calls alone. -/

namespace GoMetrics.Spec
open GoMetrics

variable {F : Type}

/-- The balance of the counter `r` after the operation, if it was `n` before. -/
def tallyAfter (r : Ref) (n : Int) : Op F → Int
  | .call x (.inc i) => if x = r then n + i.toInt else n
  | .call x (.dec i) => if x = r then n - i.toInt else n
  | .call x .clear => if x = r then 0 else n
  | _ => n

/-- The balance of the counter `r` after the operations. -/
def tally (r : Ref) (l : List (Env F × Op F)) : Int := l.foldl (fun n e => tallyAfter r n e.2) 0

/-- What the gauge `r` was set to last, if it was `v` before the operation. -/
def setAfter (r : Ref) (v : Int64) : Op F → Int64
  | .call x (.update u) => if x = r then u else v
  | _ => v

/-- What the gauge `r` was set to last (0: never). -/
def lastSet (r : Ref) (l : List (Env F × Op F)) : Int64 := l.foldl (fun v e => setAfter r v e.2) 0

/-- What the float gauge `r` was set to last, as bits, if it was `v` before the operation. -/
def bitsAfter (r : Ref) (v : FloatBits) : Op F → FloatBits
  | .call x (.updateF u) => if x = r then u else v
  | _ => v

/-- What the float gauge `r` was set to last, as bits (0: never). -/
def lastBits (r : Ref) (l : List (Env F × Op F)) : FloatBits := l.foldl (fun v e => bitsAfter r v e.2) 0

/-- The timer `x` is one with the meter `m`. -/
def timesWith (w : World F) (x m : Ref) : Bool :=
  match w.objs x with
  | some (.timer (.std _ m')) => m' = m
  | _ => false

/-- How many events the operation marks with the meter `m`: `Mark(n)` marks `n`, a timer that has the meter marks one event for every duration (unless the call panics). -/
def marked [GoFloat F] [GoSqrt F] [GoExp F] (w : World F) (m : Ref) (env : Env F) (o : Op F) : Int :=
  match o with
  | .call x (.mark n) => if x = m then n.toInt else 0
  | .call x (.updateD _) | .call x (.updateSince _) => if timesWith w x m && (step env o w).2.isOk then 1 else 0
  | _ => 0

/-- The number of events marked with the meter `m`. -/
def marks [GoFloat F] [GoSqrt F] [GoExp F] (w : World F) (m : Ref) : List (Env F × Op F) → Int
  | [] => 0
  | (env, o) :: l => marked w m env o + marks (step env o w).1 m l

/-- None of the operations stops the meter `m`. -/
def unstopped [GoFloat F] [GoSqrt F] [GoExp F] (w : World F) (m : Ref) : List (Env F × Op F) → Prop
  | [] => True
  | (env, o) :: l => ¬ stops w o m ∧ unstopped (step env o w).1 m l

/-- In the state `w` the operation makes the object `r` with the constructor `c`, and it is not a stub. -/
structure Creates [GoFloat F] [GoSqrt F] [GoExp F] (w : World F) (env : Env F) (o : Op F) (c : NewOp F) (r : Ref) : Prop where
  ctor : constructs o c
  before : w.objs r = none
  after : ∃ y, (step env o w).1.objs r = some y ∧ isStub y = false

/-- What a report is to show of the values `g`: their number, and the statistics of all of them (`StdDev`: computed from the values in order). -/
def ledgerShows [GoFloat F] [GoSqrt F] (g : List Int64) : Call F → GoMetrics.Field F → Prop
  | .count, v => v = .int (Int64.ofNat g.length)
  | .stat .stdDev, v => v = .float (sampleStdDev (sortInts g))
  | .stat c, v => shows (statOf g c) v
  | _, _ => True

end GoMetrics.Spec
