import Verif.Spec.World

/-! Which values a program has recorded in a sample (C126): a book kept beside the program, from its calls alone. -/

namespace GoMetrics.Spec
open GoMetrics

variable {F : Type}

/-- The sample in which `x` records: `x` itself if it is a sample, the sample of a histogram, the sample of the histogram of a timer. -/
def recordsIn (w : World F) (x : Ref) : Option Ref :=
  match w.objs x with
  | some (.sample _) => some x
  | some (.hist (.std s)) => some s
  | some (.timer (.std h _)) =>
    match w.objs h with
    | some (.hist (.std s)) => some s
    | _ => none
  | _ => none

/-- What is to be recorded by a call of a method of `x`, if `g` is recorded so far. -/
def entry (env : Env F) (x : Option (Obj F)) (c : Call F) (g : List Int64) : List Int64 :=
  match x, c with
  | some (.sample _), .update v | some (.hist _), .update v => g ++ [v]
  | some (.sample _), .clear | some (.hist _), .clear => []
  | some (.timer _), .updateD d => g ++ [d]
  | some (.timer _), .updateSince ts => g ++ [Int64.ofInt (timeSub env.now ts)]
  | _, _ => g

/-- What is recorded in the sample `s` after the operation, if it was `g` before. -/
def bookAfter (w : World F) (s : Ref) (g : List Int64) (env : Env F) : Op F → List Int64
  | .call x c => if recordsIn w x = some s then entry env (w.objs x) c g else g
  | _ => g

/-- What is recorded in the sample `s` after the history, oldest first, if it was `g` before. -/
def book [GoFloat F] [GoSqrt F] [GoExp F] (w : World F) (s : Ref) (g : List Int64) : List (Env F × Op F) → List Int64
  | [] => g
  | (env, o) :: h => book (step env o w).1 s (bookAfter w s g env o) h

/-- The operation calls the constructor: directly, or as the argument of `GetOrRegister`. -/
def constructs (o : Op F) (c : NewOp F) : Prop := o = .new c ∨ ∃ g name, o = .reg g (.getOrRegister name (.ctor c))

/-- The reservoir size of the sample made by a constructor (timer.go:73: 1028 for `NewTimer`). -/
def reservoir : NewOp F → Option Int
  | .uniform k | .exp k _ => some k
  | .timer => some 1028
  | _ => none

/-- In the state `w` the operation makes the sample `s`, of reservoir size `k` > 0 (and not a `NilSample`). -/
structure Makes [GoFloat F] [GoSqrt F] [GoExp F] (w : World F) (env : Env F) (o : Op F) (s : Ref) (k : Nat) : Prop where
  pos : 0 < k
  ctor : ∃ c, constructs o c ∧ reservoir c = some (k : Int)
  before : w.objs s = none
  after : ∃ y, (step env o w).1.objs s = some (.sample y) ∧ y ≠ .nil

end GoMetrics.Spec
