import Verif.Model.Export

/-! Model of /repo/stathat/stathat.go `Stathat`: round after round, in a program that goes on using its metrics in between. -/

namespace GoMetrics

variable {F : Type} [GoFloat F] [GoSqrt F] [GoExp F]

/-- A round: what the program does before it (from the start, or while the loop sleeps), and what the round gets from the environment. -/
structure ShRound (F : Type) where
  before : List (Env F × Op F)
  env : Env F

/-- stathat.go:11-18 `Stathat`: `sh`, then `time.Sleep(d)`, again and again (`sh` returns no errors). A panic ends the program. The posts of all rounds are collected in order. -/
def stathatRun (key : Str) (g : Reg) : List (ShRound F) → World F → List (Event F) → (World F × List (Event F)) × Option Panic
  | [], w, out => ((w, out), none)
  | x :: xs, w, out =>
    match stathatOnce x.env key g (w.run x.before) with
    | ((w', new), .ok ()) => stathatRun key g xs w' (out ++ new)
    | ((w', new), .error p) => ((w', out ++ new), some p)

end GoMetrics
