import Verif.Model.Librato
import Verif.Model.Json

/-!
Model of /repo/librato/client.go `PostMetrics` and of a round of /repo/librato/librato.go `Run`.

`net/http` is an input: what the server answers. `json.Marshal` of a `Batch` fails if and only if one of its numbers is NaN or infinite; the text is a parameter here, and written out in Model/LibratoText. `http.NewRequest` does not fail (the
URL is a constant). Authentication and headers are left out. A response with a body holds its connection until the body has been read to the end or closed (package net/http, documentation of `Client.Do`).
-/

namespace GoMetrics

variable {F : Type} [GoFloat F] [GoSqrt F] [GoExp F]

/-- `http.DefaultClient.Do(req)`: an error, or a response with a status code and a body, which may break off while it is read. -/
inductive HttpAnswer where
  | fail
  | response (status : Nat) (body : Str) (readable : Bool)
  deriving DecidableEq

/-- The texts posted so far; the number of connections held by responses that were neither read nor closed. -/
structure HttpS where
  posted : List Str := []
  held : Nat := 0
  deriving DecidableEq

/-- The error returned by `PostMetrics`. -/
inductive PostErr where
  | marshal
  | transport
  | status (code : Nat)
  deriving DecidableEq

/-- The numbers of a measurement, and of a batch. -/
def Measurement.numbers (m : Measurement F) : List (Field F) :=
  m.value.toList ++ m.sum.toList.map .float ++ m.max.toList.map .float ++ m.min.toList.map .float ++ m.sumSquares.toList.map .float ++ [m.period]
def Batch.numbers (b : Batch F) : List (Field F) := (b.counters ++ b.gauges).flatMap Measurement.numbers

/-- A number that `encoding/json` refuses. -/
def notNumberField : Field F → Bool
  | .float x => notNumber x
  | .bits b => notNumberBits b
  | _ => false

/-- client.go:68-105 `PostMetrics`. -/
def postMetrics (text : Batch F → Str) (answer : HttpAnswer) (b : Batch F) (s : HttpS) : HttpS × Option PostErr :=
  -- 75-77
  if b.counters.length = 0 ∧ b.gauges.length = 0 then (s, none)
  -- 79-81
  else if b.numbers.any notNumberField then (s, some .marshal)
  else
    -- 83-94
    let s := { s with posted := s.posted ++ [text b] }
    match answer with
    | .fail => (s, some .transport)
    | .response status body _ =>
      -- 96-102: the body is read (to the end or to an error); the error is built in either case
      if status ≠ 200 then (s, some (.status status))
      -- 103: the body is left alone
      else ({ s with held := s.held + (if body = [] then 0 else 1) }, none)

/-- librato.go:47-58: one round of `Run`. Errors of `PostMetrics` are logged (the third component); `BuildRequest` returns no errors. -/
def libratoRound (env : Env F) (cfg : Reporter F) (g : Reg) (text : Batch F → Str) (now : Int64) (answer : HttpAnswer) (w : World F) (s : HttpS) : World F × HttpS × Res (Option PostErr) :=
  match buildRequest env cfg now g w with
  | (w', .ok b) => (w', (postMetrics text answer b s).1, .ok (postMetrics text answer b s).2)
  | (w', .error p) => (w', s, .error p)

/-- A tick of `Run`: what the program sees then (clock, random numbers), the time of the tick, the answer of the server. In between, the program does what it does (`Op`s). -/
structure LibratoTick (F : Type) where
  env : Env F
  now : Int64
  answer : HttpAnswer
  before : List (Env F × Op F)

/-- librato.go:43-59 `Run`: round after round; a panic ends the program. -/
def libratoRun (cfg : Reporter F) (g : Reg) (text : Batch F → Str) : List (LibratoTick F) → World F → HttpS → List (Option PostErr) → World F × HttpS × List (Option PostErr) × Option Panic
  | [], w, s, log => (w, s, log, none)
  | t :: ts, w, s, log =>
    match libratoRound t.env cfg g text t.now t.answer (w.run t.before) s with
    | (w', s', .ok e) => libratoRun cfg g text ts w' s' (log ++ [e])
    | (w', s', .error p) => (w', s', log, some p)

end GoMetrics
