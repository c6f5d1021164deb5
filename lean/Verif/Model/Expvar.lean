import Verif.Model.Export

/-!
Model of /repo/exp/exp.go: the expvar handler.

`expvar` (package of the standard library) keeps a global table of named variables. `Get` returns the variable with the given name or nil; `Publish` adds a variable and panics if
the name is taken. The handler's mutex `expvarLock` is held during `Get`, the type assertion and `Publish`; nothing releases it when one of them panics (net/http recovers from
panics of handlers, so that the program goes on). A goroutine that locks a mutex held for ever hangs.

Every call of `ExpHandler` (exp.go:48-51) makes a handler with a registry and a mutex of its own, while the table of package expvar is common to all of them. `Expvar.held` is the mutex of the handler that serves the
request; `expHandlerOf` is a request in a program with several handlers.

In this file one request runs at a time; Verif/Model/ExpvarConc.lean interleaves them. The response is the list of all variables (exp.go:23-34); its text is in Verif/Model/ExpvarText.lean.
-/

namespace GoMetrics
open GoFloat

variable {F : Type} [GoFloat F] [GoSqrt F] [GoExp F]

/-- A published variable: `*expvar.Int`, `*expvar.Float`, or anything else (published by other code). A `float64` that came out of a GaugeFloat64 is kept as its bits. -/
inductive Var (F : Type) where
  | int (n : Int64)
  | float (v : Field F)
  | other

/-- The table of package expvar, and whether the mutex of the handler (exp.go:15) is held by a goroutine that has panicked. -/
structure Expvar (F : Type) where
  vars : Str → Option (Var F)
  held : Bool

/-- How a piece of code ends. -/
inductive Ending where
  | returns
  | panics (p : Panic)
  | hangs

/-- exp.go:53-65 `getInt`: the variable is there afterwards. -/
def getInt (name : Str) (s : Expvar F) : Expvar F × Ending :=
  if s.held then (s, .hangs)
  else match s.vars name with
    | some (.int _) => (s, .returns)
    | some _ => ({ s with held := true }, .panics .typeAssert)
    | none => ({ s with vars := Function.update s.vars name (some (.int 0)) }, .returns)

/-- exp.go:67-79 `getFloat`. -/
def getFloat (name : Str) (s : Expvar F) : Expvar F × Ending :=
  if s.held then (s, .hangs)
  else match s.vars name with
    | some (.float _) => (s, .returns)
    | some _ => ({ s with held := true }, .panics .typeAssert)
    | none => ({ s with vars := Function.update s.vars name (some (.float (.float (lit 0)))) }, .returns)

/-- `v.Set(e)`; for `*expvar.Int` the value is an int64, for `*expvar.Float` a float64. -/
def setInt (name : Str) (v : Field F) (s : Expvar F) : Expvar F :=
  { s with vars := Function.update s.vars name (some (match v with | .int n => .int n | _ => .int 0)) }
def setFloat (name : Str) (v : Field F) (s : Expvar F) : Expvar F := { s with vars := Function.update s.vars name (some (.float v)) }

/-- exp.go:81-135, `publishCounter` … `publishTimer`. `.postCount sfx [] e` stands for `exp.getInt(name + sfx).Set(e)`, `.postValue sfx [] e` for
`exp.getFloat(name + sfx).Set(e)`. -/
def expSwitch : Obj F → Option (Case F)
  | .counter _ => some { body := [.postCount "" [] (.get .count)] }
  | .gauge _ => some { body := [.postCount "" [] (.get .value)] }
  | .gaugeF _ => some { body := [.postValue "" [] (.get .value)] }
  | .hist _ => some { snapshot := true, percentiles := some fivePercentiles, body := [
      .postCount ".count" [] (.get .count),
      .postValue ".min" [] (.float (.get (.stat .min))),
      .postValue ".max" [] (.float (.get (.stat .max))),
      .postValue ".mean" [] (.float (.get (.stat .mean))),
      .postValue ".std-dev" [] (.float (.get (.stat .stdDev))),
      .postValue ".50-percentile" [] (.float (.ps 0)),
      .postValue ".75-percentile" [] (.float (.ps 1)),
      .postValue ".95-percentile" [] (.float (.ps 2)),
      .postValue ".99-percentile" [] (.float (.ps 3)),
      .postValue ".999-percentile" [] (.float (.ps 4))] }
  | .meter _ => some { snapshot := true, body := [
      .postCount ".count" [] (.get .count),
      .postValue ".one-minute" [] (.float (.get (.rates .rate1))),
      .postValue ".five-minute" [] (.float (.get (.rates .rate5))),
      .postValue ".fifteen-minute" [] (.float (.get (.rates .rate15))),
      .postValue ".mean" [] (.float (.get (.rates .rateMean)))] }
  | .timer _ => some { snapshot := true, percentiles := some fivePercentiles, body := [
      .postCount ".count" [] (.get .count),
      .postValue ".min" [] (.float (.get (.stat .min))),
      .postValue ".max" [] (.float (.get (.stat .max))),
      .postValue ".mean" [] (.float (.get (.stat .mean))),
      .postValue ".std-dev" [] (.float (.get (.stat .stdDev))),
      .postValue ".50-percentile" [] (.float (.ps 0)),
      .postValue ".75-percentile" [] (.float (.ps 1)),
      .postValue ".95-percentile" [] (.float (.ps 2)),
      .postValue ".99-percentile" [] (.float (.ps 3)),
      .postValue ".999-percentile" [] (.float (.ps 4)),
      .postValue ".one-minute" [] (.float (.get (.rates .rate1))),
      .postValue ".five-minute" [] (.float (.get (.rates .rate5))),
      .postValue ".fifteen-minute" [] (.float (.get (.rates .rate15))),
      .postValue ".mean-rate" [] (.float (.get (.rates .rateMean)))] }
  | _ => none

/-- One such statement: the variable is looked up or published before the argument of `Set` is evaluated (Go spec "Order of evaluation": calls in lexical left-to-right order). -/
def expStmt (env : Env F) (name : Str) (x : Ref) (ps : List F) : Stmt F → World F × Expvar F → (World F × Expvar F) × Ending
  | .postCount sfx _ e, (w, s) =>
    match getInt (name ++ bytes sfx) s with
    | (s, .returns) =>
      match e.eval env x ps w with
      | (w, .ok v) => ((w, setInt (name ++ bytes sfx) v s), .returns)
      | (w, .error p) => ((w, s), .panics p)
    | (s, e) => ((w, s), e)
  | .postValue sfx _ e, (w, s) =>
    match getFloat (name ++ bytes sfx) s with
    | (s, .returns) =>
      match e.eval env x ps w with
      | (w, .ok v) => ((w, setFloat (name ++ bytes sfx) v s), .returns)
      | (w, .error p) => ((w, s), .panics p)
    | (s, e) => ((w, s), e)
  | .printf _ _, y => (y, .returns)

def expStmts (env : Env F) (name : Str) (x : Ref) (ps : List F) : List (Stmt F) → World F × Expvar F → (World F × Expvar F) × Ending
  | [], y => (y, .returns)
  | s :: ss, y =>
    match expStmt env name x ps s y with
    | (y, .returns) => expStmts env name x ps ss y
    | (y, e) => (y, e)

/-- exp.go:139-154: the body of the callback. -/
def expMetric (env : Env F) (name : Str) (r : Ref) (y : World F × Expvar F) : (World F × Expvar F) × Ending :=
  match (y.1.objs r).bind expSwitch with
  | some c =>
    match c.prepare env r y.1 with
    | (w, .ok (x, ps)) => expStmts env name x ps c.body (w, y.2)
    | (w, .error p) => ((w, y.2), .panics p)
  | none => (y, .panics (.msg "unsupported type"))

/-- exp.go:138-155: the callback passed to `Each`; once it hangs, nothing happens any more. -/
def expCallback (env : Env F) : Callback F (Expvar F × Bool) := fun name r x =>
  if x.2.2 then (x, none)
  else match expMetric env name r (x.1, x.2.1) with
    | ((w, s), .returns) => ((w, s, false), none)
    | ((w, s), .panics p) => ((w, s, false), some p)
    | ((w, s), .hangs) => ((w, s, true), none)

/-- exp.go:137-156 `syncToExpvar`. -/
def syncToExpvar (env : Env F) (g : Reg) (y : World F × Expvar F) : (World F × Expvar F) × Ending :=
  match each env g (expCallback env) (y.1, y.2, false) with
  | ((w, s, true), _) => ((w, s), .hangs)
  | ((w, s, false), .ok _) => ((w, s), .returns)
  | ((w, s, false), .error p) => ((w, s), .panics p)

/-- exp.go:19-35 `expHandler`: the variables in the response, `none` if there is none. -/
def expHandler (env : Env F) (g : Reg) (y : World F × Expvar F) : (World F × Expvar F) × Ending × Option (Str → Option (Var F)) :=
  match syncToExpvar env g y with
  | (y, .returns) => (y, .returns, some y.2.vars)
  | (y, e) => (y, e, none)

/-- exp.go:14-17, :48-51: several handlers, numbered in the order of the calls of `ExpHandler`; `held i` says whether the mutex of handler `i` is held by a goroutine that has panicked. -/
structure Handlers (F : Type) where
  vars : Str → Option (Var F)
  held : Nat → Bool

/-- exp.go:19-35, a request to handler `i`, whose registry is `g`: it uses the common table and its own mutex. -/
def expHandlerOf (env : Env F) (g : Reg) (i : Nat) (y : World F × Handlers F) : (World F × Handlers F) × Ending × Option (Str → Option (Var F)) :=
  let r := expHandler env g (y.1, { vars := y.2.vars, held := y.2.held i })
  ((r.1.1, { vars := r.1.2.vars, held := Function.update y.2.held i r.1.2.held }), r.2)

end GoMetrics
