import Verif.Model.Export

/-!
Model of the exporters of /repo/writer.go, log.go, syslog.go, graphite.go, opentsdb.go and stathat/stathat.go (see `Verif/Model/Export.lean` for the statements that they execute) while other goroutines go on using
the metrics and the registry.

The exporter makes one call after the other; before each of them other goroutines may do anything. The state is the history of the whole program: the calls of the exporter and the operations of all others in the order in
which they happened.

Simplifications: each call on a metric is one step (for the calls that are not atomic see `meterMachine` in `Verif/Model/Meter.lean` and `Verif/Model/TimerConc.lean`); as in `Verif/Model/Export.lean`, one round of the endless loops.
-/

namespace GoMetrics
open GoFloat

variable {F : Type} [GoFloat F] [GoSqrt F] [GoExp F]

/-- What happens between two calls of the exporter, and what the environment supplies to the second of them. -/
structure Turn (F : Type) where
  others : List (Env F × Op F)
  env : Env F

/-- The history of the program, and how many calls the exporter has made. -/
structure LiveState (F : Type) where
  log : List (Env F × Op F)
  turn : Nat

/-- A part of the exporter that runs under the schedule `s`. -/
def Live (F α : Type) := (Nat → Turn F) → LiveState F → LiveState F × Res α

instance : Monad (Live F) where
  pure a := fun _ st => (st, .ok a)
  bind x f := fun s st =>
    match x s st with
    | (st', .ok a) => f a s st'
    | (st', .error p) => (st', .error p)

def Live.lift {α : Type} (x : Res α) : Live F α := fun _ st => (st, x)

/-- A call of the exporter. -/
def liveCall (r : Ref) (c : Call F) : Live F (Out F) := fun s st =>
  let log := st.log ++ (s st.turn).others
  (⟨log ++ [((s st.turn).env, .call r c)], st.turn + 1⟩, (call (s st.turn).env r c (World.init.run log)).2)

/-- Like `Expr.eval`. -/
def Expr.evalLive (x : Ref) (ps : List F) : Expr F → Live F (Field F)
  | .get c => do return (← liveCall x c).shown
  | .ps i => Live.lift (match ps[i]? with | some v => .ok (.float v) | none => .error .index)
  | .const v => return v
  | .float e => do return toFloat (← e.evalLive x ps)
  | .int e => e.evalLive x ps
  | .divInt e d => do Live.lift (intDiv (← e.evalLive x ps) d)
  | .divFloat e d => do return floatDiv (← e.evalLive x ps) d

/-- Like `ArgExpr.eval`. -/
def ArgExpr.evalLive (name : Str) (x : Ref) (ps : List F) : ArgExpr F → Live F (FmtArg (Field F))
  | .name => return .str name
  | .str s => return .str s
  | .val e => do return .val (← e.evalLive x ps)

/-- Like `evalArgs`: the arguments of a call are evaluated from left to right (Go spec "Order of evaluation"). -/
def evalArgsLive (name : Str) (x : Ref) (ps : List F) : List (ArgExpr F) → Live F (List (FmtArg (Field F)))
  | [] => return []
  | a :: as => do
    let v ← a.evalLive name x ps
    return v :: (← evalArgsLive name x ps as)

/-- Like `Stmt.exec`. -/
def Stmt.execLive (name : Str) (x : Ref) (ps : List F) : Stmt F → Live F (Event F)
  | .printf f as => do return .print (sprintf f (← evalArgsLive name x ps as))
  | .postCount s key e => do return .count (name ++ bytes s) key (← e.evalLive x ps)
  | .postValue s key e => do return .value (name ++ bytes s) key (← e.evalLive x ps)

/-- Like `runStmts`. -/
def runStmtsLive (s : Nat → Turn F) (name : Str) (x : Ref) (ps : List F) : List (Stmt F) → LiveState F × List (Event F) → (LiveState F × List (Event F)) × Option Panic
  | [], y => (y, none)
  | st :: ss, y =>
    match st.execLive name x ps s y.1 with
    | (w, .ok ev) => runStmtsLive s name x ps ss (w, y.2 ++ [ev])
    | (w, .error p) => ((w, y.2), some p)

/-- Like `snapshotOf`. -/
def snapshotOfLive (r : Ref) : Live F Ref := do
  match ← liveCall r .snapshot with
  | .ref q => return q
  | _ => return r

/-- Like `Case.prepare`. -/
def Case.prepareLive (c : Case F) (r : Ref) : Live F (Ref × List F) := do
  if c.check then let _ ← liveCall r .check
  let x ← if c.snapshot then snapshotOfLive r else pure r
  match c.percentiles with
  | none => return (x, [])
  | some l =>
    match ← liveCall x (.stat (.percentiles l)) with
    | .floats ps => return (x, ps)
    | _ => return (x, [])

/-- Like `runCase`. -/
def runCaseLive (s : Nat → Turn F) (c : Case F) (name : Str) (r : Ref) (y : LiveState F × List (Event F)) : (LiveState F × List (Event F)) × Option Panic :=
  match c.prepareLive r s y.1 with
  | (w, .ok (x, ps)) => runStmtsLive s name x ps c.body (w, y.2)
  | (w, .error p) => ((w, y.2), some p)

/-- Like `exportMetric`: the type switch. The type of a metric never changes, so it does not matter when the switch happens. -/
def exportMetricLive (s : Nat → Turn F) (sw : Obj F → Option (Case F)) (name : Str) (r : Ref) (y : LiveState F × List (Event F)) : (LiveState F × List (Event F)) × Option Panic :=
  match (World.init.run y.1.log : World F).objs r with
  | some o =>
    match sw o with
    | some c => runCaseLive s c name r y
    | none => (y, none)
  | none => (y, none)

/-- A callback of `Each`; what it collects has type `β`. -/
abbrev LiveCallback (F β : Type) := Str → Ref → LiveState F × β → (LiveState F × β) × Option Panic

/-- registry.go:68-71, 269-276: the loop of `Each`. -/
def visitLive {β : Type} (f : LiveCallback F β) : List (Str × Ref) → LiveState F × β → (LiveState F × β) × Res Unit
  | [], x => (x, .ok ())
  | e :: l, x =>
    match f e.1 e.2 x with
    | (x', some p) => (x', .error p)
    | (x', none) => visitLive f l x'

/-- registry.go:66-72, 220-234, 267-280: `Each` copies the registered metrics while it holds the lock, and visits them after it has released the lock; writer.go:21-26 sorts them in between (`arrange`). `h` is the history before the export. -/
def eachLive {β : Type} (s : Nat → Turn F) (g : Reg) (arrange : List (Str × Ref) → List (Str × Ref)) (f : LiveCallback F β) (init : β) (h : List (Env F × Op F)) : (LiveState F × β) × Res Unit :=
  let log := h ++ (s 0).others
  match (eachList (s 0).env g (World.init.run log)).2 with
  | .error p => ((⟨log, 1⟩, init), .error p)
  | .ok none => ((⟨log, 1⟩, init), .ok ())
  | .ok (some l) => visitLive f (arrange l) (⟨log, 1⟩, init)

/-- An exporter with the type switch `sw`. -/
def exportLive (s : Nat → Turn F) (g : Reg) (arrange : List (Str × Ref) → List (Str × Ref)) (sw : Obj F → Option (Case F)) (h : List (Env F × Op F)) : (LiveState F × List (Event F)) × Res Unit :=
  eachLive s g arrange (exportMetricLive s sw) [] h

/-- writer.go:19-85 `WriteOnce`. -/
def writeOnceLive (s : Nat → Turn F) (sorter : Sorter) (g : Reg) (h : List (Env F × Op F)) := exportLive s g sorter.sort writerSwitch h
/-- log.go:37-103 `LogScaledOnCue`, one cue. -/
def logScaledOnceLive (s : Nat → Turn F) (g : Reg) (scale : Int64) (scaleString : Str) (h : List (Env F × Op F)) := exportLive s g (fun l => l) (logSwitch (ofInt scale.toInt) (scaleString.drop 1)) h
/-- syslog.go:13-79 `Syslog`, one tick. -/
def syslogOnceLive (s : Nat → Turn F) (g : Reg) (h : List (Env F × Op F)) := exportLive s g (fun l => l) syslogSwitch h
/-- graphite.go:57-114 `graphite`, over a connection that works. -/
def graphiteOnceLive (s : Nat → Turn F) (c : GraphiteConfig F) (g : Reg) (h : List (Env F × Op F)) := exportLive s g (fun l => l) (graphiteSwitch c) h
/-- opentsdb.go:59-118 `openTSDB`, over a connection that works. -/
def openTSDBOnceLive (s : Nat → Turn F) (c : OpenTSDBConfig) (g : Reg) (h : List (Env F × Op F)) := exportLive s g (fun l => l) (openTSDBSwitch c) h
/-- stathat/stathat.go:20-71 `sh`. -/
def stathatOnceLive (s : Nat → Turn F) (key : Str) (g : Reg) (h : List (Env F × Op F)) := exportLive s g (fun l => l) (stathatSwitch key) h

end GoMetrics
