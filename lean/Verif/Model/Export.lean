import Verif.Model.GetAll
import Verif.Go.Fmt

/-!
Model of the exporters that visit a registry and print: /repo/writer.go, log.go, syslog.go, graphite.go, opentsdb.go, stathat/stathat.go.

Each of them is a type switch over the metric; every case optionally runs `Check()`, takes a `Snapshot()` and reads `Percentiles`, and then
executes a list of print statements whose arguments are accessor calls. The cases are written down statement by statement (format strings and
arguments as in the Go text) as values of type `Case`, and `runCase` executes them.

Simplifications: the endless loops around a single export (`time.Tick`, the cue channel of log.go) are left out: one round is modelled; writing
to the `io.Writer`, logger, syslog or connection never fails (the code ignores such errors); `strconv.FormatFloat`, `Duration.String` and `os.Hostname` are
inputs.
-/

namespace GoMetrics
open GoFloat

variable {F : Type} [GoFloat F] [GoSqrt F] [GoExp F]

/-- The dynamic value of a call passed to `Printf`. -/
def Out.shown : Out F → Field F
  | .err (some e) => .errText e
  | o => o.field

/-- Expressions of the print statements; `x` is the metric, or its snapshot where one is taken. -/
inductive Expr (F : Type) where
  /-- `x.M()` -/
  | get (c : Call F)
  /-- `ps[i]` -/
  | ps (i : Nat)
  /-- a variable, like `now` -/
  | const (v : Field F)
  /-- `float64(e)` -/
  | float (e : Expr F)
  /-- `int(e)` (on a 64-bit platform) -/
  | int (e : Expr F)
  /-- `e / d` for int64 -/
  | divInt (e : Expr F) (d : Int64)
  /-- `e / d` for float64 -/
  | divFloat (e : Expr F) (d : F)

/-- `e / d` for int64 values: panics if `d` is 0 (Go spec "Integer operators"; truncated; minInt64 / -1 = minInt64). -/
def intDiv : Field F → Int64 → Res (Field F)
  | .int n, d => if d = 0 then .error .divZero else .ok (.int (n / d))
  | v, _ => .ok v

/-- `e / d` for float64 values. -/
def floatDiv : Field F → F → Field F
  | .float x, d => .float (div x d)
  | v, _ => v

/-- `float64(v)`; a float64 stays as it is. -/
def toFloat : Field F → Field F
  | .int n => .float (ofInt n.toInt)
  | v => v

/-- Evaluation of an expression. -/
def Expr.eval (env : Env F) (x : Ref) (ps : List F) : Expr F → Act F (Field F)
  | .get c => do return (← call env x c).shown
  | .ps i => Act.lift (match ps[i]? with | some v => .ok (.float v) | none => .error .index)
  | .const v => return v
  | .float e => do return toFloat (← e.eval env x ps)
  | .int e => e.eval env x ps
  | .divInt e d => do Act.lift (intDiv (← e.eval env x ps) d)
  | .divFloat e d => do return floatDiv (← e.eval env x ps) d

/-- Arguments of a print statement: the name of the metric, another string, a value. -/
inductive ArgExpr (F : Type) where
  | name
  | str (s : Str)
  | val (e : Expr F)

def ArgExpr.eval (env : Env F) (name : Str) (x : Ref) (ps : List F) : ArgExpr F → Act F (FmtArg (Field F))
  | .name => return .str name
  | .str s => return .str s
  | .val e => do return .val (← e.eval env x ps)

/-- The statements: `Printf(format, args...)` in its various forms; `stathat.PostEZCount(name+suffix, key, e)`, `stathat.PostEZValue(name+suffix, key, e)`. -/
inductive Stmt (F : Type) where
  | printf (format : String) (args : List (ArgExpr F))
  | postCount (suffix : String) (key : Str) (e : Expr F)
  | postValue (suffix : String) (key : Str) (e : Expr F)

/-- What the exporter has done to the outside: printed a line (or logged a message), posted a count or a value. -/
inductive Event (F : Type) where
  | print (l : List (Piece (Field F)))
  | count (stat key : Str) (v : Field F)
  | value (stat key : Str) (v : Field F)

def evalArgs (env : Env F) (name : Str) (x : Ref) (ps : List F) : List (ArgExpr F) → Act F (List (FmtArg (Field F)))
  | [] => return []
  | a :: as => do
    let v ← a.eval env name x ps
    return v :: (← evalArgs env name x ps as)

def Stmt.exec (env : Env F) (name : Str) (x : Ref) (ps : List F) : Stmt F → Act F (Event F)
  | .printf f as => do return .print (sprintf f (← evalArgs env name x ps as))
  | .postCount s key e => do return .count (name ++ bytes s) key (← e.eval env x ps)
  | .postValue s key e => do return .value (name ++ bytes s) key (← e.eval env x ps)

/-- One statement after the other; what has been done before a panic stays. -/
def runStmts (env : Env F) (name : Str) (x : Ref) (ps : List F) : List (Stmt F) → World F × List (Event F) → (World F × List (Event F)) × Option Panic
  | [], y => (y, none)
  | s :: ss, y =>
    match s.exec env name x ps y.1 with
    | (w, .ok ev) => runStmts env name x ps ss (w, y.2 ++ [ev])
    | (w, .error p) => ((w, y.2), some p)

/-- A case of the type switch: `metric.Check()` first?; a snapshot?; `ps := x.Percentiles(...)`?; the statements. -/
structure Case (F : Type) where
  check : Bool := false
  snapshot : Bool := false
  percentiles : Option (List F) := none
  body : List (Stmt F)

/-- The part of a case before the print statements. -/
def Case.prepare (env : Env F) (c : Case F) (r : Ref) : Act F (Ref × List F) := do
  if c.check then let _ ← call env r .check
  let x ← if c.snapshot then snapshotOf env r else pure r
  match c.percentiles with
  | none => return (x, [])
  | some l =>
    match ← call env x (.stat (.percentiles l)) with
    | .floats ps => return (x, ps)
    | _ => return (x, [])

def runCase (env : Env F) (c : Case F) (name : Str) (r : Ref) (y : World F × List (Event F)) : (World F × List (Event F)) × Option Panic :=
  match c.prepare env r y.1 with
  | (w, .ok (x, ps)) => runStmts env name x ps c.body (w, y.2)
  | (w, .error p) => ((w, y.2), some p)

/-- The callback passed to `Each`: the type switch `sw`, without default case. -/
def exportMetric (env : Env F) (sw : Obj F → Option (Case F)) : Callback F (List (Event F)) := fun name r y =>
  match y.1.objs r with
  | some o =>
    match sw o with
    | some c => runCase env c name r y
    | none => (y, none)
  | none => (y, none)

/-- `[]float64{0.5, 0.75, 0.95, 0.99, 0.999}` (writer.go:44, log.go:59, syslog.go:28, graphite.go:35, opentsdb.go:80, stathat.go:31, …). -/
def fivePercentiles : List F := [lit (5 / 10), lit (75 / 100), lit (95 / 100), lit (99 / 100), lit (999 / 1000)]

private abbrev g (c : Call F) : ArgExpr F := .val (.get c)
private abbrev p (i : Nat) : ArgExpr F := .val (.ps i)

/-- writer.go:28-83, the cases of `WriteOnce`. -/
def writerSwitch : Obj F → Option (Case F)
  | .counter _ => some { body := [
      .printf "counter %s\n" [.name],
      .printf "  count:       %9d\n" [g .count]] }
  | .gauge _ => some { body := [
      .printf "gauge %s\n" [.name],
      .printf "  value:       %9d\n" [g .value]] }
  | .gaugeF _ => some { body := [
      .printf "gauge %s\n" [.name],
      .printf "  value:       %f\n" [g .value]] }
  | .health _ => some { check := true, body := [
      .printf "healthcheck %s\n" [.name],
      .printf "  error:       %v\n" [g .error]] }
  | .hist _ => some { snapshot := true, percentiles := some fivePercentiles, body := [
      .printf "histogram %s\n" [.name],
      .printf "  count:       %9d\n" [g .count],
      .printf "  min:         %9d\n" [g (.stat .min)],
      .printf "  max:         %9d\n" [g (.stat .max)],
      .printf "  mean:        %12.2f\n" [g (.stat .mean)],
      .printf "  stddev:      %12.2f\n" [g (.stat .stdDev)],
      .printf "  median:      %12.2f\n" [p 0],
      .printf "  75%%:         %12.2f\n" [p 1],
      .printf "  95%%:         %12.2f\n" [p 2],
      .printf "  99%%:         %12.2f\n" [p 3],
      .printf "  99.9%%:       %12.2f\n" [p 4]] }
  | .meter _ => some { snapshot := true, body := [
      .printf "meter %s\n" [.name],
      .printf "  count:       %9d\n" [g .count],
      .printf "  1-min rate:  %12.2f\n" [g (.rates .rate1)],
      .printf "  5-min rate:  %12.2f\n" [g (.rates .rate5)],
      .printf "  15-min rate: %12.2f\n" [g (.rates .rate15)],
      .printf "  mean rate:   %12.2f\n" [g (.rates .rateMean)]] }
  | .timer _ => some { snapshot := true, percentiles := some fivePercentiles, body := [
      .printf "timer %s\n" [.name],
      .printf "  count:       %9d\n" [g .count],
      .printf "  min:         %9d\n" [g (.stat .min)],
      .printf "  max:         %9d\n" [g (.stat .max)],
      .printf "  mean:        %12.2f\n" [g (.stat .mean)],
      .printf "  stddev:      %12.2f\n" [g (.stat .stdDev)],
      .printf "  median:      %12.2f\n" [p 0],
      .printf "  75%%:         %12.2f\n" [p 1],
      .printf "  95%%:         %12.2f\n" [p 2],
      .printf "  99%%:         %12.2f\n" [p 3],
      .printf "  99.9%%:       %12.2f\n" [p 4],
      .printf "  1-min rate:  %12.2f\n" [g (.rates .rate1)],
      .printf "  5-min rate:  %12.2f\n" [g (.rates .rate5)],
      .printf "  15-min rate: %12.2f\n" [g (.rates .rate15)],
      .printf "  mean rate:   %12.2f\n" [g (.rates .rateMean)]] }
  | _ => none

/-- writer.go:21-24: the callback that collects the metrics. -/
def collect : Callback F (List (Str × Ref)) := fun name r y => ((y.1, y.2 ++ [(name, r)]), none)

/-- writer.go:98-100 `Less`: Go compares strings byte by byte. -/
def nameLess (a b : Str × Ref) : Bool := decide (a.1 < b.1)

/-- What `sort.Sort` guarantees (package `sort`, trusted): a permutation of the input in which no element is less than one before it. Nothing is
assumed about elements that are not less than each other. -/
structure Sorter where
  sort : List (Str × Ref) → List (Str × Ref)
  perm : ∀ l, (sort l).Perm l
  sorted : ∀ l, (sort l).Pairwise fun a b => nameLess b a = false

/-- writer.go:19-85 `WriteOnce`: the state and everything printed. -/
def writeOnce (env : Env F) (sorter : Sorter) (r : Reg) (w : World F) : (World F × List (Event F)) × Res Unit :=
  match each env r collect (w, []) with
  | ((w, namedMetrics), .ok _) => visit (exportMetric env writerSwitch) (sorter.sort namedMetrics) (w, [])
  | ((w, _), .error p) => ((w, []), .error p)

/-- log.go:43-100, the cases of `LogScaledOnCue`; `du` is `float64(scale)`, `sfx` is `scale.String()[1:]` (log.go:38-39). -/
def logSwitch (du : F) (sfx : Str) : Obj F → Option (Case F)
  | .counter _ => some { body := [
      .printf "counter %s\n" [.name],
      .printf "  count:       %9d\n" [g .count]] }
  | .gauge _ => some { body := [
      .printf "gauge %s\n" [.name],
      .printf "  value:       %9d\n" [g .value]] }
  | .gaugeF _ => some { body := [
      .printf "gauge %s\n" [.name],
      .printf "  value:       %f\n" [g .value]] }
  | .health _ => some { check := true, body := [
      .printf "healthcheck %s\n" [.name],
      .printf "  error:       %v\n" [g .error]] }
  | .hist _ => some { snapshot := true, percentiles := some fivePercentiles, body := [
      .printf "histogram %s\n" [.name],
      .printf "  count:       %9d\n" [g .count],
      .printf "  min:         %9d\n" [g (.stat .min)],
      .printf "  max:         %9d\n" [g (.stat .max)],
      .printf "  mean:        %12.2f\n" [g (.stat .mean)],
      .printf "  stddev:      %12.2f\n" [g (.stat .stdDev)],
      .printf "  median:      %12.2f\n" [p 0],
      .printf "  75%%:         %12.2f\n" [p 1],
      .printf "  95%%:         %12.2f\n" [p 2],
      .printf "  99%%:         %12.2f\n" [p 3],
      .printf "  99.9%%:       %12.2f\n" [p 4]] }
  | .meter _ => some { snapshot := true, body := [
      .printf "meter %s\n" [.name],
      .printf "  count:       %9d\n" [g .count],
      .printf "  1-min rate:  %12.2f\n" [g (.rates .rate1)],
      .printf "  5-min rate:  %12.2f\n" [g (.rates .rate5)],
      .printf "  15-min rate: %12.2f\n" [g (.rates .rate15)],
      .printf "  mean rate:   %12.2f\n" [g (.rates .rateMean)]] }
  | .timer _ => some { snapshot := true, percentiles := some fivePercentiles, body := [
      .printf "timer %s\n" [.name],
      .printf "  count:       %9d\n" [g .count],
      .printf "  min:         %12.2f%s\n" [.val (.divFloat (.float (.get (.stat .min))) du), .str sfx],
      .printf "  max:         %12.2f%s\n" [.val (.divFloat (.float (.get (.stat .max))) du), .str sfx],
      .printf "  mean:        %12.2f%s\n" [.val (.divFloat (.get (.stat .mean)) du), .str sfx],
      .printf "  stddev:      %12.2f%s\n" [.val (.divFloat (.get (.stat .stdDev)) du), .str sfx],
      .printf "  median:      %12.2f%s\n" [.val (.divFloat (.ps 0) du), .str sfx],
      .printf "  75%%:         %12.2f%s\n" [.val (.divFloat (.ps 1) du), .str sfx],
      .printf "  95%%:         %12.2f%s\n" [.val (.divFloat (.ps 2) du), .str sfx],
      .printf "  99%%:         %12.2f%s\n" [.val (.divFloat (.ps 3) du), .str sfx],
      .printf "  99.9%%:       %12.2f%s\n" [.val (.divFloat (.ps 4) du), .str sfx],
      .printf "  1-min rate:  %12.2f\n" [g (.rates .rate1)],
      .printf "  5-min rate:  %12.2f\n" [g (.rates .rate5)],
      .printf "  15-min rate: %12.2f\n" [g (.rates .rate15)],
      .printf "  mean rate:   %12.2f\n" [g (.rates .rateMean)]] }
  | _ => none

/-- log.go:37-103 `LogScaledOnCue`, one cue. `scaleString` is `scale.String()`, which is not empty. -/
def logScaledOnce (env : Env F) (r : Reg) (scale : Int64) (scaleString : Str) (w : World F) : (World F × List (Event F)) × Res Unit :=
  each env r (exportMetric env (logSwitch (ofInt scale.toInt) (scaleString.drop 1))) (w, [])

/-- log.go:12-14, 18-20 `Log`, `LogOnCue`, one cue: `time.Nanosecond`, printed as "1ns". -/
def logOnce (env : Env F) (r : Reg) (w : World F) : (World F × List (Event F)) × Res Unit := logScaledOnce env r 1 (bytes "1ns") w

/-- syslog.go:16-77, the cases of `Syslog`. -/
def syslogSwitch : Obj F → Option (Case F)
  | .counter _ => some { body := [.printf "counter %s: count: %d" [.name, g .count]] }
  | .gauge _ => some { body := [.printf "gauge %s: value: %d" [.name, g .value]] }
  | .gaugeF _ => some { body := [.printf "gauge %s: value: %f" [.name, g .value]] }
  | .health _ => some { check := true, body := [.printf "healthcheck %s: error: %v" [.name, g .error]] }
  | .hist _ => some { snapshot := true, percentiles := some fivePercentiles, body := [
      .printf "histogram %s: count: %d min: %d max: %d mean: %.2f stddev: %.2f median: %.2f 75%%: %.2f 95%%: %.2f 99%%: %.2f 99.9%%: %.2f"
        [.name, g .count, g (.stat .min), g (.stat .max), g (.stat .mean), g (.stat .stdDev), p 0, p 1, p 2, p 3, p 4]] }
  | .meter _ => some { snapshot := true, body := [
      .printf "meter %s: count: %d 1-min: %.2f 5-min: %.2f 15-min: %.2f mean: %.2f"
        [.name, g .count, g (.rates .rate1), g (.rates .rate5), g (.rates .rate15), g (.rates .rateMean)]] }
  | .timer _ => some { snapshot := true, percentiles := some fivePercentiles, body := [
      .printf "timer %s: count: %d min: %d max: %d mean: %.2f stddev: %.2f median: %.2f 75%%: %.2f 95%%: %.2f 99%%: %.2f 99.9%%: %.2f 1-min: %.2f 5-min: %.2f 15-min: %.2f mean-rate: %.2f"
        [.name, g .count, g (.stat .min), g (.stat .max), g (.stat .mean), g (.stat .stdDev), p 0, p 1, p 2, p 3, p 4,
          g (.rates .rate1), g (.rates .rate5), g (.rates .rate15), g (.rates .rateMean)]] }
  | _ => none

/-- syslog.go:13-79 `Syslog`, one tick. -/
def syslogOnce (env : Env F) (r : Reg) (w : World F) : (World F × List (Event F)) × Res Unit := each env r (exportMetric env syslogSwitch) (w, [])

/-- graphite.go:15-22 `GraphiteConfig` (without address and flush interval), together with the clock `now = time.Now().Unix()` (graphite.go:58) and
`strconv.FormatFloat(x, 'f', -1, 64)`. -/
structure GraphiteConfig (F : Type) where
  durationUnit : Int64
  pre : Str
  percentiles : List F
  now : Int64
  formatFloat : F → Str

/-- graphite.go:83, 103 `strings.Replace(strconv.FormatFloat(psKey*100.0, 'f', -1, 64), ".", "", 1)`. -/
def removeFirstPoint : Str → Str
  | [] => []
  | b :: s => if b = 46 then s else b :: removeFirstPoint s
def percentileKey (formatFloat : F → Str) (psKey : F) : Str := removeFirstPoint (formatFloat (mul psKey (lit 100)))

/-- graphite.go:82-85, 102-105: `for psIdx, psKey := range c.Percentiles`. -/
def graphitePercentiles (c : GraphiteConfig F) : List (Stmt F) := c.percentiles.zipIdx.map fun x =>
  .printf "%s.%s.%s-percentile %.2f %d\n" [.str c.pre, .name, .str (percentileKey c.formatFloat x.1), p x.2, .val (.const (.int c.now))]

/-- graphite.go:67-110, the cases of `graphite`; `du` is `float64(c.DurationUnit)` (59). -/
def graphiteSwitch (c : GraphiteConfig F) : Obj F → Option (Case F) :=
  let du : F := ofInt c.durationUnit.toInt
  let duInt : Int64 := Int64.ofInt (toInt du)
  let pre : ArgExpr F := .str c.pre
  let now : ArgExpr F := .val (.const (.int c.now))
  fun
  | .counter _ => some { body := [.printf "%s.%s.count %d %d\n" [pre, .name, g .count, now]] }
  | .gauge _ => some { body := [.printf "%s.%s.value %d %d\n" [pre, .name, g .value, now]] }
  | .gaugeF _ => some { body := [.printf "%s.%s.value %f %d\n" [pre, .name, g .value, now]] }
  | .hist _ => some { snapshot := true, percentiles := some c.percentiles, body := [
      .printf "%s.%s.count %d %d\n" [pre, .name, g .count, now],
      .printf "%s.%s.min %d %d\n" [pre, .name, g (.stat .min), now],
      .printf "%s.%s.max %d %d\n" [pre, .name, g (.stat .max), now],
      .printf "%s.%s.mean %.2f %d\n" [pre, .name, g (.stat .mean), now],
      .printf "%s.%s.std-dev %.2f %d\n" [pre, .name, g (.stat .stdDev), now]] ++ graphitePercentiles c }
  | .meter _ => some { snapshot := true, body := [
      .printf "%s.%s.count %d %d\n" [pre, .name, g .count, now],
      .printf "%s.%s.one-minute %.2f %d\n" [pre, .name, g (.rates .rate1), now],
      .printf "%s.%s.five-minute %.2f %d\n" [pre, .name, g (.rates .rate5), now],
      .printf "%s.%s.fifteen-minute %.2f %d\n" [pre, .name, g (.rates .rate15), now],
      .printf "%s.%s.mean %.2f %d\n" [pre, .name, g (.rates .rateMean), now]] }
  | .timer _ => some { snapshot := true, percentiles := some c.percentiles, body := [
      .printf "%s.%s.count %d %d\n" [pre, .name, g .count, now],
      .printf "%s.%s.min %d %d\n" [pre, .name, .val (.divInt (.get (.stat .min)) duInt), now],
      .printf "%s.%s.max %d %d\n" [pre, .name, .val (.divInt (.get (.stat .max)) duInt), now],
      .printf "%s.%s.mean %.2f %d\n" [pre, .name, .val (.divFloat (.get (.stat .mean)) du), now],
      .printf "%s.%s.std-dev %.2f %d\n" [pre, .name, .val (.divFloat (.get (.stat .stdDev)) du), now]] ++ graphitePercentiles c ++ [
      .printf "%s.%s.one-minute %.2f %d\n" [pre, .name, g (.rates .rate1), now],
      .printf "%s.%s.five-minute %.2f %d\n" [pre, .name, g (.rates .rate5), now],
      .printf "%s.%s.fifteen-minute %.2f %d\n" [pre, .name, g (.rates .rate15), now],
      .printf "%s.%s.mean-rate %.2f %d\n" [pre, .name, g (.rates .rateMean), now]] }
  | _ => none

/-- graphite.go:57-114 `graphite`, over a connection that works. (If `net.DialTCP` fails, the error is returned and nothing is sent: 60-63.) -/
def graphiteOnce (env : Env F) (c : GraphiteConfig F) (r : Reg) (w : World F) : (World F × List (Event F)) × Res Unit :=
  each env r (exportMetric env (graphiteSwitch c)) (w, [])

/-- opentsdb.go:17-23 `OpenTSDBConfig`, the clock (61) and the short hostname. -/
structure OpenTSDBConfig where
  durationUnit : Int64
  pre : Str
  now : Int64
  host : Str

/-- opentsdb.go:47-57 `getShortHostname`: `cached` is the global variable `shortHostName`, `host` what `os.Hostname` returns. -/
def shortHostname (cached host : Str) : Str :=
  if cached = [] then
    match host.findIdx? (· = 46) with
    | some i => if i > 0 then host.take i else host
    | none => host
  else cached

/-- opentsdb.go:71-114, the cases of `openTSDB`. -/
def openTSDBSwitch (c : OpenTSDBConfig) : Obj F → Option (Case F) :=
  let du : F := ofInt c.durationUnit.toInt
  let duInt : Int64 := Int64.ofInt (toInt du)
  let pre : ArgExpr F := .str c.pre
  let now : ArgExpr F := .val (.const (.int c.now))
  let host : ArgExpr F := .str c.host
  fun
  | .counter _ => some { body := [.printf "put %s.%s.count %d %d host=%s\n" [pre, .name, now, g .count, host]] }
  | .gauge _ => some { body := [.printf "put %s.%s.value %d %d host=%s\n" [pre, .name, now, g .value, host]] }
  | .gaugeF _ => some { body := [.printf "put %s.%s.value %d %f host=%s\n" [pre, .name, now, g .value, host]] }
  | .hist _ => some { snapshot := true, percentiles := some fivePercentiles, body := [
      .printf "put %s.%s.count %d %d host=%s\n" [pre, .name, now, g .count, host],
      .printf "put %s.%s.min %d %d host=%s\n" [pre, .name, now, g (.stat .min), host],
      .printf "put %s.%s.max %d %d host=%s\n" [pre, .name, now, g (.stat .max), host],
      .printf "put %s.%s.mean %d %.2f host=%s\n" [pre, .name, now, g (.stat .mean), host],
      .printf "put %s.%s.std-dev %d %.2f host=%s\n" [pre, .name, now, g (.stat .stdDev), host],
      .printf "put %s.%s.50-percentile %d %.2f host=%s\n" [pre, .name, now, p 0, host],
      .printf "put %s.%s.75-percentile %d %.2f host=%s\n" [pre, .name, now, p 1, host],
      .printf "put %s.%s.95-percentile %d %.2f host=%s\n" [pre, .name, now, p 2, host],
      .printf "put %s.%s.99-percentile %d %.2f host=%s\n" [pre, .name, now, p 3, host],
      .printf "put %s.%s.999-percentile %d %.2f host=%s\n" [pre, .name, now, p 4, host]] }
  | .meter _ => some { snapshot := true, body := [
      .printf "put %s.%s.count %d %d host=%s\n" [pre, .name, now, g .count, host],
      .printf "put %s.%s.one-minute %d %.2f host=%s\n" [pre, .name, now, g (.rates .rate1), host],
      .printf "put %s.%s.five-minute %d %.2f host=%s\n" [pre, .name, now, g (.rates .rate5), host],
      .printf "put %s.%s.fifteen-minute %d %.2f host=%s\n" [pre, .name, now, g (.rates .rate15), host],
      .printf "put %s.%s.mean %d %.2f host=%s\n" [pre, .name, now, g (.rates .rateMean), host]] }
  | .timer _ => some { snapshot := true, percentiles := some fivePercentiles, body := [
      .printf "put %s.%s.count %d %d host=%s\n" [pre, .name, now, g .count, host],
      .printf "put %s.%s.min %d %d host=%s\n" [pre, .name, now, .val (.divInt (.get (.stat .min)) duInt), host],
      .printf "put %s.%s.max %d %d host=%s\n" [pre, .name, now, .val (.divInt (.get (.stat .max)) duInt), host],
      .printf "put %s.%s.mean %d %.2f host=%s\n" [pre, .name, now, .val (.divFloat (.get (.stat .mean)) du), host],
      .printf "put %s.%s.std-dev %d %.2f host=%s\n" [pre, .name, now, .val (.divFloat (.get (.stat .stdDev)) du), host],
      .printf "put %s.%s.50-percentile %d %.2f host=%s\n" [pre, .name, now, .val (.divFloat (.ps 0) du), host],
      .printf "put %s.%s.75-percentile %d %.2f host=%s\n" [pre, .name, now, .val (.divFloat (.ps 1) du), host],
      .printf "put %s.%s.95-percentile %d %.2f host=%s\n" [pre, .name, now, .val (.divFloat (.ps 2) du), host],
      .printf "put %s.%s.99-percentile %d %.2f host=%s\n" [pre, .name, now, .val (.divFloat (.ps 3) du), host],
      .printf "put %s.%s.999-percentile %d %.2f host=%s\n" [pre, .name, now, .val (.divFloat (.ps 4) du), host],
      .printf "put %s.%s.one-minute %d %.2f host=%s\n" [pre, .name, now, g (.rates .rate1), host],
      .printf "put %s.%s.five-minute %d %.2f host=%s\n" [pre, .name, now, g (.rates .rate5), host],
      .printf "put %s.%s.fifteen-minute %d %.2f host=%s\n" [pre, .name, now, g (.rates .rate15), host],
      .printf "put %s.%s.mean-rate %d %.2f host=%s\n" [pre, .name, now, g (.rates .rateMean), host]] }
  | _ => none

/-- opentsdb.go:59-118 `openTSDB`, over a connection that works. -/
def openTSDBOnce (env : Env F) (c : OpenTSDBConfig) (r : Reg) (w : World F) : (World F × List (Event F)) × Res Unit :=
  each env r (exportMetric env (openTSDBSwitch c)) (w, [])

/-- stathat/stathat.go:22-68, the cases of `sh`. -/
def stathatSwitch (key : Str) : Obj F → Option (Case F) :=
  fun
  | .counter _ => some { body := [.postCount "" key (.int (.get .count))] }
  | .gauge _ => some { body := [.postValue "" key (.float (.get .value))] }
  | .gaugeF _ => some { body := [.postValue "" key (.float (.get .value))] }
  | .hist _ => some { snapshot := true, percentiles := some fivePercentiles, body := [
      .postCount ".count" key (.int (.get .count)),
      .postValue ".min" key (.float (.get (.stat .min))),
      .postValue ".max" key (.float (.get (.stat .max))),
      .postValue ".mean" key (.float (.get (.stat .mean))),
      .postValue ".std-dev" key (.float (.get (.stat .stdDev))),
      .postValue ".50-percentile" key (.float (.ps 0)),
      .postValue ".75-percentile" key (.float (.ps 1)),
      .postValue ".95-percentile" key (.float (.ps 2)),
      .postValue ".99-percentile" key (.float (.ps 3)),
      .postValue ".999-percentile" key (.float (.ps 4))] }
  | .meter _ => some { snapshot := true, body := [
      .postCount ".count" key (.int (.get .count)),
      .postValue ".one-minute" key (.float (.get (.rates .rate1))),
      .postValue ".five-minute" key (.float (.get (.rates .rate5))),
      .postValue ".fifteen-minute" key (.float (.get (.rates .rate15))),
      .postValue ".mean" key (.float (.get (.rates .rateMean)))] }
  | .timer _ => some { snapshot := true, percentiles := some fivePercentiles, body := [
      .postCount ".count" key (.int (.get .count)),
      .postValue ".min" key (.float (.get (.stat .min))),
      .postValue ".max" key (.float (.get (.stat .max))),
      .postValue ".mean" key (.float (.get (.stat .mean))),
      .postValue ".std-dev" key (.float (.get (.stat .stdDev))),
      .postValue ".50-percentile" key (.float (.ps 0)),
      .postValue ".75-percentile" key (.float (.ps 1)),
      .postValue ".95-percentile" key (.float (.ps 2)),
      .postValue ".99-percentile" key (.float (.ps 3)),
      .postValue ".999-percentile" key (.float (.ps 4)),
      .postValue ".one-minute" key (.float (.get (.rates .rate1))),
      .postValue ".five-minute" key (.float (.get (.rates .rate5))),
      .postValue ".fifteen-minute" key (.float (.get (.rates .rate15))),
      .postValue ".mean-rate" key (.float (.get (.rates .rateMean)))] }
  | _ => none

/-- stathat/stathat.go:20-71 `sh`. -/
def stathatOnce (env : Env F) (key : Str) (r : Reg) (w : World F) : (World F × List (Event F)) × Res Unit :=
  each env r (exportMetric env (stathatSwitch key)) (w, [])

end GoMetrics
