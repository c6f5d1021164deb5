import Verif.Model.Export

/-!
Model of the connection of the exporters /repo/graphite.go and /repo/opentsdb.go: `net.DialTCP`, the `bufio.Writer` around the connection, `Flush` after every metric, `conn.Close`.

The network is an input: whether the connection comes about, and for each `Write` on it whether it succeeds or how many bytes it takes before it fails. What a print statement writes is `render` of
its pieces (the digits of numbers are not modelled, see Go/Fmt); `fmt.Fprintf` hands its whole output to the writer with one call of `Write`.
-/

namespace GoMetrics

/-- A TCP connection: the bytes it has taken, the number of calls of `Write`, the number of calls of `Close`. -/
structure Conn where
  sent : Str := []
  writes : Nat := 0
  closed : Nat := 0
  deriving DecidableEq

/-- The behaviour of the network: `none`, the `n`-th `Write` succeeds; `some k`, it fails after at most `k` bytes. -/
abbrev Net := Nat → Option Nat

/-- `conn.Write(p)`: the connection afterwards, the number of bytes taken, whether there was an error. -/
def Conn.write (net : Net) (c : Conn) (p : Str) : Conn × Nat × Bool :=
  match net c.writes with
  | none => ({ c with sent := c.sent ++ p, writes := c.writes + 1 }, p.length, false)
  | some k => ({ c with sent := c.sent ++ p.take k, writes := c.writes + 1 }, min k p.length, true)

/-- A `bufio.Writer` and the connection under it: the bytes in the buffer, and whether an error has occurred (Go package bufio: after an error nothing is written any more). -/
structure BufWriter where
  conn : Conn := {}
  buf : Str := []
  failed : Bool := false
  deriving DecidableEq

/-- Size of the buffer: bufio `defaultBufSize`. -/
def bufSize : Nat := 4096

/-- bufio `(*Writer).Flush`. -/
def BufWriter.flush (net : Net) (b : BufWriter) : BufWriter :=
  if b.failed then b
  else if b.buf = [] then b
  else
    match b.conn.write net b.buf with
    | (c, _, false) => { conn := c, buf := [], failed := false }
    | (c, n, true) => { conn := c, buf := b.buf.drop n, failed := true }

/-- The loop of bufio `(*Writer).Write`, with the rest of its argument; the first argument bounds the number of iterations. -/
def BufWriter.writeLoop (net : Net) : Nat → BufWriter → Str → BufWriter
  | 0, b, p => { b with buf := b.buf ++ p }
  | n + 1, b, p =>
    if b.failed then b
    else if p.length ≤ bufSize - b.buf.length then { b with buf := b.buf ++ p }
    else if b.buf = [] then
      match b.conn.write net p with
      | (c, k, e) => writeLoop net n { conn := c, buf := [], failed := e } (p.drop k)
    else
      let free := bufSize - b.buf.length
      writeLoop net n (({ b with buf := b.buf ++ p.take free } : BufWriter).flush net) (p.drop free)

/-- bufio `(*Writer).Write`: at most three iterations (fill and flush; write the rest directly; nothing left). -/
def BufWriter.write (net : Net) (b : BufWriter) (p : Str) : BufWriter := b.writeLoop net 3 p

variable {F : Type} [GoFloat F] [GoSqrt F] [GoExp F]

/-- A print statement writes to the buffer. -/
def putEvent (net : Net) (render : List (Piece (Field F)) → Str) (b : BufWriter) : Event F → BufWriter
  | .print l => b.write net (render l)
  | _ => b

/-- One statement after the other; what has been written before a panic stays. -/
def netStmts (env : Env F) (net : Net) (render : List (Piece (Field F)) → Str) (name : Str) (x : Ref) (ps : List F) : List (Stmt F) → World F × BufWriter → (World F × BufWriter) × Option Panic
  | [], y => (y, none)
  | s :: ss, y =>
    match s.exec env name x ps y.1 with
    | (w, .ok ev) => netStmts env net render name x ps ss (w, putEvent net render y.2 ev)
    | (w, .error p) => ((w, y.2), some p)

/-- graphite.go:66-112, opentsdb.go:70-117: the callback passed to `Each`: the type switch, then `w.Flush()`. -/
def netMetric (env : Env F) (net : Net) (render : List (Piece (Field F)) → Str) (sw : Obj F → Option (Case F)) : Callback F BufWriter := fun name r y =>
  match (y.1.objs r).bind sw with
  | some c =>
    match c.prepare env r y.1 with
    | (w, .ok (x, ps)) =>
      match netStmts env net render name x ps c.body (w, y.2) with
      | ((w, b), none) => ((w, b.flush net), none)
      | (y, some p) => (y, some p)
    | (w, .error p) => ((w, y.2), some p)
  | none => ((y.1, y.2.flush net), none)

/-- What `graphite` and `openTSDB` return: nil or the error of `net.DialTCP`. -/
inductive NetErr where
  | dial
  deriving DecidableEq

/-- graphite.go:60-114, opentsdb.go:64-119: the state afterwards, the connection if there was one, and the result. The connection is closed when the function returns or panics (`defer conn.Close()`, 64/68). -/
def netExport (env : Env F) (dialed : Bool) (net : Net) (render : List (Piece (Field F)) → Str) (sw : Obj F → Option (Case F)) (r : Reg) (w : World F) : World F × Option Conn × Res (Option NetErr) :=
  if dialed then
    match each env r (netMetric env net render sw) (w, {}) with
    | ((w, b), res) => (w, some { b.conn with closed := b.conn.closed + 1 }, res.map fun _ => none)
  else (w, none, .ok (some .dial))

/-- graphite.go:53-56 `GraphiteOnce`. -/
def graphiteNet (env : Env F) (dialed : Bool) (net : Net) (render : List (Piece (Field F)) → Str) (c : GraphiteConfig F) (r : Reg) (w : World F) : World F × Option Conn × Res (Option NetErr) :=
  netExport env dialed net render (graphiteSwitch c) r w

/-- opentsdb.go:59-119 `openTSDB`. -/
def openTSDBNet (env : Env F) (dialed : Bool) (net : Net) (render : List (Piece (Field F)) → Str) (c : OpenTSDBConfig) (r : Reg) (w : World F) : World F × Option Conn × Res (Option NetErr) :=
  netExport env dialed net render (openTSDBSwitch c) r w

end GoMetrics
