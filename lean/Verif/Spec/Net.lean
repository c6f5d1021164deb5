import Verif.Model.Net

/-! What a server should receive. -/

namespace GoMetrics.Spec
open GoMetrics

variable {F : Type} [GoFloat F] [GoSqrt F] [GoExp F]

/-- The text of the printed lines, one after the other. -/
def textOfEvents (render : List (Piece (Field F)) → Str) : List (Event F) → Str
  | [] => []
  | .print l :: es => render l ++ textOfEvents render es
  | _ :: es => textOfEvents render es

/-- The exporters that use a TCP connection. -/
inductive TcpExporter (F : Type) where
  | graphite (c : GraphiteConfig F)
  | openTSDB (c : OpenTSDBConfig)

/-- One round over the network. -/
def TcpExporter.overTcp (x : TcpExporter F) (env : Env F) (dialed : Bool) (net : Net) (render : List (Piece (Field F)) → Str) (r : Reg) (w : World F) : World F × Option Conn × Res (Option NetErr) :=
  match x with
  | .graphite c => graphiteNet env dialed net render c r w
  | .openTSDB c => openTSDBNet env dialed net render c r w

/-- What the round prints (Model/Export, the subject of C62). -/
def TcpExporter.printed (x : TcpExporter F) (env : Env F) (r : Reg) (w : World F) : (World F × List (Event F)) × Res Unit :=
  match x with
  | .graphite c => graphiteOnce env c r w
  | .openTSDB c => openTSDBOnce env c r w

/-- The same for some of the metrics only. -/
def TcpExporter.printedFor (x : TcpExporter F) (env : Env F) (metrics : List (Str × Ref)) (w : World F) : (World F × List (Event F)) × Res Unit :=
  match x with
  | .graphite c => visit (exportMetric env (graphiteSwitch c)) metrics (w, [])
  | .openTSDB c => visit (exportMetric env (openTSDBSwitch c)) metrics (w, [])

end GoMetrics.Spec
