import Verif.Lemmas.Net
import Verif.Go.F64
import Verif.Spec.World

/-!
C78. Export over a TCP connection (Graphite, OpenTSDB).

The buffer between the exporter and the connection is invisible: if the network works, the server receives exactly the printed lines, all of them, before the function returns nil. If the
network fails at any point, the server has received a prefix of them, the metrics are read as if nothing had happened, and the function still returns nil (so a nil result does not mean that anything
was delivered). The connection is closed exactly once, also if the export panics. If no connection comes about, the error is returned, and no metric has been touched. If a metric panics, the lines of
all metrics before it have been sent.
-/

namespace GoMetrics
open Spec

variable {F : Type} [GoFloat F] [GoSqrt F] [GoExp F]

theorem overTcp_sim (x : TcpExporter F) (env : Env F) (net : Net) (render : List (Piece (Field F)) → Str) (r : Reg) (w : World F) : ∃ w' b evs res,
    x.overTcp env true net render r w = (w', some { b.conn with closed := b.conn.closed + 1 }, res.map fun _ => none) ∧ x.printed env r w = ((w', evs), res) ∧ Carries b (textOfEvents render evs) ∧
      (res = .ok () → Flushed net b (textOfEvents render evs)) := by
  cases x with
  | graphite c =>
    obtain ⟨w', b, evs, res, h1, h2, h3, h4⟩ := netEach_sim env net render (graphiteSwitch c) r w
    exact ⟨w', b, evs, res, by simp only [TcpExporter.overTcp, graphiteNet, netExport, h1, if_true], h2, h3, h4⟩
  | openTSDB c =>
    obtain ⟨w', b, evs, res, h1, h2, h3, h4⟩ := netEach_sim env net render (openTSDBSwitch c) r w
    exact ⟨w', b, evs, res, by simp only [TcpExporter.overTcp, openTSDBNet, netExport, h1, if_true], h2, h3, h4⟩

/-- **C78, delivered.** The network works and the export returns: it returns nil, the server has received what was printed, byte for byte, and the connection is closed. -/
theorem C78_delivered (x : TcpExporter F) (env : Env F) (net : Net) (hn : ∀ n, net n = none) (render : List (Piece (Field F)) → Str) (r : Reg) (w w' : World F) (evs : List (Event F))
    (h : x.printed env r w = ((w', evs), .ok ())) : ∃ c, x.overTcp env true net render r w = (w', some c, .ok none) ∧ c.sent = textOfEvents render evs ∧ c.closed = 1 := by
  obtain ⟨w1, b, evs1, res, h1, h2, h3, h4⟩ := overTcp_sim x env net render r w
  rw [h] at h2
  cases h2
  exact ⟨_, h1, ((h4 rfl).sent hn).2, by simp [h3.open_]⟩

/-- **C78, whatever the network does.** The metrics are read in the same way, the result is nil (or the panic of a metric), the connection is closed once, and it has carried a prefix of what was printed. -/
theorem C78_prefix (x : TcpExporter F) (env : Env F) (net : Net) (render : List (Piece (Field F)) → Str) (r : Reg) (w w' : World F) (evs : List (Event F)) (res : Res Unit)
    (h : x.printed env r w = ((w', evs), res)) : ∃ c, x.overTcp env true net render r w = (w', some c, res.map fun _ => none) ∧ c.sent <+: textOfEvents render evs ∧ c.closed = 1 := by
  obtain ⟨w1, b, evs1, res1, h1, h2, h3, -⟩ := overTcp_sim x env net render r w
  rw [h] at h2
  cases h2
  exact ⟨_, h1, h3.pre, by simp [h3.open_]⟩

/-- **C78, no connection.** The error is returned; nothing has been read. -/
theorem C78_dial (x : TcpExporter F) (env : Env F) (net : Net) (render : List (Piece (Field F)) → Str) (r : Reg) (w : World F) : x.overTcp env false net render r w = (w, none, .ok (some .dial)) := by
  cases x <;> rfl

/-- **C78, panic.** The network works, and a metric panics: the lines of the metrics visited before it have been sent. -/
theorem C78_panic (x : TcpExporter F) (env : Env F) (net : Net) (hn : ∀ n, net n = none) (render : List (Piece (Field F)) → Str) (r : Reg) (w w0 w1 : World F) {before rest : List (Str × Ref)} {evs : List (Event F)}
    (hl : eachList env r w = (w0, .ok (some (before ++ rest)))) (hb : x.printedFor env before w0 = ((w1, evs), .ok ())) :
    ∃ w' c res, x.overTcp env true net render r w = (w', some c, res) ∧ textOfEvents render evs <+: c.sent := by
  have key : ∀ sw : Obj F → Option (Case F), visit (exportMetric env sw) before (w0, []) = ((w1, evs), .ok ()) →
      ∃ w' c res, netExport env true net render sw r w = (w', some c, res) ∧ textOfEvents render evs <+: c.sent := by
    intro sw hb
    have h0 : Flushed net {} (textOfEvents render ([] : List (Event F))) := ⟨⟨List.prefix_refl _, fun _ => rfl, fun _ => by simp, rfl⟩, fun _ => ⟨rfl, rfl⟩⟩
    obtain ⟨w', b', evs', res, h1, h2, -, h4⟩ := netVisit_sim env net render sw before w0 {} [] h0
    rw [hb] at h2
    cases h2
    refine ⟨_, _, _, by simp only [netExport, if_true]; rfl, ?_⟩
    simp only [each, hl]
    rw [visit_append, h1]
    dsimp only
    rw [← ((h4 rfl).sent hn).2]
    exact netVisit_mono env net render sw rest _ _
  cases x with
  | graphite c => exact key _ hb
  | openTSDB c => exact key _ hb

/-! ### Examples and refutation -/

/-- A counter "c" of value 3 and a gauge "g". -/
def netHistory : List (Env F64 × Op F64) :=
  [(envAt 0, .new .counter), (envAt 0, .new .gauge), (envAt 1, .call 0 (.inc 3)), (envAt 1, .reg (.std 0) (.register (bytes "c") (.obj 0))), (envAt 1, .reg (.std 0) (.register (bytes "g") (.obj 1)))]

/-- Digits of numbers as a question mark. -/
def netRender : List (Piece (Field F64)) → Str := fun l => l.map fun
  | .byte b => b
  | _ => 63

def netConfig : GraphiteConfig F64 := { durationUnit := 1, pre := bytes "p", percentiles := [], now := 7, formatFloat := fun _ => bytes "50" }

noncomputable def netSent (net : Net) : Option (Str × Nat × Bool) :=
  match graphiteNet (envAt 2) true net netRender netConfig (.std 0) (World.init.run netHistory) with
  | (_, some c, .ok e) => some (c.sent, c.closed, e.isNone)
  | _ => none

example : netSent (fun _ => none) = some (bytes "p.c.count ? ?\np.g.value ? ?\n", 1, true) ∨ netSent (fun _ => none) = some (bytes "p.g.value ? ?\np.c.count ? ?\n", 1, true) := by decide +kernel

-- The network fails within the second metric.
example : netSent (fun n => if n = 1 then some 3 else none) = some (bytes "p.c.count ? ?\np.g", 1, true) ∨ netSent (fun n => if n = 1 then some 3 else none) = some (bytes "p.g.value ? ?\np.c", 1, true) := by
  decide +kernel

/-- **C78, refuted: nil means delivered.** The first write fails, nothing arrives, `GraphiteOnce` returns nil. -/
theorem C78_refuted : ∃ (net : Net) (render : List (Piece (Field F64)) → Str) (w w' : World F64) (evs : List (Event F64)) (c : Conn),
    graphiteOnce (envAt 2) netConfig (.std 0) w = ((w', evs), .ok ()) ∧ textOfEvents render evs ≠ [] ∧ graphiteNet (envAt 2) true net render netConfig (.std 0) w = (w', some c, .ok none) ∧ c.sent = [] := by
  have h1 : (match graphiteOnce (envAt 2) netConfig (.std 0) (World.init.run netHistory : World F64) with
    | ((_, evs), .ok _) => decide (textOfEvents netRender evs ≠ [])
    | _ => false) = true := by decide +kernel
  have h2 : netSent (fun _ => some 0) = some ([], 1, true) := by decide +kernel
  rcases hg : graphiteOnce (envAt 2) netConfig (.std 0) (World.init.run netHistory : World F64) with ⟨⟨w', evs⟩, res⟩
  rw [hg] at h1
  cases res with
  | error p => cases h1
  | ok u =>
    obtain ⟨c, hc, -, -⟩ := C78_prefix (.graphite netConfig) (envAt 2) (fun _ => some 0) netRender (.std 0) (World.init.run netHistory) w' evs (.ok ()) hg
    replace hc : graphiteNet (envAt 2) true (fun _ => some 0) netRender netConfig (.std 0) (World.init.run netHistory : World F64) = (w', some c, .ok none) := hc
    refine ⟨fun _ => some 0, netRender, World.init.run netHistory, w', evs, c, hg, of_decide_eq_true h1, hc, ?_⟩
    unfold netSent at h2
    rw [hc] at h2
    simp only [Option.some.injEq, Prod.mk.injEq] at h2
    exact h2.1

end GoMetrics
