import Verif.Lemmas.TimeShift
import Verif.Go.F64
import Verif.Spec.World

/-! C105: only differences of times matter. -/

set_option linter.unusedSectionVars false

namespace GoMetrics
open Spec Shift

variable {F : Type} [GoFloat F] [GoSqrt F] [GoExp F]

/-! ### C105 -/

/-- C105, results: if everything a program does happens `d` later (or earlier), and the instants it passes to `UpdateSince` are moved by the same amount, every call returns
exactly what it returned before, also for floating-point numbers. -/
theorem C105_results (d : Int) (l : List (Env F × Op F)) : results (World.init : World F) (historyLater d l) = results World.init l :=
  results_later l World.init

/-- C105, exports: the same for what the exporters write, log, send and post after such a history. The timestamps are arguments here (`GraphiteConfig.now`,
`OpenTSDBConfig.now`, `now` of `BuildRequest`): nothing else in an export depends on when it is made. -/
theorem C105_exports (d : Int) (l : List (Env F × Op F)) (env : Env F) (g : Reg) :
    let w := (World.init.run l : World F)
    let w' := (World.init.run (historyLater d l) : World F)
    let env' := envLater d env
    (∀ srt, (writeOnce env' srt g w').1.2 = (writeOnce env srt g w).1.2 ∧ (writeOnce env' srt g w').2 = (writeOnce env srt g w).2) ∧
    (∀ scale str, (logScaledOnce env' g scale str w').1.2 = (logScaledOnce env g scale str w).1.2 ∧ (logScaledOnce env' g scale str w').2 = (logScaledOnce env g scale str w).2) ∧
    ((syslogOnce env' g w').1.2 = (syslogOnce env g w).1.2 ∧ (syslogOnce env' g w').2 = (syslogOnce env g w).2) ∧
    (∀ c, (graphiteOnce env' c g w').1.2 = (graphiteOnce env c g w).1.2 ∧ (graphiteOnce env' c g w').2 = (graphiteOnce env c g w).2) ∧
    (∀ c, (openTSDBOnce env' c g w').1.2 = (openTSDBOnce env c g w).1.2 ∧ (openTSDBOnce env' c g w').2 = (openTSDBOnce env c g w).2) ∧
    (∀ key, (stathatOnce env' key g w').1.2 = (stathatOnce env key g w).1.2 ∧ (stathatOnce env' key g w').2 = (stathatOnce env key g w).2) ∧
    ((getAll env' g w').2 = (getAll env g w).2) ∧
    (∀ cfg now, (buildRequest env' cfg now g w').2 = (buildRequest env cfg now g w).2) := by
  intro w w' env'
  have hw : w' = later d w := run_later l World.init
  rw [hw]
  have hx : ∀ {sw : Obj F → Option (Case F)}, Blind sw →
      (each env' g (exportMetric env' sw) (later d w, [])).1.2 = (each env g (exportMetric env sw) (w, [])).1.2 ∧
      (each env' g (exportMetric env' sw) (later d w, [])).2 = (each env g (exportMetric env sw) (w, [])).2 := fun {sw} h => by
    rw [csh_each (csh_export env h) env g w []]; exact ⟨rfl, rfl⟩
  refine ⟨fun srt => ?_, fun scale str => hx (blind_log _ _), hx blind_syslog, fun c => hx (blind_graphite c), fun c => hx (blind_openTSDB c),
    fun key => hx (blind_stathat key), ?_, fun cfg now => ?_⟩
  · simp only [writeOnce, csh_each csh_collect env g w [], show each env' g collect (later d w, []) = _ from csh_each csh_collect env g w []]
    rcases each env g collect (w, []) with ⟨⟨w1, m⟩, p | _⟩
    · exact ⟨rfl, rfl⟩
    · dsimp only
      rw [show visit (exportMetric env' writerSwitch) (srt.sort m) (later d w1, []) = _ from csh_visit (csh_export env blind_writer) (srt.sort m) w1 []]
      exact ⟨rfl, rfl⟩
  · rw [show getAll env' g (later d w) = _ from (sh_getAll env g).eq w]
  · simp only [buildRequest, show each env' g (libratoCallback env' cfg) (later d w, ([], [])) = _ from csh_each (csh_librato env cfg) env g w ([], [])]
    split
    · rfl
    · rcases each env g (libratoCallback env cfg) (w, ([], [])) with ⟨⟨w1, m⟩, _ | _⟩ <;> rfl

/-! A history with a timer: creation at 1 s, `UpdateSince` of half a second at 3 s, `Update` at `t`, reads. -/

/-- The history, with the last update at `t`. -/
def shiftHistory (t : Int) : List (Env F × Op F) :=
  [(envAt 1000000000, .new (.uniform 10)), (envAt 1000000000, .new (.hist 0)), (envAt 1000000000, .new .meter), (envAt 1000000000, .new (.customTimer 1 2)),
   (envAt 3000000000, .call 3 (.updateSince 2500000000)), (envAt t, .call 3 (.updateD 7)),
   (envAt t, .call 3 .count), (envAt t, .call 3 (.stat .max)), (envAt t, .call 3 (.rates .rateMean))]

/-- The numbers among the results. -/
def numbers (l : List (Res (OpOut F))) : List Int64 × List F :=
  (l.filterMap fun | .ok (.out (.int n)) => some n | _ => none, l.filterMap fun | .ok (.out (.float x)) => some x | _ => none)

/-- Two updates, the larger of half a second, one update per second; the same when all happens 100 s earlier. -/
example : numbers (results World.init (shiftHistory (F := F64) 3000000000)) = ([2, 500000000], [GoFloat.lit 1]) := by decide +kernel
example : numbers (results World.init (historyLater (-100000000000) (shiftHistory (F := F64) 3000000000))) = ([2, 500000000], [GoFloat.lit 1]) := by
  rw [C105_results]; decide +kernel

/-- It is the differences that matter: with the last update 2 s later, the mean rate is a half. -/
example : numbers (results World.init (shiftHistory (F := F64) 5000000000)) = ([2, 500000000], [GoFloat.lit (1 / 2)]) := by decide +kernel

end GoMetrics
