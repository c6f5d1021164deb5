import Verif.Go.Basic
import Verif.Go.Conc
import Verif.Go.Machine
import Verif.Go.Time

/-!
One `StandardTimer` (timer.go:142-246) used by any number of goroutines: `Update`, `UpdateSince`, `Snapshot` (under the timer's mutex) and `Stop` (not under it).

The sample behind the histogram is of an arbitrary type `σ`; `upd` is its `Update`, which may use a random draw or the clock (`ρ`). A sample method is one step: it runs
under the sample's own mutex. The methods that only read (`Count`, `Max`, …) take no part in what follows. The meter is its count and its flag `stopped`
(its averages and rates do not matter here, and its tick does not change the count). `Time(f)` is a call of `f` followed by `Update` (timer.go:225-229).
-/

namespace GoMetrics

inductive TOp where
  | update (d : Int64)
  | updateSince (ts : Instant)
  | snapshot
  | stop
  deriving DecidableEq

/-- Results: nothing; a snapshot: of the histogram and the count of the meter. -/
inductive TRes (σ : Type) where
  | unit
  | snap (hist : σ) (count : Int64)
  deriving DecidableEq

inductive TFrame (σ ρ : Type) where
  | idle
  /-- timer.go:201, 233, 241: waiting for the mutex. -/
  | lock (o : TOp)
  /-- 204: about to take the snapshot of the histogram; 235, 243: about to update the histogram. -/
  | locked (o : TOp)
  /-- 236, 244, meter.go:161-163 `Mark`: about to test `stopped`; 165: about to add to the count (`e`: what has been recorded). -/
  | mark (o : TOp) (e : Int64 × ρ)
  | add (o : TOp)
  /-- timer.go:205: about to take the snapshot of the meter. -/
  | snapMeter (h : σ)
  /-- The deferred `Unlock`. -/
  | unlock (o : TOp) (r : TRes σ)
  /-- timer.go:216, meter.go:147: about to set `stopped`. -/
  | stop
  | ret (o : TOp) (r : TRes σ)

/-- What the environment decides: the next call; the clock and the random draws at an update of the sample. -/
inductive TIn (ρ : Type) where
  | call (o : TOp)
  | step
  | draw (now : Instant) (x : ρ)

structure TimerS (σ : Type) where
  mutex : Option Nat
  hist : σ
  count : Int64
  stopped : Bool

variable {σ ρ : Type}

/-- The duration recorded: timer.go:235 `d`; 243 `time.Since(ts)`. -/
def TOp.duration (now : Instant) : TOp → Option Int64
  | .update d => some d
  | .updateSince ts => some (Int64.ofInt (timeSub now ts))
  | _ => none

def timerStep (upd : σ → Int64 × ρ → σ) (t : Nat) : TIn ρ → TimerS σ → TFrame σ ρ → Option (TimerS σ × TFrame σ ρ × List (CEv TOp (TRes σ)))
  | .call .stop, s, .idle => some (s, .stop, [.inv t .stop])
  | .call o, s, .idle => some (s, .lock o, [.inv t o])
  | .step, s, .lock o => if s.mutex = none then some ({ s with mutex := some t }, .locked o, []) else none
  | .step, s, .locked .snapshot => some (s, .snapMeter s.hist, [])
  | .draw now x, s, .locked o => (o.duration now).map fun d => ({ s with hist := upd s.hist (d, x) }, .mark o (d, x), [])
  | .step, s, .mark o _ => some (s, if s.stopped then .unlock o .unit else .add o, [.lin t o .unit])
  | .step, s, .add o => some ({ s with count := s.count + 1 }, .unlock o .unit, [])
  | .step, s, .snapMeter h => some (s, .unlock .snapshot (.snap h s.count), [.lin t .snapshot (.snap h s.count)])
  | .step, s, .unlock o r => some ({ s with mutex := none }, .ret o r, [])
  | .step, s, .stop => some ({ s with stopped := true }, .ret .stop .unit, [.lin t .stop .unit])
  | .step, s, .ret o r => some (s, .idle, [.ret t o r])
  | _, _, _ => none

def timerMachine (upd : σ → Int64 × ρ → σ) : Machine (TimerS σ) (TFrame σ ρ) (TIn ρ) (CEv TOp (TRes σ)) := ⟨timerStep upd⟩

def TimerS.init (s0 : σ) : TimerS σ := ⟨none, s0, 0, false⟩

end GoMetrics
