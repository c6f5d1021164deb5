import Verif.Lemmas.WaitFree
import Verif.Model.TimerConc
import Verif.Go.F64

/-!
C109: the calls by which a program counts never wait.

`Inc`, `Dec`, `Clear`, `Count` of a counter, `Update` and `Value` of gauges, `Update` and `Rate` of a moving average, `Mark`, `Count` and `Snapshot` of a meter use no lock and no
retry loop: whatever other goroutines do, also if they are suspended in the middle of a call on the same metric, a call returns after a fixed number of its own steps.
`Tick` of a moving average and `Update` of a timer do not have this property.
-/

namespace GoMetrics
open Spec
variable {F : Type} [GoFloat F]

/-- **C109, counters.** No call on a counter waits: one instruction, and the return. -/
theorem C109_counter (c : StandardCounter) (o : CounterM) : NeverWaits (atomMachine counterDo) id c (fun _ => .idle) .step o 2 := by
  have e : (fun tr : List (CEv CounterM AtomRes) => tr.filterMap some) = id := by funext tr; simp
  exact e ▸ atom_neverWaits counterDo c o

/-- **C109, gauges.** -/
theorem C109_gauge (x : Int64) (o : GaugeM Int64) : NeverWaits (atomMachine gaugeDo) id x (fun _ => .idle) .step o 2 := by
  have e : (fun tr : List (CEv (GaugeM Int64) AtomRes) => tr.filterMap some) = id := by funext tr; simp
  exact e ▸ atom_neverWaits gaugeDo x o

/-- **C109, float gauges.** -/
theorem C109_gaugeFloat (x : FloatBits) (o : GaugeM FloatBits) : NeverWaits (atomMachine gaugeFDo) id x (fun _ => .idle) .step o 2 := by
  have e : (fun tr : List (CEv (GaugeM FloatBits) AtomRes) => tr.filterMap some) = id := by funext tr; simp
  exact e ▸ atom_neverWaits gaugeFDo x o

/-- **C109, moving averages.** `Update` and `Rate` never wait, not even for a `Tick` that is under way and holds the average's mutex. -/
theorem C109_ewma (alpha : F) (go : EwmaCall) (n : Int64) :
    NeverWaits (ewmaMachine alpha) id .zero (fun _ => .idle) go (.update n) 2 ∧ NeverWaits (ewmaMachine alpha) id .zero (fun _ => .idle) go .rate 2 := by
  have e : (fun tr : List (CEv EwmaCall (EwmaRes F)) => tr.filterMap some) = id := by funext tr; simp
  exact ⟨e ▸ ewma_neverWaits alpha go (by simp), e ▸ ewma_neverWaits alpha go (by simp)⟩

/-- **C109, meters.** `Mark` never waits: it returns after at most 14 steps of its own (it reads `stopped`, adds to the count and to the three averages, reads and stores four rates, returns).
So do `Count` (2) and `Snapshot` (6). -/
theorem C109_meter (k : MConst F) (go : MIn) (n : Int64) :
    NeverWaits (meterMachine k) callsOf .zero (fun _ => .idle) go (.mark n) 14 ∧ NeverWaits (meterMachine k) callsOf .zero (fun _ => .idle) go .count 2 ∧
      NeverWaits (meterMachine k) callsOf .zero (fun _ => .idle) go .snapshot 6 :=
  ⟨meter_neverWaits k go (by simp), meter_neverWaits k go (by simp), meter_neverWaits k go (by simp)⟩

/-- The clock (goroutine 0) is suspended in the tick of a meter, with the mutex of the one-minute average taken; goroutine 1 starts to mark 3 events. -/
def tickHeld : List (Nat × MIn) := [(0, ⟨.tick, 0⟩), (0, ⟨.tick, 0⟩), (0, ⟨.tick, 0⟩), (1, ⟨.mark 3, 0⟩)]

/-- The hypotheses of C109 are met there. -/
example (k : MConst F64) : ∃ s ls tr, (meterMachine k).run .zero (fun _ => .idle) tickHeld = some (s, ls, tr) ∧ s.e1.locked = true ∧ InCall 1 (.mark 3) (callsOf tr) :=
  ⟨_, _, _, rfl, rfl, [.inv 0 .tick], [], rfl, by simp, by simp⟩

/-- **C109, what it does not say.** `Tick` of a moving average may wait for another `Tick` of the same average. -/
theorem C109_tick_refuted (alpha : F) : MayWait (ewmaMachine alpha) id .zero (fun _ => .idle) .tick :=
  ⟨[(0, .tick), (0, .tick), (0, .tick), (1, .tick), (1, .tick)], _, _, _, 1, rfl, ⟨[.inv 0 .tick], [], rfl, by simp, by simp⟩, fun _ => rfl⟩

/-- **C109, what it does not say.** `Update` and `Snapshot` of a timer may wait: for a goroutine that is suspended in an `Update` of the same timer. -/
theorem C109_timer_refuted {σ ρ : Type} (upd : σ → Int64 × ρ → σ) (s0 : σ) (d : Int64) :
    MayWait (timerMachine upd) id (.init s0) (fun _ => .idle) (.update d) ∧ MayWait (timerMachine upd) id (.init s0) (fun _ => .idle) .snapshot :=
  ⟨⟨[(0, .call (.update 1)), (0, .step), (1, .call (.update d))], _, _, _, 1, rfl, ⟨[.inv 0 (.update 1)], [], rfl, by simp, by simp⟩, fun i => by rcases i with (_ | _ | _ | _) | _ | _ <;> rfl⟩,
   ⟨[(0, .call (.update 1)), (0, .step), (1, .call .snapshot)], _, _, _, 1, rfl, ⟨[.inv 0 (.update 1)], [], rfl, by simp, by simp⟩, fun i => by rcases i with (_ | _ | _ | _) | _ | _ <;> rfl⟩⟩

end GoMetrics
