import Verif.Lemmas.WorldProgram
import Verif.Lemmas.WorldSafe
import Verif.Props.SampleConc

/-! Property theorems C97: concurrent programs that use many metrics behave as if the calls were made one at a time. -/

namespace GoMetrics
open Spec

/-- **C97, locality** (Herlihy & Wing). Goroutines make calls, one at a time, on objects of any types. If the events on every single object can be explained by calls made one at a time, so can all events together. -/
theorem C97_locality {Op R ι : Type} [DecidableEq ι] {σ Op' R' : ι → Type} (key : Op → ι) (ρ : ∀ k, Op → Op' k → Prop) (g : ∀ k, Op → R' k → R) (S : ∀ k, σ k → Op' k → R' k → σ k → Prop)
    (s0 : ∀ k, σ k) (h : List (HEv Op R)) (hone : OneCall (fun _ => none) h)
    (hk : ∀ k, ∃ hk, List.Forall₂ (SameEv (ρ k) (g k)) (part key k h) hk ∧ Linearizable (S k) (s0 k) hk) : Linearizable (Together key ρ g S) s0 h :=
  linearizable_together hone hk

variable {F : Type} [GoFloat F] [GoSqrt F] [GoExp F]

/-- **C97.** After any history `past` of the program, goroutines use counters, gauges, samples and histograms concurrently. What they see is what they would see if the calls were made one at a time,
in an order in which a call that has returned comes before those invoked later, in the model of the whole library (`step`, about which the other theorems are). -/
theorem C97_program (past : List (Env F × Op F)) {sorter : Nat → MemProg Unit} (hs : SortsInPlace sorter) {h : List (HEv (Ref × Call F) (Seen F))}
    (hp : ProgramHistory sorter (World.init.run past) h) : Linearizable WorldCall (World.init.run past) h :=
  program_linearizable hs (run_ok past) hp

/-- A uniform sample (object 0) with a histogram on it (1), and a counter (2). -/
def progPast : List (Env F64 × Op F64) := [(envAt 0, .new (.uniform 2)), (envAt 0, .new (.hist 0)), (envAt 0, .new .counter)]

/-- Two goroutines: the first updates the histogram and increments the counter, the second the other way round, then it asks both. -/
def progHist : List (HEv (Ref × Call F64) (Seen F64)) :=
  [.inv 1 (1, .update 5), .inv 2 (2, .inc 2), .ret 2 (2, .inc 2) .unit, .inv 2 (1, .update 6), .ret 1 (1, .update 5) .unit, .inv 1 (2, .inc 1), .ret 2 (1, .update 6) .unit, .inv 2 (2, .count),
    .ret 2 (2, .count) (.int 2), .ret 1 (2, .inc 1) .unit, .inv 1 (1, .snapshot), .inv 2 (2, .count), .ret 1 (1, .snapshot) (.snap 2 [6, 5]), .ret 2 (2, .count) (.int 3)]

/-- Goroutine 2 gets the mutex of the sample first. -/
def progSample : List (Nat × BodyIn (SampleCall F64) Nat) :=
  [(1, .call (.update 5)), (2, .call (.update 6))] ++ bodySteps 2 6 ++ bodySteps 1 7 ++ [(2, .step), (1, .call .snapshot)] ++ bodySteps 1 7

def progSampleTrace : List (CEv (SampleCall F64) (SampleRes F64)) :=
  [.inv 1 (.update 5), .inv 2 (.update 6), .lin 2 (.update 6) .unit, .lin 1 (.update 5) .unit, .ret 1 (.update 5) .unit, .ret 2 (.update 6) .unit, .inv 1 .snapshot, .lin 1 .snapshot (.snap 2 [6, 5]),
    .ret 1 .snapshot (.snap 2 [6, 5])]

/-- Goroutine 2 reads the counter before the increment of goroutine 1 is executed. -/
def progCounter : List (Nat × AtomIn CounterM) :=
  [(2, .call (.inc 2)), (2, .step), (2, .step), (1, .call (.inc 1)), (2, .call .count), (2, .step), (1, .step), (2, .step), (1, .step), (2, .call .count), (2, .step), (2, .step)]

def progCounterTrace : List (CEv CounterM AtomRes) :=
  [.inv 2 (.inc 2), .lin 2 (.inc 2) .unit, .ret 2 (.inc 2) .unit, .inv 1 (.inc 1), .inv 2 .count, .lin 2 .count (.int 2), .lin 1 (.inc 1) .unit, .ret 2 .count (.int 2), .ret 1 (.inc 1) .unit,
    .inv 2 .count, .lin 2 .count (.int 3), .ret 2 .count (.int 3)]

private theorem run_of_trace {S L I E : Type} {M : Machine S L I E} {s : S} {l : Nat → L} {sched : List (Nat × I)} {tr : List E} (h : (M.run s l sched).map (fun x => x.2.2) = some tr) :
    ∃ s' ls, M.run s l sched = some (s', ls, tr) := by
  cases hr : M.run s l sched with
  | none => rw [hr] at h; cases h
  | some x =>
    rw [hr] at h
    cases h
    exact ⟨_, _, rfl⟩

example : ProgramHistory sortProg (World.init.run progPast) progHist := by
  refine ⟨?_, ?_, ?_⟩
  · simp [progHist, OneCall, Function.update]
  · intro k
    match k with
    | 0 =>
      obtain ⟨s', ls, h⟩ := run_of_trace (M := bodyMachine (uniformBody (F := F64) sortProg)) (s := ⟨none, ⟨0, 2, []⟩⟩) (l := fun _ => .idle) (sched := progSample) (tr := progSampleTrace) (by decide +kernel)
      refine ⟨progSample, s', ls, progSampleTrace, h, ?_⟩
      exact .cons (.inv rfl) (.cons (.inv rfl) (.cons (.ret (r' := SampleRes.unit) rfl) (.cons (.ret (r' := SampleRes.unit) rfl) (.cons (.inv rfl) (.cons (.ret (r' := SampleRes.snap 2 [6, 5]) rfl) .nil)))))
    | 1 => rfl
    | 2 =>
      obtain ⟨s', ls, h⟩ := run_of_trace (M := atomMachine counterDo) (s := ⟨0⟩) (l := fun _ => .idle) (sched := progCounter) (tr := progCounterTrace) (by decide +kernel)
      refine ⟨progCounter, s', ls, progCounterTrace, h, ?_⟩
      exact .cons (.inv rfl) (.cons (.ret (r' := AtomRes.unit) rfl) (.cons (.inv rfl) (.cons (.inv rfl) (.cons (.ret (r' := AtomRes.int 2) rfl) (.cons (.ret (r' := AtomRes.unit) rfl)
        (.cons (.inv rfl) (.cons (.ret (r' := AtomRes.int 3) rfl) .nil)))))))
    | n + 3 => rfl
  · simp [progHist, evOp, ofHist]

end GoMetrics
