import Verif.Lemmas.SnapshotConc
import Verif.Go.F64

/-!
C77. A snapshot read by several goroutines.

A call run alone returns the statistic of the snapshot's values; `Percentile` and `Percentiles` leave the slice sorted. If the slice is sorted, or nobody calls `Percentile(s)`, then in every interleaving of any
number of calls the values never change and every call returns the statistic of the snapshot's values. Otherwise not: two concurrent `Percentile(s)` calls on the values 2, 1 can leave 2, 2, and from then
on the snapshot reports a minimum of 2 and a sum of 4.

All is proved for every sorting algorithm that sorts when run alone and does not write to a sorted slice; insertion sort is one.
-/

namespace GoMetrics
open Spec

variable {F : Type} [GoFloat F] [GoSqrt F]

/-- Insertion sort meets the contract. -/
theorem C77_insertionSort : SortsInPlace sortProg := sortProg_ok

/-- **C77, alone.** A call that nobody disturbs returns the statistic; afterwards the slice is sorted (`Percentiles`) or as before (all others). -/
theorem C77_alone {sorter : Nat → MemProg Unit} (hs : SortsInPlace sorter) (values : List Int64) (c : SnapCall F) (t : Nat) :
    ∃ n mem, (snapMachine F sorter).run values (fun _ => .idle) ((t, .call c) :: List.replicate n (t, .step)) = some (mem, fun _ => .idle, [.call t c, .ret t c (statOf values c)]) ∧
      ((∃ ps, c = .percentiles ps) → mem.Perm values ∧ mem.Pairwise (· ≤ ·)) ∧ ((∀ ps, c ≠ .percentiles ps) → mem = values) := by
  obtain ⟨n, hn⟩ := run_alone sorter t c (snapProg sorter values.length c) values _ _ (Function.update (fun _ => .idle) t (.run c (snapProg sorter values.length c))) (by simp) (snapProg_alone hs values c)
  refine ⟨n, memAfter values c, ?_, ?_, ?_⟩
  · simp only [snapMachine] at hn
    simp only [Machine.run, snapMachine, snapStep, hn]
    simp
  · rintro ⟨ps, rfl⟩
    exact ⟨sortInts_perm values, sortInts_sorted values⟩
  · intro h
    cases c with
    | percentiles ps => exact absurd rfl (h ps)
    | _ => rfl

/-- **C77, partial.** The values are sorted, or nobody asks for percentiles: whatever the interleaving, the values stay and every call returns the statistic of the values. -/
theorem C77_partial {sorter : Nat → MemProg Unit} (hs : SortsInPlace sorter) {values : List Int64} {sched mem ls tr}
    (hv : values.Pairwise (· ≤ ·) ∨ ∀ x ∈ sched, ∀ ps, x.2 ≠ .call (.percentiles ps))
    (h : (snapMachine F sorter).run values (fun _ => .idle) sched = some (mem, ls, tr)) : mem = values ∧ ∀ t c r, SnapEv.ret t c r ∈ tr → r = statOf values c :=
  have hi := calm_inv hs hv h
  ⟨hi.1, hi.2.2⟩

/-- **C77, progress.** In the same cases a call never blocks. -/
theorem C77_progress {sorter : Nat → MemProg Unit} (hs : SortsInPlace sorter) {values : List Int64} {sched mem ls tr}
    (hv : values.Pairwise (· ≤ ·) ∨ ∀ x ∈ sched, ∀ ps, x.2 ≠ .call (.percentiles ps))
    (h : (snapMachine F sorter).run values (fun _ => .idle) sched = some (mem, ls, tr)) (t : Nat) (ht : ls t ≠ .idle) :
    ∃ mem' ls' es, (snapMachine F sorter).run values (fun _ => .idle) (sched ++ [(t, .step)]) = some (mem', ls', tr ++ es) := by
  obtain ⟨⟨m', l', es⟩, hx⟩ := (calm_inv hs hv h).progress (sorter := sorter) ht
  refine ⟨m', Function.update ls t l', es, ?_⟩
  rw [(snapMachine F sorter).run_append, h]
  have hx' : (snapMachine F sorter).step t .step mem (ls t) = some (m', l', es) := hx
  simp [Machine.run, hx']

/-- The median. -/
def snapHalf : F64 := GoFloat.lit (1 / 2)

/-- Two interleaved medians of the sorted values 1, 2. -/
def snapCalmRun : List (Nat × SnapIn F64) :=
  [(1, .call (.percentiles [snapHalf])), (2, .call (.percentiles [snapHalf])), (1, .step), (2, .step), (2, .step), (1, .step), (1, .step), (1, .step), (2, .step), (2, .step), (2, .step), (1, .step)]

example : ([1, 2] : List Int64).Pairwise (· ≤ ·) := by decide

example : ((snapMachine F64 sortProg).run [1, 2] (fun _ => .idle) snapCalmRun).map (fun x => (x.1, x.2.2)) = some ([1, 2], [.call 1 (.percentiles [snapHalf]), .call 2 (.percentiles [snapHalf]),
    .ret 2 (.percentiles [snapHalf]) (.floats (.ok [GoFloat.lit (3 / 2)])), .ret 1 (.percentiles [snapHalf]) (.floats (.ok [GoFloat.lit (3 / 2)]))]) := by decide +kernel

/-- Goroutines 1 and 2 ask for the median of the values 2, 1; both find `1 < 2` and swap. Goroutine 3 then asks for the minimum and the sum. -/
def snapRace : List (Nat × SnapIn F64) :=
  [(1, .call (.percentiles [snapHalf])), (2, .call (.percentiles [snapHalf])), (1, .step), (1, .step), (2, .step), (2, .step), (1, .step), (1, .step), (1, .step), (2, .step), (2, .step),
    (2, .step), (1, .step), (2, .step), (1, .step), (1, .step), (1, .step), (2, .step), (2, .step), (2, .step), (3, .call .min), (3, .step), (3, .step), (3, .step), (3, .call .sum), (3, .step), (3, .step), (3, .step)]

/-- **C77, refuted in general.** Two concurrent calls of `Percentile(s)` destroy the value 1 of the snapshot for ever. -/
theorem C77_refuted : ∃ (sched : List (Nat × SnapIn F64)) (mem : List Int64) (ls : Nat → SnapL F64) (tr : List (SnapEv F64)),
    (snapMachine F64 sortProg).run [2, 1] (fun _ => .idle) sched = some (mem, ls, tr) ∧ mem = [2, 2] ∧ (∃ r, .ret 1 (.percentiles [snapHalf]) r ∈ tr) ∧ (∃ r, .ret 2 (.percentiles [snapHalf]) r ∈ tr) ∧
    .ret 3 .min (.int 2) ∈ tr ∧ .ret 3 .sum (.int 4) ∈ tr ∧ statOf [2, 1] (.min : SnapCall F64) = .int 1 ∧ statOf [2, 1] (.sum : SnapCall F64) = .int 3 := by
  obtain ⟨⟨mem, ls, tr⟩, hrun⟩ : ∃ x, (snapMachine F64 sortProg).run [2, 1] (fun _ => .idle) snapRace = some x := Option.isSome_iff_exists.1 (by decide +kernel)
  have hmt : ((snapMachine F64 sortProg).run [2, 1] (fun _ => .idle) snapRace).map (fun x => (x.1, x.2.2)) = some ([2, 2], [.call 1 (.percentiles [snapHalf]), .call 2 (.percentiles [snapHalf]),
      .ret 1 (.percentiles [snapHalf]) (.floats (.ok [GoFloat.lit 2])), .ret 2 (.percentiles [snapHalf]) (.floats (.ok [GoFloat.lit 2])), .call 3 .min, .ret 3 .min (.int 2), .call 3 .sum,
      .ret 3 .sum (.int 4)]) := by decide +kernel
  rw [hrun] at hmt
  simp only [Option.map_some, Option.some.injEq, Prod.mk.injEq] at hmt
  obtain ⟨hmem, htr⟩ := hmt
  exact ⟨snapRace, mem, ls, tr, hrun, hmem, ⟨_, by simp [htr]; rfl⟩, ⟨_, by simp [htr]; rfl⟩, by simp [htr], by simp [htr], by decide +kernel, by decide +kernel⟩

end GoMetrics
