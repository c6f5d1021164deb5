import Verif.Lemmas.StatHat
import Verif.Go.F64

/-! C120: what StatHat shows for a count. The full claim, "after the last report the StatHat counter of a metric shows its `Count()`", is false (`C120_refuted`). -/

namespace GoMetrics
open Spec

variable {F : Type} [GoFloat F] [GoSqrt F] [GoExp F]

section
variable {key : Str} {g : Reg} {id : Nat} {stat : Str} {r : Ref} {rounds : List (ShRound F)} {w' : World F} {out : List (Event F)}
  (hb : base g = some id) (h : stathatRun key g rounds World.init [] = ((w', out), none))
  (hr : ∀ x ∈ reports key g rounds World.init, Feeds x.1 g stat r ∧ ∀ r', Feeds x.1 g stat r' → r' = r)
include hb h hr

/-- C120: whatever the program does before and between the reports, if one metric feeds the StatHat counter, the counter shows the sum of what `Count()` was at each report so far. (Missing for the full
claim: it is not the last of these numbers.) -/
theorem C120_total_partial : statTotal stat key out = ((reports key g rounds World.init).map fun x => countOf x.1 x.2 r).sum := by
  rw [StatHat.total_run hb stat r rounds World.Ok.init h hr]
  simp [statTotal]

/-- C120: so what was counted between two reports is counted once more with every later report. -/
theorem C120_again : statTotal stat key out = countedAgain 0 ((reports key g rounds World.init).map fun x => countOf x.1 x.2 r) := by
  rw [C120_total_partial hb h hr, StatHat.again_sum, zero_mul, sub_zero]

/-- C120: the counter shows what the metric counted exactly if the earlier reports add up to nothing, as they do if there are none. -/
theorem C120_right {a : List Int} {c : Int} (hc : (reports key g rounds World.init).map (fun x => countOf x.1 x.2 r) = a ++ [c]) : statTotal stat key out = c ↔ a.sum = 0 := by
  rw [C120_total_partial hb h hr, hc, List.sum_append, List.sum_singleton]
  omega

end

/-- C120: a StatHat counter that no metric feeds at a report gets nothing from it. -/
theorem C120_nothing (h : List (Env F × Op F)) {env : Env F} {key : Str} {g : Reg} {id : Nat} (hb : base g = some id) {w' : World F} {out : List (Event F)} {stat : Str}
    (hs : stathatOnce env key g (World.init.run h) = ((w', out), .ok ())) (hn : ∀ r, ¬ Feeds (World.init.run h) g stat r) : statTotal stat key out = 0 :=
  (StatHat.round (run_ok h) hb hs stat).2.2 hn

private theorem run_panic {key : Str} {g : Reg} {x : ShRound F} {rest : List (ShRound F)} {w' : World F} {new : List (Event F)} {p : Panic} : ∀ (rounds : List (ShRound F)) (w0 w : World F) (out0 out : List (Event F)),
    stathatRun key g rounds w0 out0 = ((w, out), none) → stathatOnce x.env key g (w.run x.before) = ((w', new), .error p) →
    stathatRun key g (rounds ++ x :: rest) w0 out0 = ((w', out ++ new), some p) := by
  intro rounds
  induction rounds with
  | nil =>
    intro w0 w out0 out h hp
    simp only [stathatRun, Prod.mk.injEq, and_true] at h
    obtain ⟨rfl, rfl⟩ := h
    simp only [List.nil_append, stathatRun, hp]
  | cons y rounds ih =>
    intro w0 w out0 out h hp
    rw [List.cons_append]
    unfold stathatRun at h ⊢
    split at h
    · exact ih _ _ _ _ h hp
    · simp at h

/-- C120: a report that panics (`Snapshot()` of a histogram over a `NilSample` does) is the last one, and what it posted before is added to the sum of the counts at the earlier reports. -/
theorem C120_panic {key : Str} {g : Reg} {id : Nat} {stat : Str} {r : Ref} {rounds : List (ShRound F)} {w w' : World F} {out new : List (Event F)} {x : ShRound F} (rest : List (ShRound F)) {p : Panic}
    (hb : base g = some id) (h : stathatRun key g rounds World.init [] = ((w, out), none))
    (hr : ∀ y ∈ reports key g rounds World.init, Feeds y.1 g stat r ∧ ∀ r', Feeds y.1 g stat r' → r' = r) (hp : stathatOnce x.env key g (w.run x.before) = ((w', new), .error p)) :
    (stathatRun key g (rounds ++ x :: rest) World.init []).2 = some p ∧
    statTotal stat key (stathatRun key g (rounds ++ x :: rest) World.init []).1.2 = ((reports key g rounds World.init).map fun y => countOf y.1 y.2 r).sum + statTotal stat key new := by
  rw [run_panic rounds _ _ _ _ h hp]
  refine ⟨rfl, ?_⟩
  rw [StatHat.total_append, C120_total_partial hb h hr]

/-- A counter "b" that counted 1, and then a histogram "a" over a `NilSample`: the first report posts 1, the second posts 1 and panics. -/
private def panicking : List (ShRound F) :=
  [{ before := [(envAt 0, .new .counter), (envAt 0, .reg defaultRegistry (.register [98] (.obj 0))), (envAt 1, .call 0 (.inc 1))], env := envAt 2 },
   { before := [(envAt 2, .setNil true), (envAt 2, .new (.uniform 4)), (envAt 2, .setNil false), (envAt 2, .new (.hist 1)), (envAt 2, .reg defaultRegistry (.register [97] (.obj 2)))],
     env := { envAt 3 with order := List.reverse, order_perm := List.reverse_perm } }]
example : (stathatRun [] defaultRegistry panicking (World.init : World F64) []).2.isSome = true ∧
    statTotal [98] [] (stathatRun [] defaultRegistry panicking (World.init : World F64) []).1.2 = 2 := by decide +kernel

/-! One event, two reports. -/

/-- A counter is made, registered and incremented; a report; a second report. -/
def shRounds : List (ShRound F) :=
  [{ before := [(envAt 0, .new .counter), (envAt 0, .reg defaultRegistry (.register [97] (.obj 0))), (envAt 1, .call 0 (.inc 1))], env := envAt 2 }, { before := [], env := envAt 3 }]

/-- C120 is false: one event, and StatHat shows two. -/
theorem C120_refuted : (stathatRun [] defaultRegistry shRounds (World.init : World F64) []).2 = none ∧
    statTotal [97] [] (stathatRun [] defaultRegistry shRounds (World.init : World F64) []).1.2 = 2 ∧
    countOf (stathatRun [] defaultRegistry shRounds (World.init : World F64) []).1.1 (envAt 4) 0 = 1 := by
  refine ⟨?_, ?_, ?_⟩
  · have : ((stathatRun [] defaultRegistry shRounds (World.init : World F64) []).2.isNone) = true := by decide +kernel
    exact Option.isNone_iff_eq_none.1 this
  · decide +kernel
  · decide +kernel

/-- The hypotheses of the theorems hold in this case. -/
example : ∀ x ∈ reports [] defaultRegistry shRounds (World.init : World F64), Feeds x.1 defaultRegistry [97] 0 ∧ ∀ r', Feeds x.1 defaultRegistry [97] r' → r' = 0 := by
  have h : ∀ x ∈ reports [] defaultRegistry shRounds (World.init : World F64), x.1.regs 0 = [([97], 0)] ∧ ∃ c, x.1.objs 0 = some (.counter c) := by
    intro x hx
    simp only [reports, shRounds, List.mem_cons, List.not_mem_nil, or_false] at hx
    rcases hx with rfl | rfl <;> exact ⟨rfl, _, rfl⟩
  intro x hx
  obtain ⟨h1, c, h2⟩ := h x hx
  have hg : ∀ n q, gets x.1 0 n = some q → n = [97] ∧ q = 0 := by
    intro n q hq
    rw [gets_eq, h1] at hq
    have := lookup_some_mem hq
    simp only [List.mem_singleton, Prod.mk.injEq] at this
    exact this
  refine ⟨⟨0, [97], .counter c, rfl, ?_, List.nil_prefix, h2, rfl⟩, ?_⟩
  · rw [gets_eq, h1]; rfl
  · rintro r' ⟨i, n, o, hi, hn, -⟩
    cases hi
    exact (hg n r' hn).2

end GoMetrics
