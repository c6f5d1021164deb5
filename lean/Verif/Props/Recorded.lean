import Verif.Lemmas.Recorded
import Verif.Props.Stats
import Verif.Props.Snapshot

/-! Property theorems C126 (what was recorded and what is reported). -/

set_option linter.unusedSectionVars false

namespace GoMetrics
open Spec Recorded

section
variable {F : Type} [GoFloat F] [GoSqrt F] [GoExp F]
variable (h0 : List (Env F × Op F)) (env0 : Env F) (o : Op F) {s : Ref} {k : Nat} (hm : Makes (World.init.run h0) env0 o s k) (later : List (Env F × Op F))
include hm

private theorem holds : Holds k (book (step env0 o (World.init.run h0)).1 s [] later) ((World.init.run (h0 ++ (env0, o) :: later)).objs s) := by
  rw [World.run_append]
  exact run_holds hm.pos ((run_ok h0).step env0 o).1 (made (run_ok h0) hm) later

/-- C126: whatever the program does, a sample holds only values that were recorded in it since it was made or cleared, whether with it, with a
histogram or with a timer, and as many of them as there is room for. -/
theorem C126_holds (env : Env F) :
    let w := World.init.run (h0 ++ (env0, o) :: later)
    let g := book (step env0 o (World.init.run h0)).1 s [] later
    (contents w env s).Subperm g ∧ (contents w env s).length = min g.length k := by
  intro w g
  obtain ⟨y, -, -, -, -, hv, hl, hs⟩ := (holds h0 env0 o hm later).vals
  rw [hv env]
  exact ⟨hs, hl⟩

/-- C126: `Count()` of the sample, and of every histogram and timer that records in it, is the number of values recorded. -/
theorem C126_count (env : Env F) (x : Ref) (hx : recordsIn (World.init.run (h0 ++ (env0, o) :: later)) x = some s) :
    observe (World.init.run (h0 ++ (env0, o) :: later)) env x .count = .ok (.int (Int64.ofNat (book (step env0 o (World.init.run h0)).1 s [] later).length)) := by
  obtain ⟨y, hy, -, hc, -⟩ := (holds h0 env0 o hm later).vals
  rw [records_read hy hx env _ (.inl rfl), hc]

/-- C126: until more is recorded than there is room for, every statistic but `Variance` and `StdDev` that the sample, or a histogram or timer
recording in it, reports is that of all the values recorded: the result of `SampleMax`, `SampleMean`, `SampleMin`, `SampleSum`,
`SamplePercentile` or `SamplePercentiles` for the list of them. -/
theorem C126_stats (hfit : (book (step env0 o (World.init.run h0)).1 s [] later).length ≤ k) (env : Env F) (x : Ref)
    (hx : recordsIn (World.init.run (h0 ++ (env0, o) :: later)) x = some s) (c : StatCall F) (hc : orderFree (.stat c) = true) :
    observe (World.init.run (h0 ++ (env0, o) :: later)) env x (.stat c) = statOf (book (step env0 o (World.init.run h0)).1 s [] later) c := by
  obtain ⟨y, hy, -, -, hst, -, hl, hs⟩ := (holds h0 env0 o hm later).vals
  rw [records_read hy hx env _ (.inr ⟨c, rfl⟩), hst]
  exact statOf_perm (hs.perm_of_length_le (by omega)) c hc

/-- C126: also beyond that, what is reported as `Max()` and `Min()` was recorded, `Max()` is not above the largest and `Min()` not below the
smallest value recorded, and `Min()` is at most `Max()`. -/
theorem C126_extremes (env : Env F) (x : Ref) (hx : recordsIn (World.init.run (h0 ++ (env0, o) :: later)) x = some s)
    (hne : book (step env0 o (World.init.run h0)).1 s [] later ≠ []) :
    ∃ a b, observe (World.init.run (h0 ++ (env0, o) :: later)) env x (.stat .min) = .ok (.int a) ∧
      observe (World.init.run (h0 ++ (env0, o) :: later)) env x (.stat .max) = .ok (.int b) ∧
      a ∈ book (step env0 o (World.init.run h0)).1 s [] later ∧ b ∈ book (step env0 o (World.init.run h0)).1 s [] later ∧ a.toInt ≤ b.toInt ∧
      ((book (step env0 o (World.init.run h0)).1 s [] later).length ≤ k →
        ∀ v ∈ book (step env0 o (World.init.run h0)).1 s [] later, a.toInt ≤ v.toInt ∧ v.toInt ≤ b.toInt) := by
  obtain ⟨y, hy, -, -, hst, -, hl, hs⟩ := (holds h0 env0 o hm later).vals
  have hpos := List.length_pos_of_ne_nil hne
  have hk := hm.pos
  have hv : sampleVals (World.init.run (h0 ++ (env0, o) :: later)) y ≠ [] := by
    apply List.ne_nil_of_length_pos
    omega
  obtain ⟨m1, m2⟩ := C10_min _ hv
  obtain ⟨m3, m4⟩ := C10_max _ hv
  refine ⟨_, _, ?_, ?_, hs.subset m1, hs.subset m3, m2 _ m3, fun hfit v hmem => ?_⟩
  · rw [records_read hy hx env _ (.inr ⟨.min, rfl⟩), hst]; rfl
  · rw [records_read hy hx env _ (.inr ⟨.max, rfl⟩), hst]; rfl
  · have hp := (hs.perm_of_length_le (by omega)).mem_iff.2 hmem
    exact ⟨m2 v hp, m4 v hp⟩

/-- C126: `Sum()` is the sum of all the values recorded, wrapped to int64. -/
theorem C126_sum (hfit : (book (step env0 o (World.init.run h0)).1 s [] later).length ≤ k) (env : Env F) (x : Ref)
    (hx : recordsIn (World.init.run (h0 ++ (env0, o) :: later)) x = some s) :
    ∃ t, observe (World.init.run (h0 ++ (env0, o) :: later)) env x (.stat .sum) = .ok (.int t) ∧
      t.toInt = wrap64 (total (book (step env0 o (World.init.run h0)).1 s [] later)) :=
  ⟨_, C126_stats h0 env0 o hm later hfit env x hx .sum rfl, C11_sum_wraps _⟩

/-- C126: a snapshot of the sample, or of a histogram or timer recording in it, keeps on reporting the statistics of the values recorded until
it was taken, whatever is recorded later. -/
theorem C126_snapshot (hfit : (book (step env0 o (World.init.run h0)).1 s [] later).length ≤ k) (env : Env F) (x q : Ref)
    (hx : recordsIn (World.init.run (h0 ++ (env0, o) :: later)) x = some s) (w1 : World F)
    (hq : call env x .snapshot (World.init.run (h0 ++ (env0, o) :: later)) = (w1, .ok (.ref q))) (afterwards : List (Env F × Op F)) (env' : Env F) :
    observe (w1.run afterwards) env' q .count = .ok (.int (Int64.ofNat (book (step env0 o (World.init.run h0)).1 s [] later).length)) ∧
    ∀ c, orderFree (.stat c) = true → observe (w1.run afterwards) env' q (.stat c) = statOf (book (step env0 o (World.init.run h0)).1 s [] later) c := by
  obtain ⟨y, hy, hsn, -⟩ := (holds h0 env0 o hm later).vals
  have ho := records_owns hy hsn hx
  refine ⟨?_, fun c hc => ?_⟩
  · rw [C03_frozen_partial _ env x q w1 hq ho afterwards env' .count rfl, C126_count h0 env0 o hm later env x hx]
  · rw [C03_frozen_partial _ env x q w1 hq ho afterwards env' _ hc, C126_stats h0 env0 o hm later hfit env x hx c hc]

end

section exact
variable {K : Type} [_root_.Field K] [LinearOrder K] [IsStrictOrderedRing K] [FloorRing K] [GoSqrt K] [GoExp K]
variable (h0 : List (Env K × Op K)) (env0 : Env K) (o : Op K) {s : Ref} {k : Nat} (hm : Makes (World.init.run h0) env0 o s k) (later : List (Env K × Op K))
include hm

/-- C126 for `Variance` and `StdDev`, too, in exact arithmetic (in float64 they depend on the order of the values). -/
theorem C126_stats_exact (hfit : (book (step env0 o (World.init.run h0)).1 s [] later).length ≤ k) (env : Env K) (x : Ref)
    (hx : recordsIn (World.init.run (h0 ++ (env0, o) :: later)) x = some s) (c : StatCall K) :
    observe (World.init.run (h0 ++ (env0, o) :: later)) env x (.stat c) = statOf (book (step env0 o (World.init.run h0)).1 s [] later) c := by
  obtain ⟨y, hy, -, -, hst, -, hl, hs⟩ := (holds h0 env0 o hm later).vals
  rw [records_read hy hx env _ (.inr ⟨c, rfl⟩), hst]
  exact (readOK_exact (c := .stat c) rfl).2 c rfl _ _ (hs.perm_of_length_le (by omega))

/-- C126: so a percentile is the interpolation between the values next to rank p(n+1) among all the n values recorded, in order `xs`. -/
theorem C126_percentile (hfit : (book (step env0 o (World.init.run h0)).1 s [] later).length ≤ k) (env : Env K) (x : Ref)
    (hx : recordsIn (World.init.run (h0 ++ (env0, o) :: later)) x = some s) (xs : List Int64)
    (hxs : SortedOf xs (book (step env0 o (World.init.run h0)).1 s [] later)) (hn : 0 < xs.length) (p : K) :
    (p * (xs.length + 1) < 1 → observe (World.init.run (h0 ++ (env0, o) :: later)) env x (.stat (.percentile p)) = .ok (.float (xs[0].toInt : K))) ∧
    ((xs.length : K) ≤ p * (xs.length + 1) →
      observe (World.init.run (h0 ++ (env0, o) :: later)) env x (.stat (.percentile p)) = .ok (.float (xs[xs.length - 1].toInt : K))) ∧
    (∀ (j : Nat) (_ : 1 ≤ j) (_ : j < xs.length), (j : K) ≤ p * (xs.length + 1) → p * (xs.length + 1) < j + 1 →
      observe (World.init.run (h0 ++ (env0, o) :: later)) env x (.stat (.percentile p)) =
        .ok (.float ((xs[j - 1].toInt : K) + (p * (xs.length + 1) - j) * ((xs[j].toInt : K) - xs[j - 1].toInt)))) := by
  rw [C126_stats_exact h0 env0 o hm later hfit env x hx]
  obtain ⟨h1, h2, h3⟩ := C16_rank_interpolation _ xs hxs hn p
  refine ⟨fun h => ?_, fun h => ?_, fun j a b h h' => ?_⟩
  · obtain ⟨ws, e⟩ := h1 h; simp only [statOf, e]; rfl
  · obtain ⟨ws, e⟩ := h2 h; simp only [statOf, e]; rfl
  · obtain ⟨ws, e⟩ := h3 j a b h h'; simp only [statOf, e]; rfl

end exact

/-! A uniform sample of size 3, used directly, by a histogram and by a timer on that histogram; cleared in between, with percentile reads, and
with another program part in the same store. -/

private def before : List (Env F64 × Op F64) := [(envAt 0, .new .counter)]
private def later : List (Env F64 × Op F64) :=
  [(envAt 1, .new (.hist 1)), (envAt 2, .call 2 (.update 50)), (envAt 3, .call 1 .clear), (envAt 3, .new .meter), (envAt 4, .new (.customTimer 2 3)),
   (envAt 5, .call 2 (.update 9)), (envAt 6, .call 0 (.inc 8)), (envAt 7, .call 4 (.updateSince 3)), (envAt 8, .call 1 (.stat (.percentile (GoFloat.lit (1 / 2))))), (envAt 9, .call 1 (.update (-6)))]

example : Makes (World.init.run before) (envAt 0) (.new (.uniform 3)) 1 3 :=
  ⟨by decide, ⟨_, .inl rfl, rfl⟩, rfl, _, rfl, by simp⟩
example : book (step (envAt 0) (.new (.uniform 3)) (World.init.run before)).1 1 [] later = [9, 4, -6] := by decide +kernel
example : recordsIn (World.init.run (before ++ (envAt 0, .new (.uniform 3)) :: later)) 4 = some 1 ∧
    recordsIn (World.init.run (before ++ (envAt 0, .new (.uniform 3)) :: later)) 2 = some 1 := ⟨by decide +kernel, by decide +kernel⟩
example : intOf (observe (World.init.run (before ++ (envAt 0, .new (.uniform 3)) :: later)) (envAt 9) 4 (.stat .sum)) = some 7 := by decide +kernel

/-- A timer made by `GetOrRegister`: its sample (object 0) has a reservoir of 1028. -/
example : Makes (World.init : World F64) (envAt 0) (.reg (.std 0) (.getOrRegister [116] (.ctor .timer))) 0 1028 :=
  ⟨by decide, ⟨_, .inr ⟨_, _, rfl⟩, rfl⟩, rfl, _, rfl, fun h => nomatch h⟩

/-- Why there must be room: a sample of size 1 in which 9 and then 3 are recorded reports the maximum 3. -/
example : Makes (World.init : World F64) (envAt 0) (.new (.uniform 1)) 0 1 ∧
    book (step (envAt 0) (.new (.uniform 1)) (World.init : World F64)).1 0 [] [(envAt 1, .call 0 (.update 9)), (envAt 2, .call 0 (.update 3))] = [9, 3] ∧
    intOf (observe (World.init.run [(envAt 0, .new (.uniform 1)), (envAt 1, .call 0 (.update 9)), (envAt 2, .call 0 (.update 3))] : World F64) (envAt 3) 0 (.stat .max)) = some 3 :=
  ⟨⟨by decide, ⟨_, .inl rfl, rfl⟩, rfl, _, rfl, fun h => nomatch h⟩, by decide +kernel, by decide +kernel⟩

end GoMetrics
