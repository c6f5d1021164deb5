import Verif.Props.Librato
import Verif.Spec.LibratoMean

/-! Property theorems C121: the average which Librato shows for a histogram or a timer. Exact arithmetic. -/

set_option linter.unusedSectionVars false

namespace GoMetrics
open Spec

private theorem count_real {n : Int64} (h : 0 < n.toInt) : ((n.toUInt64.toNat : Nat) : ℝ) = (n.toInt : ℝ) := by
  have h0 : (0 : Int64) ≤ n := by
    rw [Int64.le_iff_toInt_le]
    show (0 : Int) ≤ _
    omega
  rw [Int64.toNat_toUInt64_of_le h0]
  have : ((n.toNatClampNeg : Nat) : Int) = n.toInt := by
    show ((n.toInt.toNat : Nat) : Int) = _
    omega
  exact_mod_cast congrArg (fun z : Int => (z : ℝ)) this

private theorem mean_real (vs : List Int64) (hne : vs ≠ []) (hs : SumFits vs) : (sampleMean vs : ℝ) = (total vs : ℝ) / vs.length := by
  rw [sampleMean, if_neg (by simpa using hne)]
  show ((sampleSum vs).toInt : ℝ) / (((vs.length : Nat) : Int) : ℝ) = _
  rw [C11_sum_exact vs hs]
  simp

section shown
variable (h : List (Env ℝ × Op ℝ)) (env : Env ℝ) (g : Reg) (id : Nat) (hb : base g = some id) (d now : Int64) (ns source : Str) (ps : List ℝ) (w' : World ℝ) (b : Batch ℝ)
  (hr : buildRequest env { newReporter d source ps with namesp := ns } now g (World.init.run h) = (w', .ok b)) (name : Str) (r : Ref) (o : Obj ℝ)
  (hg : gets (World.init.run h) id name = some r) (hp : (prefixes g).flatten <+: name) (ho : (World.init.run h).objs r = some o)
  (n : Int64) (hc : givesInt (World.init.run h) env r .count n) (hn : 0 < n.toInt)
include hb hr hg hp ho hc hn

private theorem block_of : ∃ cs gs, LibratoBlock (World.init.run h) env ps (libratoName ns name) r o cs gs ∧ ∀ m ∈ gs, m ∈ b.gauges := by
  obtain ⟨-, ⟨blocks, -, hgs, -, hm, hbl⟩, -, -⟩ := C67_batch_partial h env g id hb d now ns source ps w' b hr
  obtain ⟨⟨name', r', cs, gs⟩, hx, hname⟩ := List.mem_map.1 ((hm name).2 ⟨by rw [hg]; simp, hp⟩)
  simp only at hname
  subst hname
  obtain ⟨h1, o', h2, h3, -⟩ := hbl _ _ _ _ hx
  rw [hg] at h1
  cases h1
  rw [ho] at h2
  cases h2
  exact ⟨cs, gs, h3, fun m hmg => by rw [hgs]; exact List.mem_flatten.2 ⟨gs, List.mem_map.2 ⟨_, hx, rfl⟩, hmg⟩⟩

/-- C121, timers: the average which Librato shows for a timer that has counted something is `Mean()`, however many values the sample of the timer has dropped. -/
theorem C121_timer (hk : isTimer o = true) : ∃ m ∈ b.gauges, m.name = textOf (libratoName ns name ++ bytes ".timer.mean") ∧
    ∃ mean, gives (World.init.run h) env r (.stat .mean) mean ∧ shownMean m = some mean := by
  obtain ⟨cs, gs, h3, hin⟩ := block_of h env g id hb d now ns source ps w' b hr name r o hg hp ho n hc hn
  cases o <;> simp [isTimer] at hk
  obtain ⟨n', h4, -, -, h5⟩ := h3
  rw [givesInt] at hc h4
  rw [hc] at h4
  cases h4
  obtain ⟨gg, pcts, rs, s, mean, rfl, h6, h7, -, -, h8, h9, -⟩ := h5 hn
  refine ⟨gg, hin gg (by simp), h6.1, mean, h8, ?_⟩
  have hn' : (n.toInt : ℝ) ≠ 0 := by
    have : n.toInt ≠ 0 := by omega
    exact_mod_cast this
  rw [shownMean, h6.2.1, h6.2.2.1, h6.2.2.2.1, h7, h9]
  simp only [Option.some.injEq]
  rw [count_real hn]
  show mean * (n.toInt : ℝ) / (n.toInt : ℝ) = mean
  field_simp

private theorem hist_gauge (hk : isDistribution o = true) (ht : isTimer o = false) (vs : List Int64) (hv : recorded (World.init.run h) r = some vs) (hne : vs ≠ [])
    (hs : SumFits vs) : ∃ m ∈ b.gauges, m.name = textOf (libratoName ns name ++ bytes ".hist") ∧ m.min = some ((sampleMin vs).toInt : ℝ) ∧
    gives (World.init.run h) env r (.stat .mean) ((total vs : ℝ) / vs.length) ∧ shownMean m = some ((total vs : ℝ) / vs.length * (vs.length / (n.toInt : ℝ))) := by
  obtain ⟨cs, gs, h3, hin⟩ := block_of h env g id hb d now ns source ps w' b hr name r o hg hp ho n hc hn
  cases o <;> simp [isDistribution, isTimer] at hk ht
  obtain ⟨-, n', h4, -, h5⟩ := h3
  rw [givesInt] at hc h4
  rw [hc] at h4
  cases h4
  obtain ⟨gg, pcts, s, sum, rfl, h6, h7, -, h10, h8, h9, -⟩ := h5 hn
  have hty : HasTy (World.init.run h) r .hist ∨ HasTy (World.init.run h) r .timer := .inl ⟨_, ho, rfl⟩
  rw [givesInt, observe_stat (run_ok h) hty, hv] at h8 h10
  simp only [readStat, statOf, Except.ok.injEq, Out.int.injEq] at h8 h10
  refine ⟨gg, hin gg (by simp), h6.1, ?_, ?_, ?_⟩
  · rw [h6.2.2.2.2.2.1, ← h10]
    rfl
  · rw [gives, observe_stat (run_ok h) hty, hv, ← mean_real vs hne hs]
    rfl
  · have hl : (vs.length : ℝ) ≠ 0 := by
      have : vs.length ≠ 0 := by simpa using hne
      exact_mod_cast this
    rw [shownMean, h6.2.1, h6.2.2.1, h6.2.2.2.1, h7, h9, ← h8]
    simp only [Option.some.injEq]
    rw [count_real hn]
    show ((sampleSum vs).toInt : ℝ) / (n.toInt : ℝ) = _
    rw [C11_sum_exact vs hs]
    field_simp

/-- C121, histograms: the average which Librato shows for a histogram is `Mean()` times the share of the `n` counted values that the sample still has, so it is right exactly
if the sample has all of them or those it has add up to zero. (Partial: it should always be `Mean()`, see `C121_refuted`; the sum of the kept values must fit in an int64.) -/
theorem C121_histogram_partial (hk : isDistribution o = true) (ht : isTimer o = false) (vs : List Int64) (hv : recorded (World.init.run h) r = some vs) (hne : vs ≠ [])
    (hs : SumFits vs) : ∃ m ∈ b.gauges, m.name = textOf (libratoName ns name ++ bytes ".hist") ∧
    ∃ mean, gives (World.init.run h) env r (.stat .mean) mean ∧ shownMean m = some (mean * (vs.length / (n.toInt : ℝ))) ∧
      (shownMean m = some mean ↔ n.toInt = vs.length ∨ total vs = 0) := by
  obtain ⟨m, h1, h2, -, h3, h4⟩ := hist_gauge h env g id hb d now ns source ps w' b hr name r o hg hp ho n hc hn hk ht vs hv hne hs
  refine ⟨m, h1, h2, _, h3, h4, ?_⟩
  have hl : (0 : ℝ) < vs.length := by exact_mod_cast List.length_pos_of_ne_nil hne
  have hn' : (0 : ℝ) < n.toInt := by exact_mod_cast hn
  rw [h4, Option.some.injEq, ← sub_eq_zero, ← mul_sub_one, mul_eq_zero, div_eq_zero_iff, sub_eq_zero, div_eq_one_iff_eq hn'.ne']
  constructor
  · rintro ((e | e) | e)
    · exact .inr (by exact_mod_cast e)
    · exact absurd e hl.ne'
    · exact .inl (by exact_mod_cast e.symm)
  · rintro (e | e)
    · exact .inr (by exact_mod_cast e.symm)
    · exact .inl (.inl (by exact_mod_cast e))

/-- C121, how far it is off: the average shown for a histogram is at most the largest kept value times the share of the counted values that is kept, and it is below the minimum
of the same gauge as soon as this product is. -/
theorem C121_low (hk : isDistribution o = true) (ht : isTimer o = false) (vs : List Int64) (hv : recorded (World.init.run h) r = some vs) (hne : vs ≠ []) (hs : SumFits vs) :
    ∃ m ∈ b.gauges, m.name = textOf (libratoName ns name ++ bytes ".hist") ∧ ∃ x lo, shownMean m = some x ∧ m.min = some lo ∧
      x ≤ (sampleMax vs).toInt * (vs.length / (n.toInt : ℝ)) ∧ ((sampleMax vs).toInt * vs.length < (sampleMin vs).toInt * n.toInt → x < lo) := by
  obtain ⟨m, h1, h2, h3, -, h4⟩ := hist_gauge h env g id hb d now ns source ps w' b hr name r o hg hp ho n hc hn hk ht vs hv hne hs
  have hn' : (0 : ℝ) < n.toInt := by exact_mod_cast hn
  have h5 := (C12_mean_between_partial (K := ℝ) vs hne hs).2
  rw [mean_real vs hne hs] at h5
  have h6 : (total vs : ℝ) / vs.length * (vs.length / (n.toInt : ℝ)) ≤ (sampleMax vs).toInt * (vs.length / (n.toInt : ℝ)) := mul_le_mul_of_nonneg_right h5 (by positivity)
  refine ⟨m, h1, h2, _, _, h4, h3, h6, fun h7 => lt_of_le_of_lt h6 ?_⟩
  rw [← mul_div_assoc, div_lt_iff₀ hn']
  exact_mod_cast h7

end shown

/-- A histogram (or timer) over a uniform sample of one value, to which 10 is given four times. -/
private noncomputable def tens (timer : Bool) : List (Env ℝ × Op ℝ) :=
  [(envAt 0, .new (.uniform 1)), (envAt 0, .new (.hist 0)), (envAt 0, .new .meter), (envAt 0, .new (.customTimer 1 2))] ++
    List.replicate 4 (envAt 1, if timer then .call 3 (.updateD 10) else .call 1 (.update 10)) ++ [(envAt 1, .reg (.std 0) (.register [104] (.obj (if timer then 3 else 1))))]

/-- C121 is false for histograms: after four updates with 10 of a histogram that keeps one value, Librato shows an average of 2.5 beside a minimum of 10. -/
theorem C121_refuted : ∃ (h : List (Env ℝ × Op ℝ)) (env : Env ℝ) (name : Str) (r : Ref) (w' : World ℝ) (b : Batch ℝ) (m : Measurement ℝ),
    buildRequest env (newReporter 60000000000 [] []) 0 (.std 0) (World.init.run h) = (w', .ok b) ∧ gets (World.init.run h) 0 name = some r ∧
    gives (World.init.run h) env r (.stat .mean) 10 ∧ m ∈ b.gauges ∧ m.name = textOf (name ++ bytes ".hist") ∧ m.min = some 10 ∧ shownMean m = some 2.5 := by
  have h1 := build_cases (tens false) (envAt 2) (.std 0) 0 rfl (newReporter 60000000000 [] []) 0 (by show ¬ (60000000000 : Int64) / 1000000000 = 0; decide)
  rcases hx : buildRequest (envAt 2) (newReporter 60000000000 [] []) 0 (.std 0) (World.init.run (tens false)) with ⟨w', e | b⟩
  · obtain ⟨_, _, _, p, hp, -⟩ := h1.2 _ _ hx
    simp [newReporter] at hp
  · have hg : gets (World.init.run (tens false)) 0 [104] = some 1 := rfl
    obtain ⟨m, h2, h3, h4, h5, h6⟩ := hist_gauge (tens false) (envAt 2) (.std 0) 0 rfl 60000000000 0 [] [] [] w' b hx [104] 1 (.hist (.std 0)) hg List.nil_prefix rfl 4 rfl (by decide) rfl rfl
      [10] rfl (by simp) (by decide)
    refine ⟨tens false, envAt 2, [104], 1, w', b, m, hx, hg, ?_, h2, h3, ?_, ?_⟩
    · rw [show total [10] = 10 by decide] at h5
      simpa using h5
    · rw [h4, show (sampleMin [10]).toInt = 10 by decide]
      norm_num
    · rw [h6, show total [10] = 10 by decide, show (4 : Int64).toInt = 4 by decide]
      norm_num

/-- The same values in a timer: the batch shows an average of 10. -/
example : ∃ (w' : World ℝ) (b : Batch ℝ), buildRequest (envAt 2) (newReporter 60000000000 [] []) 0 (.std 0) (World.init.run (tens true)) = (w', .ok b) ∧
    ∃ m ∈ b.gauges, shownMean m = some 10 := by
  have h1 := build_cases (tens true) (envAt 2) (.std 0) 0 rfl (newReporter 60000000000 [] []) 0 (by show ¬ (60000000000 : Int64) / 1000000000 = 0; decide)
  rcases hx : buildRequest (envAt 2) (newReporter 60000000000 [] []) 0 (.std 0) (World.init.run (tens true)) with ⟨w', e | b⟩
  · obtain ⟨_, _, _, p, hp, -⟩ := h1.2 _ _ hx
    simp [newReporter] at hp
  · refine ⟨w', b, rfl, ?_⟩
    obtain ⟨m, h2, -, mean, h3, h4⟩ := C121_timer (tens true) (envAt 2) (.std 0) 0 rfl 60000000000 0 [] [] [] w' b hx [104] 3 (.timer (.std 1 2)) rfl List.nil_prefix rfl 4 rfl (by decide) rfl
    have hty : HasTy (World.init.run (tens true)) 3 .timer := ⟨_, rfl, rfl⟩
    rw [gives, observe_stat (run_ok _) (.inr hty), show recorded (World.init.run (tens true)) 3 = some [10] from rfl] at h3
    simp only [readStat, statOf, Except.ok.injEq, Out.float.injEq] at h3
    refine ⟨m, h2, ?_⟩
    rw [h4, ← h3, mean_real [10] (by simp) (by decide), show total [10] = 10 by decide]
    simp

end GoMetrics
