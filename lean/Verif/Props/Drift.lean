import Verif.Props.Ewma
import Verif.Lemmas.EwmaDrift
import Verif.Lemmas.MeanRate
import Verif.Lemmas.Meter

/-! Property theorem C84: rounding errors do not accumulate in moving averages and meters. -/

set_option linter.unusedSimpArgs false

namespace GoMetrics
open Spec F64

/-- Interval totals that fit an int64 are what the average counts. -/
private theorem counts_cast {K : Type} [DivisionRing K] {ops : List EwmaOp} {B : Int} (h0 : ∀ c ∈ intervals ops, 0 ≤ c)
    (hB : ∀ c ∈ intervals ops, c ≤ B) (hm : B ≤ maxInt64) :
    ((counts ops).map fun c => (c.toInt : K) / 5) = (intervals ops).map fun c : Int => (c : K) / 5 := by
  unfold counts
  rw [List.map_map]
  refine List.map_congr_left fun c hc => ?_
  show (((Int64.ofInt c).toInt : Int) : K) / 5 = _
  rw [ofInt_toInt_cast, toInt_of_nonneg_le (h0 c hc) ((hB c hc).trans hm)]

private theorem max_le64 : maxInt64 ≤ 2 ^ 64 := by decide

/-- C84: with non-negative updates, a smoothing factor in (0, 1/4] and at most `B` events per interval, after any number of ticks
the float64 `Rate()` differs from the exact moving average of the interval rates by at most `u B / alpha`, where `u = 2^-53`. The
bound does not depend on the length of the history. -/
theorem C84_no_drift (alpha : ℚ) (h0 : 0 < alpha) (h1 : alpha ≤ 1 / 4) (ops : List EwmaOp) (B : Int)
    (hn : ∀ n, .update n ∈ ops → 0 ≤ n.toInt) (hB : ∀ c ∈ intervals ops, c ≤ B) (hB1 : 1 ≤ B) (hm : B ≤ maxInt64) :
    ∃ a r, (Ewma.new false (F64.fin alpha)).run ops = .ok a ∧ a.rate = F64.fin r ∧
      |r - movingAvg alpha ((intervals ops).map fun c : Int => (c : ℚ) / 5)| ≤ uu * B / alpha := by
  have hp := intervals_nonneg ops hn
  obtain ⟨c0, c1⟩ := counts_range hp hB hm
  obtain ⟨r, e, hr⟩ := rate_drift h0 h1 hB1 (hm.trans max_le64) c0 c1
  refine ⟨_, r, ewma_run_std _ _, ?_, ?_⟩
  · show GoFloat.mul (ewmaAfter (.new (F64.fin alpha)) ops).rate _ = _
    rw [(ewmaAfter_new (F64.fin alpha) ops).2.1]
    exact e
  · rw [counts_cast hp hB hm] at hr
    rw [le_div_iff₀ h0]
    linarith

/-- The rate of an average with the factor of `m` minutes after a history. -/
private theorem rateOf_near {m : Nat} (hm1 : 1 ≤ m) (hm20 : m ≤ 2 ^ 20) (ops : List EwmaOp) (B : Int)
    (hn : ∀ n, .update n ∈ ops → 0 ≤ n.toInt) (hB : ∀ c ∈ intervals ops, c ≤ B) (hB1 : 1 ≤ B) (hm : B ≤ maxInt64) :
    ∃ r : ℚ, (ewmaAfter (.new (ewmaAlpha m : F64)) ops).rateOf = F64.fin r ∧
      |(r : ℝ) - movingAvg (1 - Real.exp (-5 / 60 / m)) ((intervals ops).map fun c : Int => (c : ℝ) / 5)| ≤ 20 * m * ((uu : ℚ) : ℝ) * B := by
  have hp := intervals_nonneg ops hn
  obtain ⟨c0, c1⟩ := counts_range hp hB hm
  obtain ⟨r, e, hr⟩ := standard_drift hm1 hm20 hB1 (hm.trans max_le64) c0 c1
  refine ⟨r, ?_, ?_⟩
  · show GoFloat.mul (ewmaAfter (.new (ewmaAlpha m : F64)) ops).rate _ = _
    rw [(ewmaAfter_new (ewmaAlpha m : F64) ops).2.1]
    exact e
  · rwa [counts_cast hp hB hm] at hr

private theorem standardEwmaF64_alpha {m : Nat} {e : Ewma F64} (h : standardEwmaF64 m = some e) :
    1 ≤ m ∧ m ≤ 2 ^ 20 ∧ e = Ewma.new false (ewmaAlpha m) := by
  unfold standardEwmaF64 at h
  split_ifs at h with h1 h2 h3 <;> simp at h <;> subst h <;> subst_vars <;> exact ⟨by norm_num, by norm_num, rfl⟩

/-- C84 for the averages made by `NewEWMA1`, `NewEWMA5` and `NewEWMA15`, against the moving average with the real smoothing factor
`1 - exp(-5/(60 m))`: the factor is computed in float64 too, and the bound `20 m u B` covers its error. -/
theorem C84_standard (m : Nat) (e : Ewma F64) (he : standardEwmaF64 m = some e) (ops : List EwmaOp) (B : Int)
    (hn : ∀ n, .update n ∈ ops → 0 ≤ n.toInt) (hB : ∀ c ∈ intervals ops, c ≤ B) (hB1 : 1 ≤ B) (hm : B ≤ maxInt64) :
    ∃ (a : Ewma F64) (r : ℚ), e.run ops = .ok a ∧ a.rate = F64.fin r ∧
      |(r : ℝ) - movingAvg (1 - Real.exp (-5 / 60 / m)) ((intervals ops).map fun c : Int => (c : ℝ) / 5)| ≤ 20 * m * ((uu : ℚ) : ℝ) * B := by
  obtain ⟨m1, m2, rfl⟩ := standardEwmaF64_alpha he
  obtain ⟨r, e, hr⟩ := rateOf_near m1 m2 ops B hn hB hB1 hm
  exact ⟨_, r, ewma_run_std _ _, e, hr⟩

/-- C84 for a meter: after its last activity the three rates are that close to the exact moving averages of the marked events, and
`RateMean` has a relative error of at most `5 u`. -/
theorem C84_meter (t0 : Instant) (ops : List MeterOp) (t : Instant) (ht : lastActivity none ops = some t) (B : Int)
    (hn : ∀ n now, .mark n now ∈ ops → 0 ≤ n.toInt) (hB : ∀ c ∈ intervals (marksAndTicks ops), c ≤ B) (hB1 : 1 ≤ B) (hm : B ≤ maxInt64) :
    ∃ (m : Meter F64) (r1 r5 r15 : ℚ), (Meter.std (StandardMeter.new t0)).run ops = .ok m ∧
      m.rate1 = F64.fin r1 ∧ m.rate5 = F64.fin r5 ∧ m.rate15 = F64.fin r15 ∧
      |(r1 : ℝ) - movingAvg (1 - Real.exp (-5 / 60 / 1)) ((intervals (marksAndTicks ops)).map fun c : Int => (c : ℝ) / 5)| ≤ 20 * ((uu : ℚ) : ℝ) * B ∧
      |(r5 : ℝ) - movingAvg (1 - Real.exp (-5 / 60 / 5)) ((intervals (marksAndTicks ops)).map fun c : Int => (c : ℝ) / 5)| ≤ 100 * ((uu : ℚ) : ℝ) * B ∧
      |(r15 : ℝ) - movingAvg (1 - Real.exp (-5 / 60 / 15)) ((intervals (marksAndTicks ops)).map fun c : Int => (c : ℝ) / 5)| ≤ 300 * ((uu : ℚ) : ℝ) * B ∧
      (t0 < t → t - t0 ≤ maxInt64 → ∃ rm : ℚ, m.rateMean = F64.fin rm ∧
        |rm - (wrap64 (markedSum ops) : ℚ) / (((t - t0 : Int) : ℚ) / 10 ^ 9)| ≤
          5 * uu * |(wrap64 (markedSum ops) : ℚ) / (((t - t0 : Int) : ℚ) / 10 ^ 9)|) := by
  have hf := meterAfter_fresh (StandardMeter.new t0 : StandardMeter F64) none ⟨by simp, by simp, by simp, by simp, fun _ => ⟨rfl, rfl, rfl, rfl⟩⟩ ops
  have e : activity (StandardMeter.new t0 : StandardMeter F64).stopped none ops = some t := by
    show (if (false : Bool) = true then _ else lastActivity none ops) = some t
    simpa using ht
  rw [e] at hf
  obtain ⟨a1, a5, a15, st⟩ := meterAfter_avgs (StandardMeter.new t0 : StandardMeter F64) ops
  have es : seenOps (StandardMeter.new t0 : StandardMeter F64).stopped ops = marksAndTicks ops := rfl
  rw [es] at a1 a5 a15
  have hn' : ∀ n, .update n ∈ marksAndTicks ops → 0 ≤ n.toInt := by
    clear hf e a1 a5 a15 st es ht hB
    induction ops with
    | nil => intro n h; simp [marksAndTicks] at h
    | cons o ops ih =>
      intro n h
      cases o with
      | mark k now =>
        simp only [marksAndTicks, List.mem_cons, EwmaOp.update.injEq] at h
        rcases h with rfl | h
        · exact hn n now (by simp)
        · exact ih (fun n now h => hn n now (by simp [h])) n h
      | tick now =>
        simp only [marksAndTicks, List.mem_cons, reduceCtorEq, false_or] at h
        exact ih (fun n now h => hn n now (by simp [h])) n h
      | stop =>
        exfalso
        have : ∀ (l : List MeterOp), EwmaOp.update n ∉ ticksOf l := by
          intro l
          induction l with
          | nil => simp [ticksOf]
          | cons o l ih => cases o <;> simp [ticksOf_mark, ticksOf_tick, ticksOf_stop, ih]
        exact this ops h
  obtain ⟨r1, q1, w1⟩ := rateOf_near (m := 1) (by norm_num) (by norm_num) (marksAndTicks ops) B hn' hB hB1 hm
  obtain ⟨r5, q5, w5⟩ := rateOf_near (m := 5) (by norm_num) (by norm_num) (marksAndTicks ops) B hn' hB hB1 hm
  obtain ⟨r15, q15, w15⟩ := rateOf_near (m := 15) (by norm_num) (by norm_num) (marksAndTicks ops) B hn' hB hB1 hm
  refine ⟨_, r1, r5, r15, meter_run_std _ _, ?_, ?_, ?_, ?_, ?_, ?_, ?_⟩
  · show (meterAfter _ ops).snapshot.rate1 = _
    rw [hf.r1 (by simp), a1]; exact q1
  · show (meterAfter _ ops).snapshot.rate5 = _
    rw [hf.r5 (by simp), a5]; exact q5
  · show (meterAfter _ ops).snapshot.rate15 = _
    rw [hf.r15 (by simp), a15]; exact q15
  · push_cast at w1; norm_num at w1 ⊢; linarith
  · push_cast at w5; norm_num at w5 ⊢; linarith
  · push_cast at w15; norm_num at w15 ⊢; linarith
  · intro h1 h2
    obtain ⟨rm, er, hr⟩ := meanRate_near (meterAfter (StandardMeter.new t0 : StandardMeter F64) ops).snapshot.count t0 t h1 h2
    have hc := meterAfter_count (StandardMeter.new t0 : StandardMeter F64) rfl ops
    have h0 : (StandardMeter.new t0 : StandardMeter F64).snapshot.count.toInt = 0 := rfl
    rw [h0, zero_add] at hc
    rw [hc] at hr
    refine ⟨rm, ?_, hr⟩
    show (meterAfter _ ops).snapshot.rateMean = _
    rw [hf.mean t rfl, st]
    exact er

/-- A history meeting the hypotheses: a million intervals of 7 events each. -/
example : let ops := (List.replicate 1000000 [EwmaOp.update 7, EwmaOp.tick]).flatten
    (∀ n, .update n ∈ ops → 0 ≤ n.toInt) ∧ (∀ c ∈ intervals ops, c ≤ 7) ∧ (7 : Int) ≤ maxInt64 := by
  have key : ∀ k : Nat, (∀ n, .update n ∈ (List.replicate k [EwmaOp.update 7, EwmaOp.tick]).flatten → 0 ≤ n.toInt) ∧
      ∀ c ∈ intervals (List.replicate k [EwmaOp.update 7, EwmaOp.tick]).flatten, c ≤ 7 := by
    intro k
    induction k with
    | zero => simp [intervals, intervalsFrom]
    | succ k ih =>
      rw [List.replicate_succ, List.flatten_cons]
      constructor
      · intro n h
        simp only [List.cons_append, List.nil_append, List.mem_cons, EwmaOp.update.injEq, reduceCtorEq, false_or] at h
        rcases h with rfl | h
        · decide
        · exact ih.1 n h
      · intro c h
        have e : intervals ([EwmaOp.update 7, EwmaOp.tick] ++ (List.replicate k [EwmaOp.update 7, EwmaOp.tick]).flatten)
            = (0 + (7 : Int64).toInt) :: intervals (List.replicate k [EwmaOp.update 7, EwmaOp.tick]).flatten := rfl
        rw [e, List.mem_cons] at h
        rcases h with rfl | h
        · decide
        · exact ih.2 c h
  exact ⟨(key _).1, (key _).2, by decide⟩

example : standardEwmaF64 15 = some (Ewma.new15 false) := by simp [standardEwmaF64]

/-- For the one-minute average and at most a million events per interval the bound is below 3 parts in 10^9 of an event per second. -/
example : 20 * 1 * uu * 10 ^ 6 ≤ 3 / 10 ^ 9 := by norm_num [uu]

example : lastActivity none [.mark 3 1, .tick 5, .stop, .mark 7 8, .tick 10] = some 10 ∧
    ∀ c ∈ intervals (marksAndTicks [.mark 3 1, .tick 5, .stop, .mark 7 8, .tick 10]), c ≤ 3 := by decide

end GoMetrics
