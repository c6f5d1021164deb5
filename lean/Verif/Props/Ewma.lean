import Verif.Lemmas.EwmaConc
import Mathlib.Analysis.SpecificLimits.Basic
import Mathlib.Analysis.SpecialFunctions.Exp

/-! Property theorems C30–C34 (moving averages). -/

set_option linter.unusedSimpArgs false

namespace GoMetrics
open Spec

section exact
variable {K : Type} [Field K] [LinearOrder K] [IsStrictOrderedRing K] [FloorRing K]

/-! ### C30 -/

/-- C30: after any history the rate is the moving average of the per-second rates (events / 5 s) of the closed intervals: 0
before the first tick, the first interval's rate after it, then `r + alpha (x - r)`. (An interval's event total is kept in an
int64, hence `wrap64`.) -/
theorem C30_recurrence (alpha : K) (ops : List EwmaOp) :
    ∃ a, (Ewma.new false alpha).run ops = .ok a ∧
      a.rate = movingAvg alpha ((intervals ops).map fun c => (wrap64 c : K) / 5) ∧ a.snapshot.rate = a.rate := by
  refine ⟨_, ewma_run_std _ _, ?_, rfl⟩
  exact rate_exact alpha ops

/-- C30, closed form: the interval that ended `j` ticks ago (`j = 0`: the latest) has weight `alpha (1 - alpha)^j`, the first
interval the rest. -/
theorem C30_weights (alpha : K) (ops : List EwmaOp) (c : Int) (cs : List Int) (h : intervals ops = c :: cs) :
    ∃ a, (Ewma.new false alpha).run ops = .ok a ∧
      a.rate = (1 - alpha) ^ cs.length * ((wrap64 c : K) / 5) +
        ∑ j ∈ Finset.range cs.length, alpha * (1 - alpha) ^ j * ((cs.map fun c => (wrap64 c : K) / 5).reverse.getD j 0) := by
  obtain ⟨a, h1, h2, -⟩ := C30_recurrence alpha ops
  refine ⟨a, h1, ?_⟩
  rw [h2, h, List.map_cons, movingAvg_weights]
  simp

/-- The weights add up to 1. -/
theorem C30_weights_sum (alpha : K) (n : Nat) : (1 - alpha) ^ n + ∑ j ∈ Finset.range n, alpha * (1 - alpha) ^ j = 1 := by
  induction n with
  | zero => simp
  | succ n ih =>
    rw [Finset.sum_range_succ, pow_succ]
    linear_combination ih

/-- Two intervals of 10 and 20 events, then 3 pending events: 2/s, then 2 + 1/4 (4 - 2) = 5/2. -/
example : intervals [.update 10, .tick, .update 15, .update 5, .tick, .update 3] = [10, 20] := by decide
example : movingAvg (1 / 4 : ℚ) (([10, 20] : List Int).map fun c => (wrap64 c : ℚ) / 5) = 5 / 2 := by
  norm_num [movingAvg, wrap64, Int.bmod]

/-! ### C31 (exact) -/

/-- C31 in exact arithmetic, for every alpha in [0, 1]: the rate lies between the smallest and the largest rate of the closed
intervals. -/
theorem C31_bounds_exact (alpha : K) (h0 : 0 ≤ alpha) (h1 : alpha ≤ 1) (ops : List EwmaOp) (lo hi : Int)
    (hlo : ∀ c ∈ intervals ops, lo ≤ wrap64 c) (hhi : ∀ c ∈ intervals ops, wrap64 c ≤ hi) (hne : intervals ops ≠ []) :
    ∃ a, (Ewma.new false alpha).run ops = .ok a ∧ (lo : K) / 5 ≤ a.rate ∧ a.rate ≤ (hi : K) / 5 := by
  obtain ⟨a, e1, e2, -⟩ := C30_recurrence alpha ops
  refine ⟨a, e1, ?_⟩
  rw [e2]
  refine movingAvg_le h0 h1 ?_ ?_ (by simpa using hne)
  · intro x hx
    simp only [List.mem_map] at hx
    obtain ⟨c, hc, rfl⟩ := hx
    have : (lo : K) ≤ (wrap64 c : K) := by exact_mod_cast hlo c hc
    linarith
  · intro x hx
    simp only [List.mem_map] at hx
    obtain ⟨c, hc, rfl⟩ := hx
    have : (wrap64 c : K) ≤ (hi : K) := by exact_mod_cast hhi c hc
    linarith

/-! ### C32 -/

private theorem tick_idle (a : StandardEWMA K) (h : a.init = true) (h0 : a.uncounted = 0) (n : Nat) :
    (ewmaAfter a (List.replicate n .tick)).rate = (1 - a.alpha) ^ n * a.rate := by
  induction n generalizing a with
  | zero => simp [ewmaAfter]
  | succ n ih =>
    have e : ewmaAfter a (List.replicate (n + 1) .tick) = ewmaAfter a.tick (List.replicate n .tick) := rfl
    rw [e, ih a.tick (by rw [tick_eq]) (by rw [tick_eq]), tick_eq]
    simp only [h, if_true, h0]
    rw [newRate_exact, instantRate_exact]
    simp
    ring

/-- C32: from any state reached after a tick, `n` ticks without events multiply the rate by `(1 - alpha)^n`. -/
theorem C32_idle_decay (alpha : K) (ops : List EwmaOp) (n : Nat) :
    ∃ a b, (Ewma.new false alpha).run (ops ++ [.tick]) = .ok a ∧
      (Ewma.new false alpha).run (ops ++ [.tick] ++ List.replicate n .tick) = .ok b ∧ b.rate = (1 - alpha) ^ n * a.rate := by
  refine ⟨_, _, ewma_run_std _ _, ewma_run_std _ _, ?_⟩
  have e : ewmaAfter (StandardEWMA.new alpha) (ops ++ [.tick] ++ List.replicate n .tick)
      = ewmaAfter (ewmaAfter (StandardEWMA.new alpha) (ops ++ [.tick])) (List.replicate n .tick) := by
    simp [ewmaAfter, List.foldl_append]
  have e2 : ewmaAfter (StandardEWMA.new alpha) (ops ++ [.tick]) = (ewmaAfter (StandardEWMA.new alpha) ops).tick := by
    simp [ewmaAfter, List.foldl_append]
  have h := tick_idle (ewmaAfter (StandardEWMA.new alpha) (ops ++ [.tick])) (by rw [e2, tick_eq]) (by rw [e2, tick_eq]) n
  rw [(ewmaAfter_new alpha (ops ++ [EwmaOp.tick])).1] at h
  show (ewmaAfter (StandardEWMA.new alpha) (ops ++ [.tick] ++ List.replicate n .tick)).rateOf = _
  rw [e]
  show (ewmaAfter (ewmaAfter (StandardEWMA.new alpha) (ops ++ [.tick])) (List.replicate n .tick)).rate * _ = _
  rw [h, mul_assoc]
  rfl

end exact

/-- The constructors of the three standard averages. -/
noncomputable def standardEwma (minutes : Nat) : Option (Ewma ℝ) :=
  if minutes = 1 then some (Ewma.new1 false) else if minutes = 5 then some (Ewma.new5 false)
  else if minutes = 15 then some (Ewma.new15 false) else none

private theorem standardEwma_eq {m : Nat} {e : Ewma ℝ} (h : standardEwma m = some e) :
    1 ≤ m ∧ e = Ewma.new false (1 - Real.exp (-5 / 60 / m)) := by
  have key : ∀ k : Nat, (ewmaAlpha k : ℝ) = 1 - Real.exp (-5 / 60 / k) := by
    intro k
    simp only [ewmaAlpha, exact_sub, exact_lit, GoExp.exp]
    norm_num
  unfold standardEwma at h
  split_ifs at h with h1 h2 h3 <;> simp at h <;> subst h <;> subst_vars <;>
    exact ⟨by norm_num, by simp only [Ewma.new1, Ewma.new5, Ewma.new15, key]⟩

/-- C32 for `NewEWMA1`, `NewEWMA5`, `NewEWMA15`: `n` ticks of 5 seconds without events multiply the rate by
`exp(-5 n s / (60 M s))`. -/
theorem C32_time_constant (m : Nat) (e : Ewma ℝ) (he : standardEwma m = some e) (ops : List EwmaOp) (n : Nat) :
    ∃ a b, e.run (ops ++ [.tick]) = .ok a ∧ e.run (ops ++ [.tick] ++ List.replicate n .tick) = .ok b ∧
      b.rate = Real.exp (-(5 * n) / (60 * m)) * a.rate := by
  obtain ⟨hm, rfl⟩ := standardEwma_eq he
  obtain ⟨a, b, h1, h2, h3⟩ := C32_idle_decay (1 - Real.exp (-5 / 60 / m)) ops n
  refine ⟨a, b, h1, h2, ?_⟩
  rw [h3]
  congr 1
  rw [sub_sub_cancel, ← Real.exp_nat_mul]
  congr 1
  field_simp

/-- C32: so the rate tends to 0. -/
theorem C32_tends_to_zero (m : Nat) (e : Ewma ℝ) (he : standardEwma m = some e) (ops : List EwmaOp) :
    ∃ r : ℕ → ℝ, (∀ n, ∃ b, e.run (ops ++ [.tick] ++ List.replicate n .tick) = .ok b ∧ b.rate = r n) ∧
      Filter.Tendsto r Filter.atTop (nhds 0) := by
  obtain ⟨hm, -⟩ := standardEwma_eq he
  obtain ⟨a, _, h1, -, -⟩ := C32_time_constant m e he ops 0
  refine ⟨fun n => Real.exp (-5 / (60 * m)) ^ n * a.rate, fun n => ?_, ?_⟩
  · obtain ⟨a', b, h1', h2, h3⟩ := C32_time_constant m e he ops n
    rw [h1] at h1'
    cases h1'
    refine ⟨b, h2, ?_⟩
    rw [h3]
    show _ = Real.exp (-5 / (60 * m)) ^ n * a.rate
    rw [← Real.exp_nat_mul]
    congr 2
    field_simp
  · have : Filter.Tendsto (fun n : ℕ => Real.exp (-5 / (60 * m)) ^ n) Filter.atTop (nhds 0) := by
      apply tendsto_pow_atTop_nhds_zero_of_lt_one (Real.exp_pos _).le
      rw [Real.exp_lt_one_iff]
      have : (0 : ℝ) < m := by exact_mod_cast hm
      rw [div_neg_iff]; right
      exact ⟨by norm_num, by positivity⟩
    simpa using this.mul_const a.rate

example : standardEwma 5 = some (Ewma.new5 false) := by simp [standardEwma]

/-! ### C31 (float64) -/

section ieee
open F64

/-- The int64 totals of the intervals are the exact ones as long as these fit. -/
theorem counts_range {ops : List EwmaOp} {B : Int} (h0 : ∀ c ∈ intervals ops, 0 ≤ c) (hB : ∀ c ∈ intervals ops, c ≤ B)
    (hm : B ≤ maxInt64) : (∀ c ∈ counts ops, 0 ≤ c.toInt) ∧ ∀ c ∈ counts ops, c.toInt ≤ B := by
  have key : ∀ c ∈ counts ops, ∃ z ∈ intervals ops, c.toInt = z := by
    intro c hc
    simp only [counts, List.mem_map] at hc
    obtain ⟨z, hz, rfl⟩ := hc
    refine ⟨z, hz, ?_⟩
    rw [ofInt_toInt_cast]
    exact toInt_of_nonneg_le (h0 z hz) (le_trans (hB z hz) hm)
  constructor
  · intro c hc; obtain ⟨z, hz, e⟩ := key c hc; rw [e]; exact h0 z hz
  · intro c hc; obtain ⟨z, hz, e⟩ := key c hc; rw [e]; exact hB z hz

private theorem maxInt64_le : maxInt64 ≤ 2 ^ 64 := by decide

/-- If no update is negative no interval total is. -/
theorem intervals_nonneg (ops : List EwmaOp) (h : ∀ n, .update n ∈ ops → 0 ≤ n.toInt) : ∀ c ∈ intervals ops, 0 ≤ c := by
  have key : ∀ (cur : Int) (ops : List EwmaOp), 0 ≤ cur → (∀ n, .update n ∈ ops → 0 ≤ n.toInt) → ∀ c ∈ intervalsFrom cur ops, 0 ≤ c := by
    intro cur ops
    induction ops generalizing cur with
    | nil => intro _ _ c hc; simp [intervalsFrom] at hc
    | cons o ops ih =>
      intro h0 hn c hc
      cases o with
      | update n =>
        exact ih (cur + n.toInt) (by have := hn n (by simp); omega) (fun m hm => hn m (by simp [hm])) c hc
      | tick =>
        simp [intervalsFrom] at hc
        rcases hc with rfl | hc
        · exact h0
        · exact ih 0 le_rfl (fun m hm => hn m (by simp [hm])) c hc
  exact key 0 ops le_rfl h

/-- C31 in float64 arithmetic: with non-negative updates and alpha in [0, 1/4], the rate is a finite number, not negative, and
not above what `Rate()` shows right after a single interval with the largest number of events `B`; that is at most
`B/5 (1 + 2^-51)`. (Interval totals must fit an int64.) -/
theorem C31_bounds_f64 (alpha : ℚ) (h0 : 0 ≤ alpha) (h1 : alpha ≤ 1 / 4) (ops : List EwmaOp) (B : Int)
    (hn : ∀ n, .update n ∈ ops → 0 ≤ n.toInt) (hB : ∀ c ∈ intervals ops, c ≤ B) (hB0 : 0 ≤ B) (hm : B ≤ maxInt64) :
    ∃ a r b rb, (Ewma.new false (F64.fin alpha)).run ops = .ok a ∧ a.rate = F64.fin r ∧ 0 ≤ r ∧
      (Ewma.new false (F64.fin alpha)).run [.update (Int64.ofInt B), .tick] = .ok b ∧ b.rate = F64.fin rb ∧
      r ≤ rb ∧ rb ≤ (B : ℚ) / 5 * (1 + 2 ^ (-51 : ℤ)) := by
  obtain ⟨c0, c1⟩ := counts_range (intervals_nonneg ops hn) hB hm
  have hB64 : B ≤ 2 ^ 64 := le_trans hm maxInt64_le
  obtain ⟨r, e, e1, e2, e3⟩ := foldRate_f64 h0 h1 hB64 c0 c1 hB0
  have hz : 0 ≤ instQ B := by rw [← instQ_zero]; exact instQ_mono hB0
  refine ⟨_, rnd (r * 10 ^ 9), _, shown B, ewma_run_std _ _, ?_, ?_, ewma_run_std _ _, ?_, ?_, shown_le hB0⟩
  · show GoFloat.mul (ewmaAfter (.new (F64.fin alpha)) ops).rate _ = _
    rw [(ewmaAfter_new (F64.fin alpha) ops).2.1, e]
    exact rateOf_f64 e2 (e3.trans (instQ_le hB64))
  · exact rnd_nonneg (by positivity)
  · show GoFloat.mul (ewmaAfter (.new (F64.fin alpha)) _).rate _ = _
    rw [(ewmaAfter_new (F64.fin alpha) _).2.1]
    have : counts [.update (Int64.ofInt B), .tick] = [Int64.ofInt B] := by
      simp only [counts, intervals, intervalsFrom, zero_add, List.map_cons, List.map_nil, Int64.ofInt_toInt]
    rw [this, foldRate_one, instantRate_f64, ofInt_toInt_cast, toInt_of_nonneg_le hB0 hm]
    exact rateOf_f64 hz (instQ_le hB64)
  · exact rnd_mono (by gcongr)

/-- The three standard averages in float64 arithmetic. -/
noncomputable def standardEwmaF64 (minutes : Nat) : Option (Ewma F64) :=
  if minutes = 1 then some (Ewma.new1 false) else if minutes = 5 then some (Ewma.new5 false)
  else if minutes = 15 then some (Ewma.new15 false) else none

private theorem standardF64_eq {m : Nat} {e : Ewma F64} (h : standardEwmaF64 m = some e) :
    ∃ a : ℚ, 0 ≤ a ∧ a ≤ 1 / 4 ∧ e = Ewma.new false (F64.fin a) := by
  unfold standardEwmaF64 at h
  split_ifs at h with h1 h2 h3 <;> simp at h <;> subst h
  · obtain ⟨a, e, h0, h1⟩ := ewmaAlpha_f64 (m := 1) (by norm_num)
    exact ⟨a, h0, h1, by simp only [Ewma.new1, e]⟩
  · obtain ⟨a, e, h0, h1⟩ := ewmaAlpha_f64 (m := 5) (by norm_num)
    exact ⟨a, h0, h1, by simp only [Ewma.new5, e]⟩
  · obtain ⟨a, e, h0, h1⟩ := ewmaAlpha_f64 (m := 15) (by norm_num)
    exact ⟨a, h0, h1, by simp only [Ewma.new15, e]⟩

/-- C31 for the averages made by `NewEWMA1`, `NewEWMA5` and `NewEWMA15`. -/
theorem C31_standard (m : Nat) (e : Ewma F64) (he : standardEwmaF64 m = some e) (ops : List EwmaOp) (B : Int)
    (hn : ∀ n, .update n ∈ ops → 0 ≤ n.toInt) (hB : ∀ c ∈ intervals ops, c ≤ B) (hB0 : 0 ≤ B) (hm : B ≤ maxInt64) :
    ∃ a r b rb, e.run ops = .ok a ∧ a.rate = F64.fin r ∧ 0 ≤ r ∧
      e.run [.update (Int64.ofInt B), .tick] = .ok b ∧ b.rate = F64.fin rb ∧
      r ≤ rb ∧ rb ≤ (B : ℚ) / 5 * (1 + 2 ^ (-51 : ℤ)) := by
  obtain ⟨a, h0, h1, rfl⟩ := standardF64_eq he
  exact C31_bounds_f64 a h0 h1 ops B hn hB hB0 hm

example : ∀ c ∈ intervals [.update 10, .tick, .update 15, .update 5, .tick, .update 3], c ≤ 20 := by decide

/-- The hypothesis that interval totals fit an int64 is needed: two updates of 2^62 in one interval give a negative rate. -/
theorem C31_refuted_overflow :
    ∃ a, (Ewma.new false (1 / 4 : ℚ)).run [.update (Int64.ofInt (2 ^ 62)), .update (Int64.ofInt (2 ^ 62)), .tick] = .ok a ∧ a.rate < 0 := by
  obtain ⟨a, h1, h2, -⟩ := C30_recurrence (1 / 4 : ℚ) [.update (Int64.ofInt (2 ^ 62)), .update (Int64.ofInt (2 ^ 62)), .tick]
  refine ⟨a, h1, ?_⟩
  rw [h2]
  have : intervals [.update (Int64.ofInt (2 ^ 62)), .update (Int64.ofInt (2 ^ 62)), .tick] = [2 ^ 63] := by decide
  rw [this]
  have e : wrap64 (2 ^ 63) = -2 ^ 63 := by decide
  simp only [List.map_cons, List.map_nil, e]
  norm_num [movingAvg]

/-- C32 in float64 arithmetic: an idle tick never increases the rate. -/
theorem C32_idle_nonincreasing_f64 (alpha : ℚ) (h0 : 0 ≤ alpha) (h1 : alpha ≤ 1 / 4) (ops : List EwmaOp)
    (hn : ∀ n, .update n ∈ ops → 0 ≤ n.toInt) (hm : ∀ c ∈ intervals (ops ++ [.tick]), c ≤ maxInt64) :
    ∃ a b ra rb, (Ewma.new false (F64.fin alpha)).run (ops ++ [.tick]) = .ok a ∧
      (Ewma.new false (F64.fin alpha)).run (ops ++ [.tick] ++ [.tick]) = .ok b ∧
      a.rate = F64.fin ra ∧ b.rate = F64.fin rb ∧ 0 ≤ rb ∧ rb ≤ ra := by
  have hn' : ∀ n, .update n ∈ ops ++ [.tick] → 0 ≤ n.toInt := by intro n h; exact hn n (by simpa using h)
  obtain ⟨c0, c1⟩ := counts_range (intervals_nonneg _ hn') hm le_rfl
  obtain ⟨r, e, e1, e2, e3⟩ := foldRate_f64 h0 h1 maxInt64_le c0 c1 (by decide)
  have ea := ewmaAfter_new (F64.fin alpha) (ops ++ [.tick])
  have e5 : ewmaAfter (StandardEWMA.new (F64.fin alpha)) (ops ++ [.tick] ++ [.tick])
      = (ewmaAfter (StandardEWMA.new (F64.fin alpha)) (ops ++ [.tick])).tick := by
    simp [ewmaAfter, List.foldl_append]
  have e6 : ewmaAfter (StandardEWMA.new (F64.fin alpha)) (ops ++ [.tick]) = (ewmaAfter (StandardEWMA.new (F64.fin alpha)) ops).tick := by
    simp [ewmaAfter, List.foldl_append]
  have e7 : (ewmaAfter (StandardEWMA.new (F64.fin alpha)) (ops ++ [.tick])).uncounted = 0 := by rw [e6, tick_eq]
  have e8 : (ewmaAfter (StandardEWMA.new (F64.fin alpha)) (ops ++ [.tick])).init = true := by rw [e6, tick_eq]
  have hz : (StandardEWMA.instantRate 0 : F64) = F64.fin 0 := by
    rw [instantRate_f64]
    have : (0 : Int64).toInt = 0 := by decide
    rw [this, instQ_zero]
  have hB64 : instQ maxInt64 ≤ 2 ^ 64 := instQ_le maxInt64_le
  obtain ⟨r', q1, q2, q3, q4⟩ := newRate_f64 h0 h1 e1 (rnd_zero) (M := instQ maxInt64) (hB64.trans (by norm_num)) e2 le_rfl e3 (e2.trans e3)
  rw [max_eq_left e2] at q4
  refine ⟨_, _, rnd (r * 10 ^ 9), rnd (r' * 10 ^ 9), ewma_run_std _ _, ewma_run_std _ _, ?_, ?_, rnd_nonneg (by positivity), rnd_mono (by gcongr)⟩
  · show GoFloat.mul (ewmaAfter (.new (F64.fin alpha)) (ops ++ [.tick])).rate _ = _
    rw [ea.2.1, e]
    exact rateOf_f64 e2 (e3.trans hB64)
  · show GoFloat.mul (ewmaAfter (.new (F64.fin alpha)) (ops ++ [.tick] ++ [.tick])).rate _ = _
    rw [e5, tick_eq, e8, e7, ea.1, ea.2.1, e, hz]
    simp only [if_true]
    rw [q1]
    exact rateOf_f64 q3 (q4.trans (e3.trans hB64))

end ieee

/-! ### C33 -/

section conc
variable {F : Type} [GoFloat F]

/-- C33: when all calls have returned, the events taken by ticks plus the events still pending are the events given (mod 2^64),
whatever the interleaving of the atomic operations of any number of `Update`s, `Tick`s and `Rate`s. -/
theorem C33_conservation (alpha : F) (sched : List (Nat × EwmaCall)) (s : EShared F) (ls : Nat → EPc F)
    (tr : List (CEv EwmaCall (EwmaRes F)))
    (h : (ewmaMachine alpha).run .zero (fun _ => .idle) sched = some (s, ls, tr)) (hidle : ∀ t, ls t = .idle) :
    wrap64 (((tookList tr).map Int64.toInt).sum + s.uncounted.toInt) = wrap64 (givenSum tr) := by
  have hw := ewma_wf alpha h
  have e : (fun t => (ls t).abs) = allIdle := by funext t; rw [hidle t]; rfl
  rw [e] at hw
  have h1 : addedSum tr = givenSum tr := (hw.lins_perm_invs.map _).sum_eq
  rw [ewma_conservation alpha h, h1]
  unfold wrap64 sumInts
  rw [Int.add_bmod_bmod]
  congr 1; ring

/-- C33, at any moment: the pending events are those of a collection of updates that contains every update that has returned and
only invoked ones, minus the events taken. -/
theorem C33_pending (alpha : F) (sched : List (Nat × EwmaCall)) (s : EShared F) (ls : Nat → EPc F)
    (tr : List (CEv EwmaCall (EwmaRes F))) (h : (ewmaMachine alpha).run .zero (fun _ => .idle) sched = some (s, ls, tr)) :
    ∃ S : List (Nat × EwmaCall), (rets tr).Subperm S ∧ S.Subperm (invs tr) ∧
      s.uncounted.toInt = wrap64 ((S.map fun x => EwmaCall.events x.2).sum - ((tookList tr).map Int64.toInt).sum) := by
  have hw := ewma_wf alpha h
  exact ⟨lins tr, hw.rets_subperm_lins, hw.lins_subperm_invs, ewma_conservation alpha h⟩

/-! ### C34 -/

/-- C34 (partial): if all ticks come from one goroutine (as in the library: the clock goroutine), then under every interleaving
with any number of updaters and readers, between two ticks the rate field is exactly the recurrence applied to the counts the
ticks took, so no tick is lost, doubled or half-initialised. Missing for the full claim: several ticking goroutines (refuted below). -/
theorem C34_single_ticker_partial {K : Type} [Field K] [LinearOrder K] [IsStrictOrderedRing K] [FloorRing K] (alpha : K) (T : Nat)
    (sched : List (Nat × EwmaCall)) (s : EShared K) (ls : Nat → EPc K) (tr : List (CEv EwmaCall (EwmaRes K)))
    (h : (ewmaMachine alpha).run .zero (fun _ => .idle) sched = some (s, ls, tr)) (ho : OnlyTicker T tr) (hidle : ls T = .idle) :
    s.rate * 10 ^ 9 = movingAvg alpha ((tookList tr).map fun c => (c.toInt : K) / 5) ∧ ticksReturned tr = (tookList tr).length := by
  have := (ewma_single alpha T h ho).2
  rw [hidle] at this
  obtain ⟨h1, -, h2⟩ := this
  exact ⟨by rw [h1, foldRate_exact], h2⟩

/-- C34 (partial), readers: a `Rate()` returns the average of the counts of a prefix of the ticks that contains every tick that
had returned before the reading. -/
theorem C34_read_partial {K : Type} [Field K] [LinearOrder K] [IsStrictOrderedRing K] [FloorRing K] (alpha : K) (T : Nat)
    (sched : List (Nat × EwmaCall)) (s : EShared K) (ls : Nat → EPc K) (a b : List (CEv EwmaCall (EwmaRes K))) (t : Nat) (r : K)
    (h : (ewmaMachine alpha).run .zero (fun _ => .idle) sched = some (s, ls, a ++ CEv.lin t .rate (.rate r) :: b))
    (ho : OnlyTicker T (a ++ CEv.lin t .rate (.rate r) :: b)) :
    ∃ cs, cs <+: tookList a ∧ ticksReturned a ≤ cs.length ∧ r = movingAvg alpha (cs.map fun c => (c.toInt : K) / 5) := by
  obtain ⟨cs, h1, h2, h3⟩ := ewma_read alpha T h ho rfl
  refine ⟨cs, h1, h2, ?_⟩
  rw [h3, ← foldRate_exact]
  simp

/-- C34 (partial), no negative interval: with one ticker, non-negative updates whose total fits an int64 never give a negative
interval count. -/
theorem C34_nonneg_partial (alpha : F) (T : Nat) (sched : List (Nat × EwmaCall)) (s : EShared F) (ls : Nat → EPc F)
    (tr : List (CEv EwmaCall (EwmaRes F))) (h : (ewmaMachine alpha).run .zero (fun _ => .idle) sched = some (s, ls, tr))
    (ho : OnlyTicker T tr) (hn : NonnegUpdates tr) (hm : givenSum tr ≤ maxInt64) : ∀ c ∈ tookList tr, 0 ≤ c.toInt :=
  (ewma_nonneg alpha T h ho hn hm).2.2.1

/-- The steps of goroutine `t` in a schedule. -/
private def go (t : Nat) (c : EwmaCall) (n : Nat) : List (Nat × EwmaCall) := List.replicate n (t, c)

/-- C34 is false for two ticking goroutines. Five events are given. Both goroutines load 5 before either subtracts; a later
tick then takes -5 events and the rate becomes negative although no update was. -/
theorem C34_refuted_negative : ∃ sched s ls tr,
    (ewmaMachine (1 / 4 : ℚ)).run .zero (fun _ => .idle) sched = some (s, ls, tr) ∧
      (invs tr).map Prod.snd = [.tick, .update 5, .tick, .tick, .tick] ∧ tookList tr = [0, 5, 5, -5] ∧ s.rate < 0 := by
  refine ⟨go 0 .tick 9 ++ go 1 (.update 5) 3 ++ go 1 .tick 3 ++ go 2 .tick 3 ++ go 1 .tick 2 ++ go 2 .tick 2 ++ go 1 .tick 2 ++
    go 2 .tick 2 ++ go 2 .tick 7, ?_⟩
  refine ⟨_, _, _, rfl, by decide +kernel, by decide +kernel, by decide +kernel⟩

/-- C34 is false for two ticking goroutines, second witness: ten events, then the first two ticks run concurrently. Goroutine 1
has set `init` but not yet the rate when goroutine 2 computes the average from it; then goroutine 1 overwrites the result. In the end
the rate is 0, whereas the two ticks one after the other give 3/2. -/
theorem C34_refuted_lost_tick : ∃ sched s ls tr a,
    (ewmaMachine (1 / 4 : ℚ)).run .zero (fun _ => .idle) sched = some (s, ls, tr) ∧
      (rets tr).map Prod.snd = [.update 10, .tick, .tick] ∧ tookList tr = [10, 0] ∧ s.rate = 0 ∧
      (Ewma.new false (1 / 4 : ℚ)).run [.update 10, .tick, .tick] = .ok a ∧ a.rate = 3 / 2 := by
  refine ⟨go 0 (.update 10) 3 ++ go 1 .tick 5 ++ go 2 .tick 7 ++ go 1 .tick 5, ?_⟩
  refine ⟨_, _, _, _, rfl, by decide +kernel, by decide +kernel, by decide +kernel, rfl, by decide +kernel⟩

/-- A run meeting the hypotheses of the partial theorems: goroutine 0 ticks while goroutine 1 updates between its load and its
subtraction. -/
example : ∃ s ls tr, (ewmaMachine (1 / 4 : ℚ)).run .zero (fun _ => .idle)
      (go 1 (.update 7) 3 ++ go 0 .tick 6 ++ go 1 (.update 2) 3 ++ go 0 .tick 4) = some (s, ls, tr) ∧
    tookList tr = [7] ∧ s.uncounted = 2 ∧ s.rate = 7 / 5 / 10 ^ 9 := by
  refine ⟨_, _, _, rfl, by decide +kernel, by decide +kernel, by decide +kernel⟩

end conc

end GoMetrics
