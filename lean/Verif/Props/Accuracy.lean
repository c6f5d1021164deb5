import Verif.Lemmas.AccuracyPct

/-! Property theorems C83: how far the float64 statistics are from the exact ones. -/

namespace GoMetrics
open Spec F64

/-! ### C83 -/

/-- C83, mean: for at most 2^53 values whose sum fits in int64 the float64 mean is the exact mean up to a relative error of
2u + u², with u = 2^-53. In particular it is finite, and exactly zero when the values add up to zero. -/
theorem C83_mean (vs : List Int64) (h : vs ≠ []) (hlen : (vs.length : Int) ≤ 2 ^ 53) (hs : SumFits vs) :
    ∃ m : ℚ, (sampleMean vs : F64) = fin m ∧ |m - trueMean vs| ≤ (2 * uu + uu ^ 2) * |trueMean vs| :=
  ⟨_, mean_rnd vs h hlen hs, mean_err vs h hlen⟩

/-- C83, variance: if moreover no value exceeds 2^53 in magnitude, the float64 variance is between (1-u)^(n+4) times the exact
variance and (1+u)^(n+4) times the exact variance increased by the square of the error of the mean. -/
theorem C83_variance (vs : List Int64) (h : vs ≠ []) (hlen : (vs.length : Int) ≤ 2 ^ 53) (hs : SumFits vs) (hv : ∀ v ∈ vs, |v.toInt| ≤ 2 ^ 53) :
    ∃ s : ℚ, (sampleVariance vs : F64) = fin s ∧
      (1 - uu) ^ (vs.length + 4) * trueVariance vs ≤ s ∧
      s ≤ (1 + uu) ^ (vs.length + 4) * (trueVariance vs + ((2 * uu + uu ^ 2) * trueMean vs) ^ 2) := by
  obtain ⟨s, h1, _, _, _, h5, h6⟩ := variance_rnd vs h hlen hs hv
  exact ⟨s, h1, h5, h6⟩

private theorem one_add_pow_le (N : Nat) (h : (N : ℚ) * uu ≤ 1 / 2) : (1 + uu) ^ N ≤ 1 + 2 * (N * uu) := by
  have hu := uu_pos
  have key : ∀ N : Nat, (1 + uu) ^ N * (1 - N * uu) ≤ 1 := by
    intro N
    induction N with
    | zero => norm_num
    | succ N ih =>
      have hp : 0 ≤ (1 + uu) ^ N := pow_nonneg (by linarith) _
      have h1 : (1 + uu) * (1 - ((N + 1 : ℕ) : ℚ) * uu) ≤ 1 - N * uu := by
        push_cast
        have : 0 ≤ ((N : ℚ) + 1) * uu ^ 2 := by positivity
        nlinarith
      calc (1 + uu) ^ (N + 1) * (1 - ((N + 1 : ℕ) : ℚ) * uu) = (1 + uu) ^ N * ((1 + uu) * (1 - ((N + 1 : ℕ) : ℚ) * uu)) := by ring
        _ ≤ (1 + uu) ^ N * (1 - N * uu) := mul_le_mul_of_nonneg_left h1 hp
        _ ≤ 1 := ih
  have h2 : (1 : ℚ) ≤ (1 + 2 * (N * uu)) * (1 - N * uu) := by
    have : 0 ≤ (N : ℚ) * uu := by positivity
    nlinarith
  exact le_of_mul_le_mul_right ((key N).trans h2) (by linarith)

/-- C83, variance, as a relative error: for at most 2^50 values the float64 variance is V(1-(n+4)u) or more and
(V + (3uμ)²)(1+2(n+4)u) or less, V and μ the exact variance and mean. -/
theorem C83_variance_relative (vs : List Int64) (h : vs ≠ []) (hlen : (vs.length : Int) ≤ 2 ^ 50) (hs : SumFits vs) (hv : ∀ v ∈ vs, |v.toInt| ≤ 2 ^ 53) :
    ∃ s : ℚ, (sampleVariance vs : F64) = fin s ∧
      (1 - (vs.length + 4) * uu) * trueVariance vs ≤ s ∧
      s ≤ (1 + 2 * ((vs.length + 4) * uu)) * (trueVariance vs + (3 * uu * trueMean vs) ^ 2) := by
  obtain ⟨s, h1, h2, h3⟩ := C83_variance vs h (by omega) hs hv
  have hu := uu_pos
  have hu1 := uu_lt_one
  have hV := trueVariance_nonneg vs
  have hl : (vs.length : ℚ) ≤ 2 ^ 50 := by exact_mod_cast hlen
  refine ⟨s, h1, le_trans (mul_le_mul_of_nonneg_right ?_ hV) h2, h3.trans ?_⟩
  · have := one_add_mul_le_pow (a := -uu) (by linarith) (vs.length + 4)
    push_cast at this
    have e : (1 + -uu) = 1 - uu := by ring
    rw [e] at this
    linarith
  · have hN : ((vs.length + 4 : ℕ) : ℚ) * uu ≤ 1 / 2 := by
      push_cast
      unfold uu
      rw [mul_one_div, div_le_iff₀ (by positivity)]
      linarith
    have h4 := one_add_pow_le (vs.length + 4) hN
    push_cast at h4
    refine mul_le_mul h4 ?_ (add_nonneg hV (sq_nonneg _)) (by positivity)
    have : ((2 * uu + uu ^ 2) * trueMean vs) ^ 2 ≤ (3 * uu * trueMean vs) ^ 2 := by
      rw [mul_pow, mul_pow (3 * uu)]
      refine mul_le_mul_of_nonneg_right ?_ (sq_nonneg _)
      exact pow_le_pow_left₀ (by positivity) (by nlinarith) 2
    linarith

/-- C83, standard deviation: its square is within (1±u)^(n+6) of the same bounds, and it is not negative. -/
theorem C83_stddev (vs : List Int64) (h : vs ≠ []) (hlen : (vs.length : Int) ≤ 2 ^ 53) (hs : SumFits vs) (hv : ∀ v ∈ vs, |v.toInt| ≤ 2 ^ 53) :
    ∃ d : ℚ, (sampleStdDev vs : F64) = fin d ∧ 0 ≤ d ∧
      (1 - uu) ^ (vs.length + 6) * trueVariance vs ≤ d ^ 2 ∧
      d ^ 2 ≤ (1 + uu) ^ (vs.length + 6) * (trueVariance vs + ((2 * uu + uu ^ 2) * trueMean vs) ^ 2) := by
  obtain ⟨s, h1, h2, h3, h4, h5, h6⟩ := variance_rnd vs h hlen hs hv
  have hu := uu_pos
  have hu1 := uu_lt_one
  have hs0 : (0 : ℝ) ≤ (s : ℝ) := by exact_mod_cast h2
  have hroot := Real.sq_sqrt hs0
  have hr0 := Real.sqrt_nonneg (s : ℝ)
  set t := Real.sqrt (s : ℝ) with ht
  have hap : Apart t := by
    refine Apart.of_le (-132) (by norm_num) ?_
    rcases h3 with h3 | h3
    · left; rw [ht, h3]; simp
    · right
      rw [abs_of_nonneg hr0]
      refine Real.le_sqrt_of_sq_le ?_
      have h7 : (((2 : ℚ) ^ (-263 : ℤ) : ℚ) : ℝ) ≤ (s : ℝ) := by exact_mod_cast h3
      push_cast at h7
      refine le_trans ?_ h7
      rw [← zpow_natCast, ← zpow_mul]
      exact zpow_le_zpow_right₀ (by norm_num) (by norm_num)
  have htle : |t| ≤ 2 ^ 93 := by
    rw [abs_of_nonneg hr0]
    refine Real.sqrt_le_iff.2 ⟨by norm_num, ?_⟩
    have : (s : ℝ) ≤ 2 ^ 185 := by exact_mod_cast h4
    refine this.trans ?_
    norm_num
  have hsd : (sampleStdDev vs : F64) = fin (rnd t) := by
    show F64.sqrt (sampleVariance vs) = _
    rw [h1]
    show (if s < 0 then nan else F64.round (Real.sqrt (s : ℝ))) = _
    rw [if_neg (by linarith)]
    exact round_of_abs_le (n := 93) (by norm_num) htle
  have hd0 := rnd_nonneg hr0
  obtain ⟨n1, n2⟩ := rnd_near_nonneg hr0 hap
  have hue : (2 : ℝ) ^ (-53 : ℤ) = ((uu : ℚ) : ℝ) := by rw [uu_eq]; push_cast; rfl
  rw [hue] at n1 n2
  have hul : (0 : ℝ) ≤ 1 - ((uu : ℚ) : ℝ) := by
    have : ((uu : ℚ) : ℝ) < 1 := by exact_mod_cast hu1
    linarith
  have lo : (1 - uu) ^ 2 * s ≤ (rnd t) ^ 2 := by
    have : ((1 - ((uu : ℚ) : ℝ)) * t) ^ 2 ≤ ((rnd t : ℚ) : ℝ) ^ 2 := pow_le_pow_left₀ (mul_nonneg hul hr0) n1 2
    rw [mul_pow, hroot] at this
    exact_mod_cast this
  have hi : (rnd t) ^ 2 ≤ (1 + uu) ^ 2 * s := by
    have hd0' : (0 : ℝ) ≤ ((rnd t : ℚ) : ℝ) := by exact_mod_cast hd0
    have : ((rnd t : ℚ) : ℝ) ^ 2 ≤ ((1 + ((uu : ℚ) : ℝ)) * t) ^ 2 := pow_le_pow_left₀ hd0' n2 2
    rw [mul_pow, hroot] at this
    exact_mod_cast this
  refine ⟨rnd t, hsd, hd0, ?_, ?_⟩
  · calc (1 - uu) ^ (vs.length + 6) * trueVariance vs = (1 - uu) ^ 2 * ((1 - uu) ^ (vs.length + 4) * trueVariance vs) := by ring
      _ ≤ (1 - uu) ^ 2 * s := mul_le_mul_of_nonneg_left h5 (sq_nonneg _)
      _ ≤ _ := lo
  · calc (rnd t) ^ 2 ≤ (1 + uu) ^ 2 * s := hi
      _ ≤ (1 + uu) ^ 2 * ((1 + uu) ^ (vs.length + 4) * (trueVariance vs + ((2 * uu + uu ^ 2) * trueMean vs) ^ 2)) :=
          mul_le_mul_of_nonneg_left h6 (sq_nonneg _)
      _ = _ := by ring

/-- C83, percentiles: for at most 2^52 values of magnitude at most b ≤ 2^52, sorted neighbours at most g apart, and p between 0 and 1,
the float64 percentile differs from the value interpolated at rank p(n+1) by at most u((n+2)g + b). -/
theorem C83_percentile (vs xs : List Int64) (hx : SortedOf xs vs) (h : vs ≠ []) (hlen : (vs.length : Int) ≤ 2 ^ 52)
    (b g : ℚ) (hb : b ≤ 2 ^ 52) (hv : ∀ v ∈ vs, |(v.toInt : ℚ)| ≤ b) (hg0 : 0 ≤ g) (hgap : GapsAtMost g xs) (p : ℚ) (hp0 : 0 ≤ p) (hp1 : p ≤ 1) :
    ∃ s ws, samplePercentile vs (fin p) = .ok (fin s, ws) ∧
      |s - rankValue xs (p * (vs.length + 1))| ≤ uu * ((vs.length + 2) * g + b) := by
  have hse : sortInts vs = xs :=
    sorted_unique ((sortInts_perm vs).trans hx.1.symm) (sortInts_sorted vs) (hx.2.imp (fun h => i64_le.2 h))
  have hl : xs.length = vs.length := hx.1.length_eq
  have h0 : 0 < vs.length := List.length_pos_of_ne_nil h
  obtain ⟨s, h1, h2⟩ := percentileSorted_err xs (hx.2.imp (fun h => i64_le.2 h)) (by omega) (by omega) b g hb
    (fun v hv' => hv v (hx.1.subset hv')) hg0 hgap p hp0 hp1
  rw [hl] at h2
  refine ⟨s, xs, ?_, h2⟩
  rw [samplePercentile_nonempty vs (fin p) h0, hse, h1]
  rfl

/-- C83: the exact percentile the float64 one is compared with is what the same code computes in exact arithmetic. -/
theorem C83_rank_exact (vs xs : List Int64) (hx : SortedOf xs vs) (h : vs ≠ []) (p : ℚ) :
    ∃ ws, samplePercentile vs p = .ok (rankValue xs (p * (vs.length + 1)), ws) := by
  have hse : sortInts vs = xs :=
    sorted_unique ((sortInts_perm vs).trans hx.1.symm) (sortInts_sorted vs) (hx.2.imp (fun h => i64_le.2 h))
  have hl : xs.length = vs.length := hx.1.length_eq
  have h0 : 0 < vs.length := List.length_pos_of_ne_nil h
  have hn : 0 < xs.length := by omega
  rw [samplePercentile_nonempty vs p h0, hse, ← hl]
  have hgetD : ∀ i (hi : i < xs.length), xs.getD i 0 = xs[i] := fun i hi => by simp [hi]
  have hl1 : (1 : ℚ) ≤ xs.length := by exact_mod_cast hn
  refine ⟨xs, ?_⟩
  rcases rank_cases xs.length hn (p * (xs.length + 1)) with hc | hc | ⟨k, k1, k2, k3, k4⟩
  · rw [percentileSorted_exact_lo xs p hn hc]
    have : rankValue xs (p * (xs.length + 1)) = xs[0].toInt := by
      unfold rankValue; simp only; rw [if_pos hc, hgetD 0 hn]
    rw [this]; rfl
  · rw [percentileSorted_exact_hi xs p hn hc]
    have : rankValue xs (p * (xs.length + 1)) = xs[xs.length - 1].toInt := by
      unfold rankValue; simp only; rw [if_neg (by linarith), if_pos hc, hgetD _ (by omega)]
    rw [this]; rfl
  · rw [percentileSorted_exact_mid xs p k k1 k2 k3 k4]
    have hk1 : (1 : ℚ) ≤ k := by exact_mod_cast k1
    have hk2 : (k : ℚ) + 1 ≤ xs.length := by exact_mod_cast k2
    have hf : ⌊p * ((xs.length : ℚ) + 1)⌋ = (k : ℤ) := by rw [Int.floor_eq_iff]; push_cast; exact ⟨k3, k4⟩
    have : rankValue xs (p * (xs.length + 1)) = (xs[k - 1].toInt : ℚ) + (p * (xs.length + 1) - k) * ((xs[k].toInt : ℚ) - xs[k - 1].toInt) := by
      unfold rankValue
      simp only
      rw [if_neg (by linarith), if_neg (by linarith), hf]
      simp only [Int.toNat_natCast]
      rw [hgetD k k2, hgetD (k - 1) (by omega)]
      push_cast
      rfl
    rw [this]; rfl

-- hypotheses of C83 on three durations in nanoseconds, with a mean that is not a float64 and a variance that is not zero
example : ([1500000000000001, 7, 1500000000000000] : List Int64) ≠ [] ∧ SumFits [1500000000000001, 7, 1500000000000000] ∧
    (∀ v ∈ ([1500000000000001, 7, 1500000000000000] : List Int64), |v.toInt| ≤ 2 ^ 53) := by decide
example : trueMean [1, 2, 4] = 7 / 3 ∧ trueVariance [1, 2, 4] = 14 / 9 := by
  have e1 : (1 : Int64).toInt = 1 := by decide
  have e2 : (2 : Int64).toInt = 2 := by decide
  have e3 : (4 : Int64).toInt = 4 := by decide
  norm_num [trueMean, trueVariance, squares, total, e1, e2, e3]
example : SortedOf [1, 2, 4] [4, 1, 2] ∧ GapsAtMost 2 [1, 2, 4] ∧ rankValue [1, 2, 4] (3 / 5 * (3 + 1)) = 14 / 5 := by
  have e1 : (1 : Int64).toInt = 1 := by decide
  have e2 : (2 : Int64).toInt = 2 := by decide
  have e3 : (4 : Int64).toInt = 4 := by decide
  refine ⟨⟨by decide, by decide⟩, ?_, ?_⟩
  · intro i hi
    have : i = 0 ∨ i = 1 := by simp at hi; omega
    rcases this with rfl | rfl <;> norm_num [e1, e2, e3]
  · have : ⌊(3 / 5 * (3 + 1) : ℚ)⌋ = 2 := by rw [Int.floor_eq_iff]; norm_num
    unfold rankValue
    rw [this, show Int.toNat 2 = 2 from rfl]
    norm_num [e1, e2, e3]

end GoMetrics
