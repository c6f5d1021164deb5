import Verif.Lemmas.EwmaDrift
import Verif.Lemmas.ExpKeys
import Verif.Model.Meter

/-! The float64 rounding error of `RateMean`. -/

set_option linter.unusedSimpArgs false

namespace GoMetrics
open Spec F64

private theorem near_uu {x : ℚ} (e : ℤ) (he : -1022 ≤ e) (h : x = 0 ∨ (2 : ℚ) ^ e ≤ |x|) : |rnd x - x| ≤ uu * |x| := by
  have := rnd_near (Apart.of_le e he h)
  simp only [Rat.cast_id, ← uu_eq] at this
  linarith

/-- `Duration.Seconds()` of a positive duration has a relative error of at most (2 + 1/8) u. -/
theorem seconds_near (d : Int) (h0 : 0 < d) (h1 : d ≤ maxInt64) :
    ∃ x : ℚ, (seconds d : F64) = .fin x ∧ |x - d / 10 ^ 9| ≤ (2 + 1 / 8) * uu * (d / 10 ^ 9) ∧ (2 : ℚ) ^ (-31 : ℤ) ≤ x ∧ x ≤ 2 ^ 35 := by
  have hsec : second = 1000000000 := by decide
  have hm : maxInt64 = 9223372036854775807 := by decide
  have h0' : 0 ≤ d := h0.le
  set q := d.tdiv second with hq
  set r := d.tmod second with hr
  have hqr : second * q + r = d := Int.mul_tdiv_add_tmod d second
  have hr0 : 0 ≤ r := by rw [hr, Int.tmod_eq_emod_of_nonneg h0']; exact Int.emod_nonneg _ (by rw [hsec]; norm_num)
  have hr1 : r < second := by rw [hr, Int.tmod_eq_emod_of_nonneg h0']; exact Int.emod_lt_of_pos _ (by rw [hsec]; norm_num)
  have hq0 : 0 ≤ q := by rw [hq, Int.tdiv_eq_ediv_of_nonneg h0']; exact Int.ediv_nonneg h0' (by rw [hsec]; norm_num)
  have hq1 : q ≤ 9223372036 := by rw [hsec] at hqr hr1; omega
  have e1 : (GoFloat.ofInt q : F64) = .fin q := F64.ofInt_small q (by rw [abs_of_nonneg hq0]; omega)
  have e2 : (GoFloat.ofInt r : F64) = .fin r := F64.ofInt_small r (by rw [abs_of_nonneg hr0]; omega)
  have e3 : (GoFloat.lit (10 ^ 9) : F64) = .fin (10 ^ 9) := by
    have := F64.round_int (K := ℚ) (10 ^ 9) (by norm_num)
    push_cast at this
    exact this
  have hrq0 : (0 : ℚ) ≤ r := by exact_mod_cast hr0
  have hrq1 : (r : ℚ) < 10 ^ 9 := by rw [hsec] at hr1; exact_mod_cast hr1
  have hqq0 : (0 : ℚ) ≤ q := by exact_mod_cast hq0
  have hqq1 : (q : ℚ) ≤ 9223372036 := by exact_mod_cast hq1
  set f : ℚ := r / 10 ^ 9 with hf
  have hfrac0 : (0 : ℚ) ≤ f := by positivity
  have hfrac1 : f ≤ 1 := by rw [hf, div_le_one (by norm_num)]; exact le_of_lt hrq1
  have hdq : (d : ℚ) / 10 ^ 9 = q + f := by
    have : (d : ℚ) = 10 ^ 9 * q + r := by
      rw [← hqr, hsec]; push_cast; norm_num
    rw [this, hf]; field_simp
  have hD : (1 : ℚ) / 10 ^ 9 ≤ (d : ℚ) / 10 ^ 9 := by
    have : (1 : ℚ) ≤ d := by exact_mod_cast h0
    gcongr
  set D : ℚ := (d : ℚ) / 10 ^ 9 with hDdef
  have hu := uu_pos
  have hus : uu ≤ 1 / 64 := uu_small.trans (by norm_num)
  have hfa : f = 0 ∨ (2 : ℚ) ^ (-30 : ℤ) ≤ |f| := by
    rcases hr0.eq_or_lt with h | h
    · left; rw [hf, ← h]; simp
    · right
      have : (1 : ℚ) ≤ r := by exact_mod_cast h
      rw [abs_of_nonneg hfrac0, hf]
      calc (2 : ℚ) ^ (-30 : ℤ) ≤ 1 / 10 ^ 9 := by norm_num
        _ ≤ _ := by gcongr
  have ny := near_uu (-30) (by norm_num) hfa
  rw [abs_of_nonneg hfrac0] at ny
  set y := rnd f with hy
  have hy0 : 0 ≤ y := rnd_nonneg hfrac0
  have hy1 : y ≤ 1 := by have := rnd_mono hfrac1; rwa [rnd_one] at this
  have e4 : (GoFloat.div (GoFloat.ofInt r) (GoFloat.lit (10 ^ 9)) : F64) = .fin y := by
    rw [e2, e3]
    change F64.div (.fin _) (.fin _) = _
    rw [F64.div_fin _ (by norm_num), round_of_abs_le (n := 0) (by norm_num) (by rw [abs_of_nonneg hfrac0]; simpa using hfrac1)]
  have hs : |(q + y) - D| ≤ uu * D := by
    rw [hdq, show (q : ℚ) + y - (q + f) = y - f by ring]
    refine ny.trans (mul_le_mul_of_nonneg_left (by linarith) hu.le)
  have hs' := abs_le.1 hs
  have hD0 : 0 < D := lt_of_lt_of_le (by norm_num) hD
  have hslo : 63 / 64 * D ≤ q + y := by
    have : uu * D ≤ 1 / 64 * D := mul_le_mul_of_nonneg_right hus hD0.le
    linarith [hs'.1]
  have hs0 : 0 ≤ (q : ℚ) + y := by linarith
  have hsmall : (2 : ℚ) ^ (-31 : ℤ) ≤ q + y := by
    have h1 : (2 : ℚ) ^ (-31 : ℤ) ≤ 63 / 64 * (1 / 10 ^ 9) := by norm_num
    exact h1.trans ((mul_le_mul_of_nonneg_left hD (by norm_num)).trans hslo)
  have nx := near_uu (x := (q : ℚ) + y) (-31) (by norm_num) (.inr (by
    rw [abs_of_nonneg hs0]
    exact hsmall))
  rw [abs_of_nonneg hs0] at nx
  refine ⟨rnd ((q : ℚ) + y), ?_, ?_, ?_, ?_⟩
  · unfold seconds
    rw [e4, e1]
    change F64.round ((q : ℚ) + y) = _
    apply round_of_abs_le (n := 60) (by norm_num)
    rw [abs_of_nonneg hs0]
    norm_num
    linarith
  · have hsU : q + y ≤ D + uu * D := by linarith [hs'.2]
    have := mul_le_mul_of_nonneg_left hsU hu.le
    have h2 : uu * (uu * D) ≤ 1 / 64 * (uu * D) := mul_le_mul_of_nonneg_right hus (by positivity)
    have h3 : 0 ≤ uu * D := by positivity
    calc |rnd ((q : ℚ) + y) - D| = |(rnd ((q : ℚ) + y) - (q + y)) + ((q + y) - D)| := by congr 1; ring
      _ ≤ _ := abs_add_le _ _
      _ ≤ _ := by linarith
  · have h := rnd_mono (K := ℚ) (x := (2 : ℚ) ^ (-31 : ℤ)) (y := (q : ℚ) + y) hsmall
    rwa [rnd_two_zpow (-31) (by norm_num)] at h
  · have := abs_rnd_le (x := (q : ℚ) + y) (n := 35) (by rw [abs_of_nonneg hs0]; norm_num; linarith)
    exact (abs_le.1 this).2

/-- `RateMean` in float64 against the exact quotient. -/
theorem meanRate_near (c : Int64) (t0 t : Instant) (h : t0 < t) (hm : t - t0 ≤ maxInt64) :
    ∃ r : ℚ, (StandardMeter.meanRate c t0 t : F64) = .fin r ∧
      |r - (c.toInt : ℚ) / (((t - t0 : Int) : ℚ) / 10 ^ 9)| ≤ 5 * uu * |(c.toInt : ℚ) / (((t - t0 : Int) : ℚ) / 10 ^ 9)| := by
  obtain ⟨x, ex, nx, x0, x1⟩ := seconds_near (t - t0) (by omega) hm
  have ht : timeSub t t0 = t - t0 := by
    have hmin : minInt64 ≤ t - t0 := by unfold minInt64; omega
    show max minInt64 (min maxInt64 (t - t0)) = t - t0
    rw [min_eq_right hm, max_eq_right hmin]
  set D : ℚ := ((t - t0 : Int) : ℚ) / 10 ^ 9 with hD
  have hD0 : 0 < D := by
    have : (0 : ℚ) < ((t - t0 : Int) : ℚ) := by exact_mod_cast (by omega : 0 < t - t0)
    positivity
  have hu := uu_pos
  have hus : uu ≤ 1 / 1024 := uu_small.trans (by norm_num)
  have xpos : 0 < x := lt_of_lt_of_le (by positivity) x0
  have nc := near_uu (x := (c.toInt : ℚ)) 0 (by norm_num) (multiple_apart ⟨c.toInt, by simp⟩)
  have ca : rnd (c.toInt : ℚ) = 0 ∨ (1 : ℚ) ≤ |rnd (c.toInt : ℚ)| := by
    have := rnd_apart (K := ℚ) (x := (c.toInt : ℚ)) (e := 0) (by norm_num) (multiple_apart ⟨c.toInt, by simp⟩)
    simpa using this
  have cb : |rnd (c.toInt : ℚ)| ≤ 2 ^ 63 := by
    apply abs_rnd_le
    have := i64_range c
    rw [abs_le]
    constructor
    · have : (-2 ^ 63 : ℤ) ≤ c.toInt := by omega
      exact_mod_cast this
    · have : c.toInt ≤ (2 ^ 63 : ℤ) := by omega
      exact_mod_cast this
  set k : ℚ := (c.toInt : ℚ) with hk
  set k' := rnd k with hk'
  have qa : k' / x = 0 ∨ (2 : ℚ) ^ (-35 : ℤ) ≤ |k' / x| := by
    rcases ca with h | h
    · left; rw [h, zero_div]
    · right
      rw [abs_div, abs_of_pos xpos, le_div_iff₀ xpos]
      calc (2 : ℚ) ^ (-35 : ℤ) * x ≤ 2 ^ (-35 : ℤ) * 2 ^ 35 := by gcongr
        _ = 1 := by norm_num
        _ ≤ _ := h
  have qb : |k' / x| ≤ 2 ^ 94 := by
    rw [abs_div, abs_of_pos xpos, div_le_iff₀ xpos]
    calc |k'| ≤ (2 : ℚ) ^ 63 := cb
      _ = 2 ^ 94 * 2 ^ (-31 : ℤ) := by norm_num
      _ ≤ _ := by gcongr
  refine ⟨rnd (k' / x), ?_, ?_⟩
  · unfold StandardMeter.meanRate
    rw [ht, ex, ofInt_i64']
    change F64.div (.fin _) (.fin _) = _
    rw [F64.div_fin _ xpos.ne', round_of_abs_le (n := 94) (by norm_num) qb]
  · have nq := near_uu (-35) (by norm_num) qa
    set Q := |k / D| with hQ
    have hQ0 : 0 ≤ Q := abs_nonneg _
    -- the quotient of the rounded numbers
    have xl : D ≤ (1 + 4 * uu) * x := by
      have := (abs_le.1 nx).1
      have h2 : (2 + 1 / 8) * uu * D ≤ 3 / 1024 * D := by
        have := mul_le_mul_of_nonneg_right hus hD0.le
        linarith
      have h3 : (2 + 1 / 8) * uu * D ≤ 4 * uu * x := by
        have h4 : 3 * D ≤ 4 * x := by linarith
        nlinarith
      linarith
    have s1 : |k' / x - k / D| ≤ (3 + 1 / 4) * uu * Q := by
      have e : k' / x - k / D = (k' - k) / x + k / D * ((D - x) / x) := by field_simp; ring
      have b1 : |(k' - k) / x| ≤ uu * (1 + 4 * uu) * Q := by
        rw [abs_div, abs_of_pos xpos, div_le_iff₀ xpos]
        have : |k| = Q * D := by rw [hQ, abs_div, abs_of_pos hD0]; field_simp
        calc |k' - k| ≤ uu * |k| := nc
          _ = uu * Q * D := by rw [this]; ring
          _ ≤ uu * Q * ((1 + 4 * uu) * x) := by gcongr
          _ = _ := by ring
      have b2 : |k / D * ((D - x) / x)| ≤ (2 + 1 / 8) * uu * (1 + 4 * uu) * Q := by
        rw [abs_mul, ← hQ, mul_comm _ Q]
        apply mul_le_mul_of_nonneg_left _ hQ0
        rw [abs_div, abs_of_pos xpos, div_le_iff₀ xpos, abs_sub_comm]
        calc |x - D| ≤ (2 + 1 / 8) * uu * D := nx
          _ ≤ (2 + 1 / 8) * uu * ((1 + 4 * uu) * x) := by gcongr
          _ = _ := by ring
      rw [e]
      refine (abs_add_le _ _).trans ?_
      have b3 : uu * uu * Q ≤ 1 / 1024 * uu * Q := by gcongr
      have : 0 ≤ uu * Q := by positivity
      nlinarith
    have s2 : |k' / x| ≤ Q + (3 + 1 / 4) * uu * Q := by
      have : |k' / x| ≤ |k' / x - k / D| + |k / D| := by
        have := abs_add_le (k' / x - k / D) (k / D)
        rwa [sub_add_cancel] at this
      linarith
    have s3 := mul_le_mul_of_nonneg_left s2 hu.le
    have b3 : uu * uu * Q ≤ 1 / 1024 * uu * Q := by gcongr
    calc |rnd (k' / x) - k / D| = |(rnd (k' / x) - k' / x) + (k' / x - k / D)| := by congr 1; ring
      _ ≤ _ := abs_add_le _ _
      _ ≤ _ := by nlinarith
end GoMetrics
