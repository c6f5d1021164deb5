import Verif.Lemmas.Percentile
import Verif.Lemmas.RoundEval
import Verif.Spec.Stats
import Mathlib.Tactic.FieldSimp

/-! Property theorems C10-C17: statistics of a slice of int64. -/

set_option linter.unusedSimpArgs false
set_option linter.unusedSectionVars false

namespace GoMetrics
open Spec

/-! ### C10 -/

/-- C10: the maximum of a non-empty slice is an element of it and not below any element. -/
theorem C10_max (vs : List Int64) (h : vs ≠ []) :
    sampleMax vs ∈ vs ∧ ∀ v ∈ vs, v.toInt ≤ (sampleMax vs).toInt := by
  have hl : vs.length ≠ 0 := by simpa using h
  unfold sampleMax
  rw [if_neg hl]
  obtain ⟨h1, h2, h3⟩ := foldl_max vs Int64.minValue
  refine ⟨?_, fun v hv => i64_le.1 (h3 v hv)⟩
  rcases h1 with h1 | h1
  · obtain ⟨v, hv⟩ := List.exists_mem_of_ne_nil vs h
    have := i64_le.1 (h3 v hv)
    rw [h1] at this ⊢
    have hr := i64_range v
    have : v = Int64.minValue := Int64.toInt_inj.1 (by rw [show Int64.minValue.toInt = -2 ^ 63 by decide] at *; omega)
    exact this ▸ hv
  · exact h1

/-- C10: the minimum of a non-empty slice is an element of it and not above any element. -/
theorem C10_min (vs : List Int64) (h : vs ≠ []) :
    sampleMin vs ∈ vs ∧ ∀ v ∈ vs, (sampleMin vs).toInt ≤ v.toInt := by
  have hl : vs.length ≠ 0 := by simpa using h
  unfold sampleMin
  rw [if_neg hl]
  obtain ⟨h1, h2, h3⟩ := foldl_min vs Int64.maxValue
  refine ⟨?_, fun v hv => i64_le.1 (h3 v hv)⟩
  rcases h1 with h1 | h1
  · obtain ⟨v, hv⟩ := List.exists_mem_of_ne_nil vs h
    have := i64_le.1 (h3 v hv)
    rw [h1] at this ⊢
    have hr := i64_range v
    have : v = Int64.maxValue := Int64.toInt_inj.1 (by rw [show Int64.maxValue.toInt = 2 ^ 63 - 1 by decide] at *; omega)
    exact this ▸ hv
  · exact h1

/-- C10: of an empty slice both are 0. -/
theorem C10_empty : sampleMax [] = 0 ∧ sampleMin [] = 0 := by decide

example : sampleMax [Int64.minValue] = Int64.minValue ∧ sampleMin [3, -7, 5] = -7 ∧ [3, -7, (5 : Int64)] ≠ [] := by decide

/-! ### C11 -/

/-- C11: `SampleSum` is the mathematical sum wrapped to int64. -/
theorem C11_sum_wraps (vs : List Int64) : (sampleSum vs).toInt = wrap64 (total vs) := sampleSum_toInt vs

/-- C11: it is the exact sum whenever that fits in int64. -/
theorem C11_sum_exact (vs : List Int64) (h : SumFits vs) : (sampleSum vs).toInt = total vs := by
  rw [C11_sum_wraps, bmod_small h.1 h.2]

/-- C11: it does not depend on the order. -/
theorem C11_sum_perm (vs ws : List Int64) (h : vs.Perm ws) : sampleSum vs = sampleSum ws := by
  apply Int64.toInt_inj.1
  rw [C11_sum_wraps, C11_sum_wraps, total, total, (h.map _).sum_eq]

example : SumFits [Int64.maxValue, Int64.minValue, 5] := by decide
example : (sampleSum [Int64.maxValue, 1]).toInt = -2 ^ 63 := by decide

/-! ### C12 -/

section exact
variable {K : Type} [Field K] [LinearOrder K] [IsStrictOrderedRing K] [FloorRing K]

private theorem total_bounds (vs : List Int64) (lo hi : Int) (h1 : ∀ v ∈ vs, lo ≤ v.toInt) (h2 : ∀ v ∈ vs, v.toInt ≤ hi) :
    lo * vs.length ≤ total vs ∧ total vs ≤ hi * vs.length := by
  induction vs with
  | nil => simp [total]
  | cons v vs ih =>
    obtain ⟨a, b⟩ := ih (fun w hw => h1 w (List.mem_cons_of_mem _ hw)) (fun w hw => h2 w (List.mem_cons_of_mem _ hw))
    have c := h1 v List.mem_cons_self
    have d := h2 v List.mem_cons_self
    simp only [total, List.map_cons, List.sum_cons, List.length_cons, Nat.cast_add, Nat.cast_one] at *
    constructor <;> nlinarith

private theorem mean_exact (vs : List Int64) (h : vs ≠ []) (hs : SumFits vs) :
    (sampleMean vs : K) = (total vs : K) / vs.length := by
  have hl : vs.length ≠ 0 := by simpa using h
  unfold sampleMean
  rw [if_neg hl, C11_sum_exact vs hs]
  simp

/-- C12 in exact arithmetic, for slices whose sum fits in int64. Missing from the full statement: slices whose sum overflows
(where it is false, `C12_refuted_overflow`) and rounding (false for large values, `C12_refuted_rounding`). -/
theorem C12_mean_between_partial (vs : List Int64) (h : vs ≠ []) (hs : SumFits vs) :
    ((sampleMin vs).toInt : K) ≤ sampleMean vs ∧ (sampleMean vs : K) ≤ ((sampleMax vs).toInt : K) := by
  obtain ⟨a, b⟩ := total_bounds vs _ _ (C10_min vs h).2 (C10_max vs h).2
  have hl : 0 < vs.length := List.length_pos_of_ne_nil h
  have hlK : (0 : K) < vs.length := by exact_mod_cast hl
  rw [mean_exact vs h hs, le_div_iff₀ hlK, div_le_iff₀ hlK]
  constructor
  · exact_mod_cast a
  · exact_mod_cast b

end exact

/-- C12 in IEEE arithmetic, for slices of at most 2^53 values whose sum is at most 2^53 in magnitude. -/
theorem C12_mean_between_ieee_partial (vs : List Int64) (h : vs ≠ []) (hlen : (vs.length : Int) ≤ 2 ^ 53)
    (hs : |total vs| ≤ 2 ^ 53) :
    F64.le (GoFloat.ofInt (sampleMin vs).toInt) (sampleMean vs) = true ∧
    F64.le (sampleMean vs) (GoFloat.ofInt (sampleMax vs).toInt) = true := by
  obtain ⟨a, b⟩ := total_bounds vs _ _ (C10_min vs h).2 (C10_max vs h).2
  have hl : 0 < vs.length := List.length_pos_of_ne_nil h
  have hlK : (0 : ℚ) < vs.length := by exact_mod_cast hl
  rw [abs_le] at hs
  have hfit : SumFits vs := ⟨by omega, by omega⟩
  have hm : (sampleMean vs : F64) = F64.round ((total vs : ℚ) / vs.length) := by
    unfold sampleMean
    rw [if_neg (by omega), C11_sum_exact vs hfit]
    show F64.div (F64.ofInt _) (F64.ofInt _) = _
    rw [F64.ofInt_small _ (abs_le.2 hs), F64.ofInt_small _ (by rw [abs_of_nonneg (by omega)]; exact hlen)]
    show (if ((vs.length : ℤ) : ℚ) = 0 then _ else _) = _
    rw [if_neg (by exact_mod_cast hlK.ne')]
    norm_cast
  rw [hm]
  constructor
  · show F64.le (F64.round ((_ : ℤ) : ℚ)) _ = true
    apply F64.round_mono
    rw [le_div_iff₀ hlK]
    exact_mod_cast a
  · show F64.le _ (F64.round ((_ : ℤ) : ℚ)) = true
    apply F64.round_mono
    rw [div_le_iff₀ hlK]
    exact_mod_cast b

example : ([5, -2, 7] : List Int64) ≠ [] ∧ SumFits [5, -2, 7] ∧ |total [5, -2, 7]| ≤ 2 ^ 53 := by decide

/-- C12 is false when the sum overflows: the mean of two copies of MaxInt64 is -1. -/
theorem C12_refuted_overflow : (sampleMean [Int64.maxValue, Int64.maxValue] : ℚ) < ((sampleMin [Int64.maxValue, Int64.maxValue]).toInt : ℚ) := by
  have h1 : (sampleSum [Int64.maxValue, Int64.maxValue]).toInt = -2 := by decide
  have h2 : (sampleMin [Int64.maxValue, Int64.maxValue]).toInt = 2 ^ 63 - 1 := by decide
  unfold sampleMean
  rw [if_neg (by decide), h1, h2]
  norm_num

private theorem big_mean : (sampleMean [3010580803136829, 3010580803136829, 3010580803136829] : F64) = .fin (6021161606273659 / 2) := by
  have h1 : (sampleSum [3010580803136829, 3010580803136829, 3010580803136829]).toInt = 9031742409410487 := by decide
  have r1 : rnd ((9031742409410487 : ℤ) : ℚ) = 9031742409410488 := by
    rw [rnd_eval 53 (by norm_num) (by norm_num) (by norm_num),
      roundEven_half_up (n := 4515871204705243) (by norm_num) (by norm_num)]
    norm_num
  unfold sampleMean
  rw [if_neg (by decide), h1]
  show F64.div (F64.ofInt _) (F64.ofInt (3 : ℕ)) = _
  rw [F64.ofInt_small ((3 : ℕ) : ℤ) (by norm_num), F64.ofInt_i64 _ (by norm_num), r1]
  rw [F64.div_fin _ (by norm_num), round_of_abs_le (n := 64) (by norm_num) (by norm_num [abs_of_pos])]
  congr 1
  rw [rnd_eval 51 (by norm_num [abs_of_pos]) (by norm_num [abs_of_pos]) (by norm_num),
    roundEven_of_lt (n := 6021161606273659) (by norm_num [abs_lt])]
  norm_num

/-- C12 is false in float64 even without overflow: three copies of 3010580803136829 (sum ≈ 2^53) have a mean above their
maximum. -/
theorem C12_refuted_rounding :
    SumFits [3010580803136829, 3010580803136829, 3010580803136829] ∧
    F64.lt (GoFloat.ofInt (sampleMax [3010580803136829, 3010580803136829, 3010580803136829]).toInt)
      (sampleMean [3010580803136829, 3010580803136829, 3010580803136829]) = true := by
  refine ⟨by decide, ?_⟩
  have h2 : (sampleMax [3010580803136829, 3010580803136829, 3010580803136829]).toInt = 3010580803136829 := by decide
  rw [big_mean, h2]
  show F64.lt (F64.ofInt _) _ = true
  rw [F64.ofInt_small _ (by norm_num), F64.lt_fin]
  norm_num

/-! ### C13 -/

section exact
variable {K : Type} [Field K] [LinearOrder K] [IsStrictOrderedRing K] [FloorRing K]

private theorem foldl_sq (vs : List Int64) (m s : K) :
    vs.foldl (fun sum v => let d := GoFloat.sub (GoFloat.ofInt v.toInt) m; GoFloat.add sum (GoFloat.mul d d)) s
      = s + (vs.map (fun v => ((v.toInt : K) - m) * ((v.toInt : K) - m))).sum := by
  induction vs generalizing s with
  | nil => simp
  | cons v vs ih => rw [List.foldl_cons, ih]; simp [add_assoc]

private theorem variance_exact (vs : List Int64) (h : vs ≠ []) :
    (sampleVariance vs : K) = (vs.map (fun v => ((v.toInt : K) - sampleMean vs) * ((v.toInt : K) - sampleMean vs))).sum / vs.length := by
  have hl : vs.length ≠ 0 := by simpa using h
  unfold sampleVariance
  simp only [if_neg hl, foldl_sq]
  simp

private theorem sum_sq_expand (vs : List Int64) (m : K) :
    (vs.map (fun v => ((v.toInt : K) - m) * ((v.toInt : K) - m))).sum = (totalSq vs : K) - 2 * m * (total vs : K) + m * m * vs.length := by
  induction vs with
  | nil => simp [total, totalSq]
  | cons v vs ih =>
    simp only [List.map_cons, List.sum_cons, ih, total, totalSq, List.length_cons]
    push_cast
    ring

/-- C13, exact: the variance is the mean of the squares minus the square of the mean (sum within int64). -/
theorem C13_variance_formula (vs : List Int64) (h : vs ≠ []) (hs : SumFits vs) :
    (sampleVariance vs : K) = (totalSq vs : K) / vs.length - ((total vs : K) / vs.length) ^ 2 := by
  have hl : (vs.length : K) ≠ 0 := by
    have : vs.length ≠ 0 := by simpa using h
    exact_mod_cast this
  rw [variance_exact vs h, sum_sq_expand, mean_exact vs h hs]
  field_simp
  ring

/-- C13, exact: never negative, 0 exactly for constant slices (sum within int64). -/
theorem C13_variance_zero_iff_constant (vs : List Int64) (h : vs ≠ []) (hs : SumFits vs) :
    0 ≤ (sampleVariance vs : K) ∧ ((sampleVariance vs : K) = 0 ↔ ∀ v ∈ vs, ∀ w ∈ vs, v = w) := by
  have hl0 : 0 < vs.length := List.length_pos_of_ne_nil h
  have hl : (0 : K) < vs.length := by exact_mod_cast hl0
  rw [variance_exact vs h]
  have hnn : ∀ x ∈ vs.map (fun v => ((v.toInt : K) - sampleMean vs) * ((v.toInt : K) - sampleMean vs)), 0 ≤ x := by
    intro x hx
    obtain ⟨v, _, rfl⟩ := List.mem_map.1 hx
    exact mul_self_nonneg _
  have hsum := List.sum_nonneg hnn
  refine ⟨div_nonneg hsum hl.le, ?_⟩
  rw [div_eq_zero_iff, or_iff_left hl.ne']
  constructor
  · intro h0
    have hz : ∀ v ∈ vs, (v.toInt : K) = sampleMean vs := by
      intro v hv
      have := (List.all_zero_of_le_zero_le_of_sum_eq_zero hnn h0) (List.mem_map_of_mem (f := fun v : Int64 => ((v.toInt : K) - sampleMean vs) * ((v.toInt : K) - sampleMean vs)) hv)
      have := mul_self_eq_zero.1 this
      linarith
    intro v hv w hw
    apply Int64.toInt_inj.1
    have : (v.toInt : K) = w.toInt := (hz v hv).trans (hz w hw).symm
    exact_mod_cast this
  · intro hc
    obtain ⟨v0, hv0⟩ := List.exists_mem_of_ne_nil vs h
    have ht : total vs = v0.toInt * vs.length := by
      obtain ⟨a, b⟩ := total_bounds vs v0.toInt v0.toInt (fun v hv => by rw [hc v hv v0 hv0]) (fun v hv => by rw [hc v hv v0 hv0])
      omega
    have hmean : (sampleMean vs : K) = v0.toInt := by
      rw [mean_exact vs h hs, ht, div_eq_iff hl.ne']; push_cast; ring
    apply List.sum_eq_zero
    intro x hx
    obtain ⟨v, hv, rfl⟩ := List.mem_map.1 hx
    rw [hmean, hc v hv v0 hv0]; ring

end exact

/-- C13: empty slice. -/
theorem C13_empty {F : Type} [GoFloat F] : (sampleVariance [] : F) = GoFloat.lit 0 ∧ (sampleMean [] : F) = GoFloat.lit 0 := ⟨rfl, rfl⟩

/-- C13, standard deviation over the reals: its square is the variance and it is not negative. -/
theorem C13_stddev_sq (vs : List Int64) : (sampleStdDev vs : ℝ) ^ 2 = sampleVariance vs ∧ 0 ≤ (sampleStdDev vs : ℝ) := by
  refine ⟨?_, Real.sqrt_nonneg _⟩
  refine Real.sq_sqrt ?_
  by_cases h : vs = []
  · subst h; simp [sampleVariance]
  · rw [variance_exact vs h]
    apply div_nonneg
    · apply List.sum_nonneg
      intro x hx
      obtain ⟨v, _, rfl⟩ := List.mem_map.1 hx
      exact mul_self_nonneg _
    · positivity

section ieee
open F64

private theorem mean_ieee (vs : List Int64) (hlen : (vs.length : Int) ≤ 2 ^ 53) :
    ∃ q : ℚ, (sampleMean vs : F64) = fin q ∧ |q| ≤ 2 ^ 64 := by
  by_cases h0 : vs.length = 0
  · exact ⟨0, by unfold sampleMean; rw [if_pos h0, lit_zero], by norm_num⟩
  · have hr := i64_range (sampleSum vs)
    have hs : |rnd ((sampleSum vs).toInt : ℚ)| ≤ 2 ^ 64 := abs_rnd_i64 _ (by rw [abs_le]; omega)
    have hl : (1 : ℚ) ≤ vs.length := by exact_mod_cast (Nat.one_le_iff_ne_zero.2 h0)
    have hq : |rnd ((sampleSum vs).toInt : ℚ) / vs.length| ≤ 2 ^ 64 := by
      rw [abs_div, abs_of_pos (by linarith : (0 : ℚ) < vs.length)]
      rw [div_le_iff₀ (by linarith)]
      nlinarith
    refine ⟨rnd (rnd ((sampleSum vs).toInt : ℚ) / vs.length), ?_, abs_rnd_le hq⟩
    unfold sampleMean
    rw [if_neg h0]
    show F64.div (F64.ofInt _) (F64.ofInt _) = _
    rw [ofInt_i64 _ (by rw [abs_le]; omega), ofInt_small _ (by rw [abs_of_nonneg (by omega)]; exact hlen)]
    show (if ((vs.length : ℤ) : ℚ) = 0 then _ else F64.round (_ : ℚ)) = _
    rw [if_neg (by push_cast; linarith)]
    have := round_of_abs_le (n := 64) (by norm_num) hq
    exact_mod_cast this

/-- C13, IEEE: for every slice of at most 2^53 values the variance is a finite number that is not negative (never NaN or ±Inf), even
when the int64 sum overflows; so the standard deviation is not NaN and not negative either. -/
theorem C13_variance_ieee_finite (vs : List Int64) (hlen : (vs.length : Int) ≤ 2 ^ 53) :
    (∃ q : ℚ, (sampleVariance vs : F64) = fin q ∧ 0 ≤ q) ∧ F64.le (fin 0) (sampleStdDev vs) = true := by
  have key : ∃ q : ℚ, (sampleVariance vs : F64) = fin q ∧ 0 ≤ q := by
    obtain ⟨m, hm, hm64⟩ := mean_ieee vs hlen
    by_cases h0 : vs.length = 0
    · exact ⟨0, by unfold sampleVariance; rw [if_pos h0, lit_zero], le_refl _⟩
    have hfold : ∀ (ws : List Int64) (n : Nat) (s : ℚ), ((n + ws.length : ℕ) : Int) ≤ 2 ^ 53 → 0 ≤ s → s ≤ n * (2 : ℚ) ^ 132 →
        ∃ q : ℚ, ws.foldl (fun (sum : F64) v => let d := GoFloat.sub (GoFloat.ofInt v.toInt) (fin m : F64); GoFloat.add sum (GoFloat.mul d d)) (fin s) = fin q
          ∧ 0 ≤ q ∧ q ≤ ((n + ws.length : ℕ) : ℚ) * (2 : ℚ) ^ 132 := by
      intro ws
      induction ws with
      | nil => intro n s _ h1 h2; exact ⟨s, rfl, h1, by simpa using h2⟩
      | cons v ws ih =>
        intro n s hn h1 h2
        have hr := i64_range v
        set x := rnd (v.toInt : ℚ) with hx
        have hx64 : |x| ≤ 2 ^ 64 := abs_rnd_i64 _ (by rw [abs_le]; omega)
        have hd : |x - m| ≤ 2 ^ 65 := by
          refine (abs_sub _ _).trans ?_
          linarith
        have e1 : GoFloat.sub (GoFloat.ofInt v.toInt) (fin m : F64) = fin (rnd (x - m)) := by
          rw [ofInt_i64']
          show F64.round (x + -m) = _
          rw [← sub_eq_add_neg]
          exact round_of_abs_le (n := 65) (by norm_num) hd
        have hd' := abs_rnd_le hd
        set d := rnd (x - m)
        have hdd : |d * d| ≤ 2 ^ 130 := by
          rw [abs_mul]
          calc _ ≤ (2 : ℚ) ^ 65 * 2 ^ 65 := mul_le_mul hd' hd' (abs_nonneg _) (by norm_num)
            _ = _ := by norm_num
        have e2 : GoFloat.mul (fin d : F64) (fin d) = fin (rnd (d * d)) := round_of_abs_le (n := 130) (by norm_num) hdd
        have hdd0 : 0 ≤ rnd (d * d) := rnd_nonneg (mul_self_nonneg _)
        have hdd1 : rnd (d * d) ≤ 2 ^ 130 := (abs_le.1 (abs_rnd_le hdd)).2
        have hn1 : (((n + 1 : ℕ) : ℤ)) ≤ 2 ^ 53 := by
          simp only [List.length_cons] at hn; omega
        have hs2 : s + rnd (d * d) ≤ ((n + 1 : ℕ) : ℚ) * (2 : ℚ) ^ 132 := by
          push_cast
          have : (2 : ℚ) ^ 130 ≤ 2 ^ 132 := by norm_num
          linarith
        have hrs : rnd (s + rnd (d * d)) ≤ ((n + 1 : ℕ) : ℚ) * (2 : ℚ) ^ 132 := by
          have := rnd_mono hs2
          have e := rnd_dyadic (K := ℚ) ((n + 1 : ℕ) : ℤ) 132 (by rw [abs_of_nonneg (by omega)]; exact hn1) (by norm_num)
          have e' : rnd (((n + 1 : ℕ) : ℚ) * (2 : ℚ) ^ 132) = ((n + 1 : ℕ) : ℚ) * (2 : ℚ) ^ 132 := by exact_mod_cast e
          rwa [e'] at this
        have hrs0 : 0 ≤ rnd (s + rnd (d * d)) := rnd_nonneg (by linarith)
        have e3 : GoFloat.add (fin s : F64) (fin (rnd (d * d))) = fin (rnd (s + rnd (d * d))) := by
          show F64.round _ = _
          refine round_of_abs_le (n := 185) (by norm_num) ?_
          rw [abs_of_nonneg (by linarith)]
          refine hs2.trans ?_
          have : ((n + 1 : ℕ) : ℚ) ≤ 2 ^ 53 := by exact_mod_cast hn1
          calc ((n + 1 : ℕ) : ℚ) * (2 : ℚ) ^ 132 ≤ 2 ^ 53 * 2 ^ 132 := mul_le_mul_of_nonneg_right this (by norm_num)
            _ = 2 ^ 185 := by norm_num
        obtain ⟨q, hq1, hq2, hq3⟩ := ih (n + 1) (rnd (s + rnd (d * d))) (by simp only [List.length_cons] at hn; omega) hrs0 hrs
        refine ⟨q, ?_, hq2, ?_⟩
        · rw [List.foldl_cons]
          simp only [e1, e2, e3]
          exact hq1
        · refine hq3.trans (le_of_eq ?_)
          simp only [List.length_cons]; push_cast; ring
    obtain ⟨q, hq1, hq2, hq3⟩ := hfold vs 0 0 (by simpa using hlen) (le_refl _) (by norm_num)
    have hl : (1 : ℚ) ≤ vs.length := by exact_mod_cast (Nat.one_le_iff_ne_zero.2 h0)
    refine ⟨rnd (q / vs.length), ?_, rnd_nonneg (div_nonneg hq2 (by linarith))⟩
    unfold sampleVariance
    rw [if_neg h0]
    simp only [hm, lit_zero, hq1]
    show F64.div (fin q) (F64.ofInt _) = _
    rw [ofInt_small _ (by rw [abs_of_nonneg (by omega)]; exact hlen)]
    show (if ((vs.length : ℤ) : ℚ) = 0 then _ else F64.round (_ : ℚ)) = _
    rw [if_neg (by push_cast; linarith)]
    have hb : |q / vs.length| ≤ 2 ^ 185 := by
      rw [abs_of_nonneg (div_nonneg hq2 (by linarith)), div_le_iff₀ (by linarith)]
      have : ((0 + vs.length : ℕ) : ℚ) * 2 ^ 132 ≤ 2 ^ 185 * vs.length := by
        push_cast
        nlinarith
      linarith
    have := round_of_abs_le (n := 185) (by norm_num) hb
    exact_mod_cast this
  refine ⟨key, ?_⟩
  obtain ⟨q, hq, hq0⟩ := key
  show F64.le (fin 0) (F64.sqrt (sampleVariance vs)) = true
  rw [hq]
  show F64.le (fin 0) (if q < 0 then nan else F64.round (Real.sqrt (q : ℝ))) = true
  rw [if_neg (by linarith)]
  have h2 := round_mono (K := ℝ) (Real.sqrt_nonneg (q : ℝ))
  have h3 : F64.round (0 : ℝ) = fin 0 := by simpa using round_int (K := ℝ) 0 (by norm_num)
  rwa [h3] at h2

end ieee

/-- C13 is false in float64 for constant slices of large values: the variance of three copies of 3010580803136829 is 1/4. -/
theorem C13_refuted_constant_rounding :
    (sampleVariance [3010580803136829, 3010580803136829, 3010580803136829] : F64) = .fin (1 / 4) := by
  have e1 : ∀ s : ℚ, |s| ≤ 100 → (let d := GoFloat.sub (GoFloat.ofInt (3010580803136829 : Int64).toInt) (F64.fin (6021161606273659 / 2));
      GoFloat.add (F64.fin s) (GoFloat.mul d d)) = F64.fin (rnd (s + 1 / 4)) := by
    intro s hs
    have h1 : (3010580803136829 : Int64).toInt = 3010580803136829 := by decide
    have h2 : GoFloat.sub (GoFloat.ofInt (3010580803136829 : Int64).toInt) (F64.fin (6021161606273659 / 2)) = F64.fin (-1 / 2) := by
      rw [h1]
      show F64.sub (F64.ofInt _) _ = _
      rw [F64.ofInt_small _ (by norm_num)]
      show F64.round (_ + _) = _
      have : ((3010580803136829 : ℤ) : ℚ) + -(6021161606273659 / 2) = ((-1 : ℤ) : ℚ) * 2 ^ (-1 : ℤ) := by norm_num
      rw [this, round_of_abs_le (n := 0) (by norm_num) (by norm_num [abs_of_pos]), rnd_dyadic _ _ (by norm_num) (by norm_num)]
      norm_num
    simp only [h2]
    have h3 : GoFloat.mul (F64.fin (-1 / 2)) (F64.fin (-1 / 2)) = F64.fin (1 / 4) := by
      show F64.round (_ * _) = _
      have : (-1 / 2 : ℚ) * (-1 / 2) = ((1 : ℤ) : ℚ) * 2 ^ (-2 : ℤ) := by norm_num
      rw [this, round_of_abs_le (n := 0) (by norm_num) (by norm_num [abs_of_pos]), rnd_dyadic _ _ (by norm_num) (by norm_num)]
      norm_num
    rw [h3]
    show F64.round (_ + _) = _
    refine round_of_abs_le (n := 10) (by norm_num) ((abs_add_le _ _).trans ?_)
    norm_num [abs_of_pos]
    linarith
  have q1 : rnd ((0 : ℚ) + 1 / 4) = 1 / 4 := by
    have := rnd_dyadic (K := ℚ) 1 (-2) (by norm_num) (by norm_num)
    norm_num at this ⊢; exact this
  have q2 : rnd ((1 / 4 : ℚ) + 1 / 4) = 1 / 2 := by
    have := rnd_dyadic (K := ℚ) 1 (-1) (by norm_num) (by norm_num)
    norm_num at this ⊢; exact this
  have q3 : rnd ((1 / 2 : ℚ) + 1 / 4) = 3 / 4 := by
    have := rnd_dyadic (K := ℚ) 3 (-2) (by norm_num) (by norm_num)
    norm_num at this ⊢; exact this
  have q4 : rnd ((3 / 4 : ℚ) / 3) = 1 / 4 := by
    have := rnd_dyadic (K := ℚ) 1 (-2) (by norm_num) (by norm_num)
    norm_num at this ⊢; exact this
  unfold sampleVariance
  rw [if_neg (by decide)]
  simp only [big_mean, lit_zero, List.foldl_cons, List.foldl_nil]
  rw [e1 0 (by norm_num), q1, e1 (1 / 4) (by norm_num [abs_of_pos]), q2, e1 (1 / 2) (by norm_num [abs_of_pos]), q3]
  show F64.div (.fin (3 / 4)) (F64.ofInt (3 : ℕ)) = _
  rw [F64.ofInt_small ((3 : ℕ) : ℤ) (by norm_num)]
  rw [F64.div_fin _ (by norm_num)]
  have : (3 / 4 : ℚ) / ((3 : ℕ) : ℤ) = 3 / 4 / 3 := by norm_num
  rw [this, round_of_abs_le (n := 0) (by norm_num) (by norm_num [abs_of_pos]), q4]

example : (([4, 8] : List Int64) ≠ [] ∧ SumFits [4, 8] ∧ ¬ ∀ v ∈ ([4, 8] : List Int64), ∀ w ∈ ([4, 8] : List Int64), v = w) := by decide

/-! ### C14 -/

/-- C14: for every float64 `p` that is not NaN (infinities and values outside [0,1] included) and every sample a Go slice can
hold, a percentile request returns. -/
theorem C14_percentile_total (vs : List Int64) (p : F64) (hp : p ≠ .nan) (hlen : (vs.length : Int) ≤ maxInt64) :
    ∃ s ws, samplePercentile vs p = .ok (s, ws) := by
  rcases Nat.eq_zero_or_pos vs.length with h0 | h0
  · have : vs = [] := List.eq_nil_of_length_eq_zero h0
    subst this
    exact ⟨_, _, samplePercentile_empty p⟩
  · rw [samplePercentile_nonempty vs p h0]
    have hl := sortInts_length vs
    rcases percentileSorted_f64 (sortInts vs) p hp (by omega) (by omega) with ⟨-, h⟩ | ⟨-, h⟩ | ⟨q, k, _, hk, _, _, _, _, _, h⟩ <;>
      exact ⟨_, _, by rw [h]; rfl⟩

/-- C14: a batch request with no NaN in it returns, one score per requested percentile. -/
theorem C14_percentiles_total (vs : List Int64) (ps : List F64) (hp : ∀ p ∈ ps, p ≠ .nan) (hlen : (vs.length : Int) ≤ maxInt64) :
    ∃ ss ws, samplePercentiles vs ps = .ok (ss, ws) ∧ ss.length = ps.length := by
  unfold samplePercentiles
  split_ifs with h0
  · have hl := sortInts_length vs
    have : ∃ ss : List F64, ps.mapM (percentileSorted (sortInts vs)) = .ok ss ∧ ss.length = ps.length := by
      induction ps with
      | nil => exact ⟨[], rfl, rfl⟩
      | cons p ps ih =>
        obtain ⟨ss, h1, h2⟩ := ih (fun q hq => hp q (List.mem_cons_of_mem _ hq))
        obtain ⟨s, hs⟩ : ∃ s, percentileSorted (sortInts vs) p = .ok s := by
          rcases percentileSorted_f64 (sortInts vs) p (hp p List.mem_cons_self) (by omega) (by omega) with
            ⟨-, h⟩ | ⟨-, h⟩ | ⟨q, k, _, hk, _, _, _, _, _, h⟩ <;> exact ⟨_, h⟩
        refine ⟨s :: ss, ?_, by simp [h2]⟩
        rw [List.mapM_cons, hs, h1]; rfl
    obtain ⟨ss, h1, h2⟩ := this
    exact ⟨ss, _, by simp only [h1]; rfl, h2⟩
  · exact ⟨_, _, rfl, by simp⟩

/-- C14: an empty sample has all scores zero. -/
theorem C14_empty {F : Type} [GoFloat F] (ps : List F) :
    samplePercentiles [] ps = .ok (ps.map (fun _ => GoFloat.lit 0), []) := rfl

/-- C14, why NaN is excluded: a NaN request on any non-empty sample panics with an index out of range. -/
theorem C14_nan_panics (vs : List Int64) (h : vs ≠ []) (hlen : (vs.length : Int) ≤ maxInt64) :
    samplePercentile vs F64.nan = .error .index := by
  have h0 : 0 < vs.length := List.length_pos_of_ne_nil h
  rw [samplePercentile_nonempty vs _ h0]
  have hpos : GoFloat.mul F64.nan (GoFloat.ofInt (((sortInts vs).length : Int) + 1)) = F64.nan := rfl
  have : percentileSorted (sortInts vs) F64.nan = .error .index := by
    unfold percentileSorted
    simp only [hpos, lit_one]
    rw [ofInt_len _ (by rw [sortInts_length]; exact hlen)]
    rfl
  rw [this]; rfl

example : F64.inf true ≠ .nan ∧ (([3, 1] : List Int64).length : Int) ≤ maxInt64 ∧ ([3, 1] : List Int64) ≠ [] := by decide

/-! ### C15 -/

section exact
variable {K : Type} [Field K] [LinearOrder K] [IsStrictOrderedRing K] [FloorRing K]

private theorem sorted_min (vs : List Int64) (h : vs ≠ []) (h0 : 0 < (sortInts vs).length) :
    (sortInts vs)[0].toInt = (sampleMin vs).toInt := by
  obtain ⟨m1, m2⟩ := C10_min vs h
  have hmem : (sortInts vs)[0] ∈ vs := (sortInts_perm vs).subset (List.getElem_mem _)
  obtain ⟨i, hi, he⟩ := List.getElem_of_mem ((sortInts_perm vs).symm.subset m1)
  have := sorted_get (sortInts_sorted vs) (Nat.zero_le i) hi
  rw [he] at this
  have := m2 _ hmem
  omega

private theorem sorted_max (vs : List Int64) (h : vs ≠ []) (h0 : 0 < (sortInts vs).length) :
    (sortInts vs)[(sortInts vs).length - 1].toInt = (sampleMax vs).toInt := by
  obtain ⟨m1, m2⟩ := C10_max vs h
  have hmem : (sortInts vs)[(sortInts vs).length - 1] ∈ vs := (sortInts_perm vs).subset (List.getElem_mem _)
  obtain ⟨i, hi, he⟩ := List.getElem_of_mem ((sortInts_perm vs).symm.subset m1)
  have := sorted_get (sortInts_sorted vs) (show i ≤ (sortInts vs).length - 1 by omega) (by omega)
  rw [he] at this
  have := m2 _ hmem
  omega

end exact

section exact
variable {K : Type} [Field K] [LinearOrder K] [IsStrictOrderedRing K] [FloorRing K]

/-- C15, exact arithmetic: percentiles of a non-empty sample lie between Min and Max, are Min for p ≤ 0 and Max for p ≥ 1, and
are monotone in p. -/
theorem C15_exact (vs : List Int64) (h : vs ≠ []) (p q : K) (hpq : p ≤ q) :
    ∃ s t ws, samplePercentile vs p = .ok (s, ws) ∧ samplePercentile vs q = .ok (t, ws) ∧
      ((sampleMin vs).toInt : K) ≤ s ∧ s ≤ t ∧ t ≤ ((sampleMax vs).toInt : K) ∧
      (p ≤ 0 → s = ((sampleMin vs).toInt : K)) ∧ (1 ≤ q → t = ((sampleMax vs).toInt : K)) := by
  have h0 : 0 < vs.length := List.length_pos_of_ne_nil h
  have hl := sortInts_length vs
  have hs := sortInts_sorted vs
  have hn : 0 < (sortInts vs).length := by omega
  rw [samplePercentile_nonempty vs p h0, samplePercentile_nonempty vs q h0, ← sorted_min vs h hn, ← sorted_max vs h hn]
  obtain ⟨s, hs1, s2, s3, s4, s5⟩ := score_exact (sortInts vs) hs p hn
  obtain ⟨t, ht1, t2, t3, t4, t5⟩ := score_exact (sortInts vs) hs q hn
  exact ⟨s, t, _, by rw [hs1]; rfl, by rw [ht1]; rfl, s2, score_exact_mono _ hs p q hpq hn s t hs1 ht1, t3, s4, t5⟩

end exact

section ieee
open F64

/-- C15 in IEEE arithmetic: for all float64 p ≤ q (infinities included) percentiles lie between float64(Min) and float64(Max), are
those for p ≤ 0 and q ≥ 1, and are monotone. -/
theorem C15_ieee (vs : List Int64) (h : vs ≠ []) (hlen : (vs.length : Int) ≤ maxInt64) (p q : F64) (hpq : F64.le p q = true) :
    ∃ s t ws, samplePercentile vs p = .ok (s, ws) ∧ samplePercentile vs q = .ok (t, ws) ∧
      F64.le (GoFloat.ofInt (sampleMin vs).toInt) s = true ∧ F64.le s t = true ∧
      F64.le t (GoFloat.ofInt (sampleMax vs).toInt) = true ∧
      (F64.le p (fin 0) = true → s = GoFloat.ofInt (sampleMin vs).toInt) ∧
      (F64.le (fin 1) q = true → t = GoFloat.ofInt (sampleMax vs).toInt) := by
  have h0 : 0 < vs.length := List.length_pos_of_ne_nil h
  have hl := sortInts_length vs
  have hs := sortInts_sorted vs
  have hn : 0 < (sortInts vs).length := by omega
  have hpn := ne_nan_of_le_left hpq
  have hqn := ne_nan_of_le_right hpq
  rw [samplePercentile_nonempty vs p h0, samplePercentile_nonempty vs q h0, ofInt_i64', ofInt_i64', ← sorted_min vs h hn,
    ← sorted_max vs h hn]
  obtain ⟨s, hs1, s2, s3, s4, s5⟩ := score_f64 (sortInts vs) hs p hpn hn (by omega)
  obtain ⟨t, ht1, t2, t3, t4, t5⟩ := score_f64 (sortInts vs) hs q hqn hn (by omega)
  exact ⟨fin s, fin t, _, by rw [hs1]; rfl, by rw [ht1]; rfl, le_fin.2 s2,
    le_fin.2 (score_f64_mono _ hs p q hpq hn (by omega) s t hs1 ht1), le_fin.2 t3,
    fun h => by rw [s4 h], fun h => by rw [t5 h]⟩

end ieee

example : ([3, 1] : List Int64) ≠ [] ∧ (([3, 1] : List Int64).length : Int) ≤ maxInt64 ∧ F64.le (.inf true) (.fin (1 / 2)) = true := by
  refine ⟨by decide, by decide, rfl⟩

/-! ### C16 -/

section exact
variable {K : Type} [Field K] [LinearOrder K] [IsStrictOrderedRing K] [FloorRing K]

/-- C16, exact arithmetic: with `xs` the sorted values and r = p(n+1), the percentile is x₁ for r < 1, xₙ for r ≥ n, and for
k ≤ r < k+1 (1 ≤ k < n) it is x_k + (r-k)(x_{k+1} - x_k). -/
theorem C16_rank_interpolation (vs xs : List Int64) (hx : SortedOf xs vs) (hn : 0 < xs.length) (p : K) :
    (p * (xs.length + 1) < 1 → ∃ ws, samplePercentile vs p = .ok ((xs[0].toInt : K), ws)) ∧
    ((xs.length : K) ≤ p * (xs.length + 1) → ∃ ws, samplePercentile vs p = .ok ((xs[xs.length - 1].toInt : K), ws)) ∧
    (∀ (k : Nat) (_ : 1 ≤ k) (_ : k < xs.length), (k : K) ≤ p * (xs.length + 1) → p * (xs.length + 1) < k + 1 →
      ∃ ws, samplePercentile vs p = .ok ((xs[k - 1].toInt : K) + (p * (xs.length + 1) - k) * ((xs[k].toInt : K) - xs[k - 1].toInt), ws)) := by
  have hse : sortInts vs = xs :=
    sorted_unique ((sortInts_perm vs).trans hx.1.symm) (sortInts_sorted vs) (hx.2.imp (fun h => i64_le.2 h))
  have h0 : 0 < vs.length := by rw [← hx.1.length_eq]; exact hn
  rw [samplePercentile_nonempty vs p h0, hse]
  refine ⟨fun h => ⟨xs, ?_⟩, fun h => ⟨xs, ?_⟩, fun k h1 h2 h3 h4 => ⟨xs, ?_⟩⟩
  · rw [percentileSorted_exact_lo xs p hn h]; rfl
  · rw [percentileSorted_exact_hi xs p hn h]; rfl
  · rw [percentileSorted_exact_mid xs p k h1 h2 h3 h4]; rfl

/-- The three cases of C16 are exhaustive for a non-empty sample. -/
theorem C16_cases (n : Nat) (h0 : 0 < n) (r : K) :
    r < 1 ∨ (n : K) ≤ r ∨ ∃ k : Nat, 1 ≤ k ∧ k < n ∧ (k : K) ≤ r ∧ r < k + 1 := rank_cases n h0 r

end exact

/-- C16: percentiles depend only on the multiset of values (any float arithmetic, panics included). -/
theorem C16_perm {F : Type} [GoFloat F] (vs ws : List Int64) (h : vs.Perm ws) (ps : List F) :
    (samplePercentiles vs ps).map Prod.fst = (samplePercentiles ws ps).map Prod.fst := samplePercentiles_perm h ps

example : SortedOf [1, 3] [3, 1] ∧ ((1 : Nat) : ℚ) ≤ (1 / 2 : ℚ) * (([1, 3] : List Int64).length + 1) ∧
    (1 / 2 : ℚ) * (([1, 3] : List Int64).length + 1) < (1 : Nat) + 1 :=
  ⟨⟨List.Perm.swap _ _ _, by decide⟩, by norm_num, by norm_num⟩

/-! ### C17 -/

/-- C17: a batch request is the list of the single requests (any float arithmetic; it panics iff one of them does). -/
theorem C17_batch {F : Type} [GoFloat F] (vs : List Int64) (ps : List F) :
    (samplePercentiles vs ps).map Prod.fst = ps.mapM (fun p => (samplePercentile vs p).map Prod.fst) := by
  rcases Nat.eq_zero_or_pos vs.length with h0 | h0
  · have : vs = [] := List.eq_nil_of_length_eq_zero h0
    subst this
    have : (fun p : F => (samplePercentile [] p).map Prod.fst) = fun _ => .ok (GoFloat.lit 0) := by
      funext p; rw [samplePercentile_empty]; rfl
    rw [this, C14_empty]
    induction ps with
    | nil => rfl
    | cons p ps ih =>
      rw [List.mapM_cons, ← ih]; rfl
  · have : (fun p : F => (samplePercentile vs p).map Prod.fst) = percentileSorted (sortInts vs) := by
      funext p
      rw [samplePercentile_nonempty vs p h0]
      cases percentileSorted (sortInts vs) p <;> rfl
    rw [this]
    unfold samplePercentiles
    rw [if_pos h0]
    simp only [bind, Except.bind]
    cases List.mapM (percentileSorted (sortInts vs)) ps <;> rfl

/-- C17, entry by entry: the i-th score of a batch is the single score of the i-th request. -/
theorem C17_batch_entry {F : Type} [GoFloat F] (vs : List Int64) (ps : List F) (ss : List F) (ws : List Int64)
    (h : samplePercentiles vs ps = .ok (ss, ws)) (i : Nat) (hi : i < ps.length) :
    ∃ hi' : i < ss.length, (samplePercentile vs ps[i]).map Prod.fst = .ok ss[i] := by
  have hb : ps.mapM (fun p => (samplePercentile vs p).map Prod.fst) = .ok ss := by rw [← C17_batch vs ps, h]; rfl
  clear h
  induction ps generalizing ss i with
  | nil => simp at hi
  | cons p ps ih =>
    rw [List.mapM_cons] at hb
    cases hp : (samplePercentile vs p).map Prod.fst with
    | error e => rw [hp] at hb; cases hb
    | ok s =>
      rw [hp] at hb
      cases hq : ps.mapM (fun p => (samplePercentile vs p).map Prod.fst) with
      | error e => rw [hq] at hb; cases hb
      | ok ss' =>
        rw [hq] at hb
        cases hb
        cases i with
        | zero => exact ⟨by simp, hp⟩
        | succ i =>
          obtain ⟨h1, h2⟩ := ih ss' i (by simpa using hi) hq
          exact ⟨by simpa using h1, h2⟩

example : samplePercentiles [30, 10, 20] [(1 / 2 : ℚ), 1 / 2, 0] = .ok ([20, 20, 10], [10, 20, 30]) := by
  have e : sortInts [30, 10, 20] = [10, 20, 30] := by decide
  have h1 : percentileSorted [10, 20, 30] (1 / 2 : ℚ) = .ok 20 := by
    rw [percentileSorted_exact_mid _ _ 2 (by decide) (by decide) (by norm_num) (by norm_num)]
    norm_num
    decide
  have h2 : percentileSorted [10, 20, 30] (0 : ℚ) = .ok 10 := by
    rw [percentileSorted_exact_lo _ _ (by decide) (by norm_num)]
    congr 1
  unfold samplePercentiles
  simp only [e]
  rw [if_pos (by decide), List.mapM_cons, List.mapM_cons, List.mapM_cons, h1, h2]
  rfl

end GoMetrics
