import Verif.Lemmas.Wire
import Verif.Lemmas.F64More
import Verif.Spec.Librato

/-! Percentiles in the names of Librato's gauges. -/

namespace GoMetrics
open Spec

theorem fixedText_inj {k m n : Nat} (h : fixedText k m = fixedText k n) : m = n := by
  have h1 := readDecimal_fixed k m
  rw [h, readDecimal_fixed k n] at h1
  have h2 : ((n : ℚ) / 10 ^ k) = m / 10 ^ k := Option.some.inj h1
  have hp : (10 : ℚ) ^ k ≠ 0 := by positivity
  rw [div_left_inj' hp] at h2
  exact_mod_cast h2.symm

theorem fmtFixed_nonneg {k : Nat} {q : ℚ} (h : 0 ≤ q) : fmtFixed k (.fin q) = fixedText k (roundEven (q * 10 ^ k)).toNat := by
  simp [fmtFixed, fixedText, not_lt.2 h, abs_of_nonneg h]

theorem roundEven_nonneg {q : ℚ} (h : 0 ≤ q) : 0 ≤ roundEven q := by
  have := roundEven_mono (K := ℚ) h
  rwa [roundEven_zero] at this

theorem fmtFixed_eq_iff {k : Nat} {p q : ℚ} (hp : 0 ≤ p) (hq : 0 ≤ q) :
    fmtFixed k (.fin p) = fmtFixed k (.fin q) ↔ roundEven (p * 10 ^ k) = roundEven (q * 10 ^ k) := by
  rw [fmtFixed_nonneg hp, fmtFixed_nonneg hq]
  have h1 := roundEven_nonneg (q := p * 10 ^ k) (by positivity)
  have h2 := roundEven_nonneg (q := q * 10 ^ k) (by positivity)
  constructor
  · intro h
    have := fixedText_inj h
    omega
  · intro h; rw [h]

theorem roundEven_near {x : ℚ} {n : ℤ} (h : |x - n| < 1 / 2) : roundEven x = n := by
  have h1 := roundEven_err x
  have h2 : |((roundEven x - n : ℤ) : ℚ)| < 1 := by
    push_cast
    calc |(roundEven x : ℚ) - n| = |((roundEven x : ℚ) - x) + (x - n)| := by ring_nf
      _ ≤ |(roundEven x : ℚ) - x| + |x - n| := abs_add_le _ _
      _ < 1 := by linarith
  have h3 : |roundEven x - n| < 1 := by exact_mod_cast h2
  have := Int.abs_lt_one_iff.1 h3
  omega

theorem padLeft_inj {w : Nat} {s t : Str} (hs : (32 : UInt8) ∉ s) (ht : (32 : UInt8) ∉ t) (h : padLeft w s = padLeft w t) : s = t := by
  have key : ∀ s : Str, (32 : UInt8) ∉ s → (padLeft w s).filter (· ≠ 32) = s := by
    intro s hs
    rw [padLeft, List.filter_append, List.filter_eq_nil_iff.2, List.nil_append, List.filter_eq_self.2]
    · intro b hb
      simp only [decide_eq_true_eq]
      rintro rfl
      exact hs hb
    · intro b hb
      simp [(List.mem_replicate.1 hb).2]
  rw [← key s hs, h, key t ht]

theorem render_textOf_append (e : Nat → Str) (s : Str) (l : List (Piece (GoMetrics.Field F64))) : render e (textOf s ++ l) = s ++ render e l := by
  induction s with
  | nil => rfl
  | cons b s ih =>
    show b :: render e (textOf s ++ l) = _
    rw [ih]; rfl

theorem fixed_no_space {k : Nat} {x : F64} : (32 : UInt8) ∉ fmtFixed k x := fun h => absurd (fmtFixed_plain k x 32 h) (by decide)

/-- The name of a percentile of a histogram. -/
theorem render_hist (e : Nat → Str) (s : Str) (x : F64) : render e (textOf s ++ [.val (bytes ".2f") (.float x)]) = s ++ fmtFixed 2 x := by
  rw [render_textOf_append]
  have : directiveParts (bytes ".2f") = (0, some 2, [102]) := by decide
  simp [render, fmtValue, this, padLeft]

/-- The name of a percentile of a timer. -/
theorem render_timer (e : Nat → Str) (s : Str) (x : F64) : render e (textOf s ++ [.val (bytes "2.0f") (.float x)]) = s ++ padLeft 2 (fmtFixed 0 x) := by
  rw [render_textOf_append]
  have : directiveParts (bytes "2.0f") = (2, some 0, [102]) := by decide
  simp [render, fmtValue, this]

/-- The product with 100 that the code computes. -/
theorem mul_hundred {p : ℚ} (h0 : 0 ≤ p) (h1 : p ≤ 1) : (GoFloat.mul (.fin p) (GoFloat.lit 100) : F64) = .fin (rnd (p * 100)) := by
  have h : (GoFloat.lit 100 : F64) = .fin 100 := by
    have := F64.round_int (K := ℚ) 100 (by norm_num)
    exact this
  rw [h]
  show F64.round (p * 100) = _
  refine round_of_abs_le (n := 7) (by norm_num) ?_
  rw [abs_of_nonneg (by positivity)]
  linarith

/-- The float64 nearest to a whole number of percent. -/
theorem lit_percent {i : Nat} (h : i ≤ 100) : (GoFloat.lit ((i : ℚ) / 100) : F64) = .fin (rnd ((i : ℚ) / 100)) ∧ 0 ≤ rnd ((i : ℚ) / 100) ∧ rnd ((i : ℚ) / 100) ≤ 1 ∧
    |rnd ((i : ℚ) / 100) * 100 - i| ≤ 2 ^ (-46 : ℤ) := by
  have hi : (i : ℚ) ≤ 100 := by exact_mod_cast h
  have h0 : 0 ≤ (i : ℚ) / 100 := by positivity
  have h1 : (i : ℚ) / 100 ≤ 1 := by rw [div_le_one (by norm_num)]; exact hi
  refine ⟨?_, rnd_nonneg h0, ?_, ?_⟩
  · show F64.round ((i : ℚ) / 100) = _
    exact round_of_abs_le (n := 0) (by norm_num) (by rw [abs_of_nonneg h0]; simpa using h1)
  · have := rnd_mono h1
    rwa [rnd_one] at this
  · rcases Nat.eq_zero_or_pos i with rfl | hpos
    · simp [rnd_zero]
    · have hp : (1 : ℚ) ≤ i := by exact_mod_cast hpos
      have hx : (2 : ℚ) ^ (-1022 : ℤ) ≤ |(i : ℚ) / 100| := by
        rw [abs_of_nonneg h0]
        calc (2 : ℚ) ^ (-1022 : ℤ) ≤ 2 ^ (-7 : ℤ) := zpow_le_zpow_right₀ (by norm_num) (by norm_num)
          _ ≤ 1 / 100 := by norm_num
          _ ≤ _ := by gcongr
      have := rnd_rel_err _ hx
      rw [abs_of_nonneg h0] at this
      rw [show rnd ((i : ℚ) / 100) * 100 - i = (rnd ((i : ℚ) / 100) - i / 100) * 100 by ring, abs_mul, abs_of_pos (by norm_num : (0 : ℚ) < 100)]
      have h2 : |rnd ((i : ℚ) / 100) - (i : ℚ) / 100| ≤ 2 ^ (-53 : ℤ) := by
        refine le_trans (by simpa using this) ?_
        nlinarith [show (0 : ℚ) < 2 ^ (-53 : ℤ) by positivity]
      calc _ ≤ (2 : ℚ) ^ (-53 : ℤ) * 100 := by gcongr
        _ ≤ 2 ^ (-46 : ℤ) := by norm_num

theorem lit_percent_hist {i : Nat} (h : i ≤ 100) : fmtFixed 2 (GoFloat.lit ((i : ℚ) / 100)) = fixedText 2 i := by
  obtain ⟨h1, h2, h3, h4⟩ := lit_percent h
  rw [h1, fmtFixed_nonneg h2, roundEven_near (n := i)]
  · rfl
  · refine lt_of_le_of_lt (?_ : _ ≤ (2 : ℚ) ^ (-46 : ℤ)) (by norm_num)
    rw [show (10 : ℚ) ^ 2 = 100 by norm_num]
    exact h4

theorem lit_percent_timer {i : Nat} (h : i ≤ 100) : fmtFixed 0 (GoFloat.mul (GoFloat.lit ((i : ℚ) / 100)) (GoFloat.lit 100)) = decDigits i := by
  obtain ⟨h1, h2, h3, h4⟩ := lit_percent h
  have hi : (i : ℚ) ≤ 100 := by exact_mod_cast h
  rw [h1, mul_hundred h2 h3, fmtFixed_nonneg (rnd_nonneg (by positivity)), roundEven_near (n := i)]
  · simp [fixedText]
  · generalize rnd ((i : ℚ) / 100) = p at *
    have hu := rnd_err (p * 100)
    have hx : |p * 100| ≤ 2 ^ 7 := by rw [abs_of_nonneg (by positivity)]; linarith
    have hm : |rnd (p * 100) - i| ≤ |rnd (p * 100) - p * 100| + |p * 100 - i| := by
      calc _ = |(rnd (p * 100) - p * 100) + (p * 100 - i)| := by ring_nf
        _ ≤ _ := abs_add_le _ _
    have h5 : |rnd (p * 100) - p * 100| ≤ 2 ^ (-46 : ℤ) := by
      by_cases hs : (2 : ℚ) ^ (-1022 : ℤ) ≤ |p * 100|
      · have := rnd_rel_err _ hs
        refine le_trans this ?_
        calc |p * 100| * (2 : ℚ) ^ (-53 : ℤ) ≤ 2 ^ 7 * 2 ^ (-53 : ℤ) := by gcongr
          _ = 2 ^ (-46 : ℤ) := by norm_num
      · have h6 := rnd_le_two_mul (K := ℚ) (x := p * 100) (by positivity)
        have h7 := rnd_nonneg (x := p * 100) (by positivity)
        have h8 : |p * 100| < (2 : ℚ) ^ (-1022 : ℤ) := not_le.1 hs
        have h9 : (2 : ℚ) ^ (-1022 : ℤ) ≤ 2 ^ (-46 : ℤ) := zpow_le_zpow_right₀ (by norm_num) (by norm_num)
        have h10 := abs_of_nonneg (show 0 ≤ p * 100 by positivity)
        rw [abs_le]
        constructor
        · linarith
        · have : rnd (p * 100) ≤ 2 * (p * 100) := by simpa using h6
          linarith
    simp only [pow_zero, mul_one]
    have : |rnd (p * 100) - (i : ℚ)| ≤ 2 ^ (-46 : ℤ) + 2 ^ (-46 : ℤ) := by linarith
    refine lt_of_le_of_lt (by simpa using this) (by norm_num)

end GoMetrics
