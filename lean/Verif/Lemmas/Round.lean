import Verif.Go.F64
import Mathlib.Tactic.Linarith
import Mathlib.Tactic.Ring
import Mathlib.Tactic.FieldSimp
import Mathlib.Tactic.NormNum
import Mathlib.Tactic.Positivity

/-! Laws of round-to-nearest-even used in the proofs: monotone, odd, exact on representable numbers, relative error. -/

set_option linter.unusedSectionVars false

namespace GoMetrics

section roundEven
variable {K : Type} [Field K] [LinearOrder K] [IsStrictOrderedRing K] [FloorRing K]

theorem roundEven_le (x : K) : roundEven x ≤ ⌊x⌋ + 1 := by
  unfold roundEven; split_ifs <;> omega

theorem le_roundEven (x : K) : ⌊x⌋ ≤ roundEven x := by
  unfold roundEven; split_ifs <;> omega

theorem roundEven_intCast (n : ℤ) : roundEven (n : K) = n := by
  unfold roundEven; simp

theorem roundEven_mono {x y : K} (h : x ≤ y) : roundEven x ≤ roundEven y := by
  rcases lt_or_eq_of_le (Int.floor_mono h) with hf | hf
  · calc roundEven x ≤ ⌊x⌋ + 1 := roundEven_le x
      _ ≤ ⌊y⌋ := hf
      _ ≤ roundEven y := le_roundEven y
  · unfold roundEven
    rw [hf]
    have hxy : x - (⌊y⌋ : K) ≤ y - ⌊y⌋ := by linarith
    split_ifs <;> first | omega | (exfalso; linarith)

theorem roundEven_err (x : K) : |(roundEven x : K) - x| ≤ 1 / 2 := by
  have h1 := Int.floor_le x
  have h2 := Int.lt_floor_add_one x
  rw [abs_le]
  unfold roundEven
  split_ifs with ha hb hc <;> push_cast <;> constructor <;> linarith

theorem roundEven_le_two_mul {x : K} (h : 0 ≤ x) : (roundEven x : K) ≤ 2 * x := by
  have h1 := Int.floor_le x
  have h2 := Int.lt_floor_add_one x
  have h3 : (0 : ℤ) ≤ ⌊x⌋ := Int.floor_nonneg.mpr h
  have h3' : (0 : K) ≤ ⌊x⌋ := by exact_mod_cast h3
  unfold roundEven
  split_ifs with ha hb hc
  · linarith
  · push_cast; linarith
  · linarith
  · push_cast
    have : (1 : ℤ) ≤ ⌊x⌋ := by
      rcases (by omega : ⌊x⌋ = 0 ∨ 1 ≤ ⌊x⌋) with h0 | h0
      · rw [h0] at hc; simp at hc
      · exact h0
    have : (1 : K) ≤ ⌊x⌋ := by exact_mod_cast this
    linarith

theorem roundEven_neg (x : K) : roundEven (-x) = -roundEven x := by
  by_cases hx : (⌊x⌋ : K) = x
  · rw [← hx]
    have : (-(⌊x⌋ : K)) = ((-⌊x⌋ : ℤ) : K) := by push_cast; rfl
    rw [this, roundEven_intCast, roundEven_intCast]
  · have h1 := Int.floor_le x
    have h2 := Int.lt_floor_add_one x
    have h3 : (⌊x⌋ : K) < x := lt_of_le_of_ne h1 hx
    have hfl : ⌊-x⌋ = -⌊x⌋ - 1 := by
      rw [Int.floor_eq_iff]; push_cast; constructor <;> linarith
    unfold roundEven
    rw [hfl]
    push_cast
    split_ifs <;> first | omega | (exfalso; linarith)

theorem roundEven_zero : roundEven (0 : K) = 0 := by
  have := roundEven_intCast (K := K) 0; simpa using this

end roundEven

section rnd
variable {K : Type} [Field K] [LinearOrder K] [IsStrictOrderedRing K] [FloorRing K]

theorem two_zpow_pos (e : ℤ) : (0 : K) < (2 : K) ^ e := zpow_pos (by norm_num) e

theorem ulpExp_neg (x : K) : ulpExp (-x) = ulpExp x := by unfold ulpExp; rw [abs_neg]

theorem ulpExp_ge (x : K) : -1074 ≤ ulpExp x := by unfold ulpExp; exact le_max_right _ _

theorem rnd_cast (x : K) : ((rnd x : ℚ) : K) = (roundEven (x / (2 : K) ^ ulpExp x) : K) * (2 : K) ^ ulpExp x := by
  unfold rnd; push_cast; rfl

theorem rnd_neg (x : K) : rnd (-x) = -rnd x := by
  unfold rnd; rw [ulpExp_neg, neg_div, roundEven_neg]; push_cast; ring

theorem rnd_zero : rnd (0 : K) = 0 := by
  unfold rnd; rw [zero_div, roundEven_zero]; simp

theorem rnd_nonneg {x : K} (h : 0 ≤ x) : 0 ≤ rnd x := by
  unfold rnd
  have h1 : (0 : ℤ) ≤ roundEven (x / (2 : K) ^ ulpExp x) := by
    have := roundEven_mono (K := K) (x := 0) (y := x / (2 : K) ^ ulpExp x) (div_nonneg h (two_zpow_pos _).le)
    rwa [roundEven_zero] at this
  have h2 : (0 : ℚ) ≤ roundEven (x / (2 : K) ^ ulpExp x) := by exact_mod_cast h1
  exact mul_nonneg h2 (two_zpow_pos _).le

theorem abs_lt_two_zpow (x : K) : |x| < (2 : K) ^ (ulpExp x + 53) := by
  have h := Int.lt_zpow_succ_log_self (b := 2) (by norm_num) |x|
  refine lt_of_lt_of_le h ?_
  push_cast
  apply zpow_le_zpow_right₀ (by norm_num)
  unfold ulpExp
  have := le_max_left (Int.log 2 |x| - 52) (-1074 : ℤ)
  omega

/-- The significand produced by rounding has at most 53 bits. -/
theorem abs_roundEven_le (x : K) : |roundEven (x / (2 : K) ^ ulpExp x)| ≤ 2 ^ 53 := by
  have h := abs_lt_two_zpow x
  have hp := two_zpow_pos (K := K) (ulpExp x)
  rw [zpow_add₀ (by norm_num)] at h
  have h53 : ((2 : K) ^ (53 : ℤ)) = ((2 ^ 53 : ℤ) : K) := by norm_num
  rw [h53] at h
  rw [abs_lt] at h
  have hu : x / (2 : K) ^ ulpExp x ≤ ((2 ^ 53 : ℤ) : K) := by
    rw [div_le_iff₀ hp]; linarith [h.2]
  have hl : ((-2 ^ 53 : ℤ) : K) ≤ x / (2 : K) ^ ulpExp x := by
    rw [le_div_iff₀ hp]
    have : ((-2 ^ 53 : ℤ) : K) = -((2 ^ 53 : ℤ) : K) := by push_cast; rfl
    rw [this]; linarith [h.1]
  have hu' := roundEven_mono hu
  have hl' := roundEven_mono hl
  rw [roundEven_intCast] at hu' hl'
  rw [abs_le]; exact ⟨hl', hu'⟩

theorem rnd_mono_pos {x y : K} (hx : 0 < x) (h : x ≤ y) : rnd x ≤ rnd y := by
  have hy : 0 < y := lt_of_lt_of_le hx h
  have hlog : Int.log 2 |x| ≤ Int.log 2 |y| := by
    rw [abs_of_pos hx, abs_of_pos hy]; exact Int.log_mono_right hx h
  have he : ulpExp x ≤ ulpExp y := by
    unfold ulpExp; exact max_le_max (by omega) le_rfl
  rcases lt_or_eq_of_le he with he | he
  · -- different binades: the boundary 2^k lies between
    have hey : ulpExp y = Int.log 2 |y| - 52 := by
      have := ulpExp_ge x
      unfold ulpExp at *; omega
    have hxk : x < (2 : K) ^ Int.log 2 |y| := by
      have h1 := Int.lt_zpow_succ_log_self (b := 2) (by norm_num) |x|
      rw [abs_of_pos hx] at h1
      refine lt_of_lt_of_le h1 ?_
      push_cast
      apply zpow_le_zpow_right₀ (by norm_num)
      rw [← abs_of_pos hx]
      unfold ulpExp at *; omega
    have hyk : (2 : K) ^ Int.log 2 |y| ≤ y := by
      have h1 := Int.zpow_log_le_self (b := 2) (r := |y|) (by norm_num) (abs_pos.mpr hy.ne')
      rw [abs_of_pos hy] at h1 ⊢
      exact_mod_cast h1
    set k := Int.log 2 |y| with hk
    have h1 : rnd x ≤ (2 : ℚ) ^ k := by
      have hle : x / (2 : K) ^ ulpExp x ≤ ((2 ^ (k - ulpExp x).toNat : ℤ) : K) := by
        rw [div_le_iff₀ (two_zpow_pos _)]
        push_cast
        rw [← zpow_natCast, Int.toNat_of_nonneg (by omega), ← zpow_add₀ (by norm_num)]
        have : k - ulpExp x + ulpExp x = k := by ring
        rw [this]; exact hxk.le
      have hr := roundEven_mono hle
      rw [roundEven_intCast] at hr
      have hr' : (roundEven (x / (2 : K) ^ ulpExp x) : ℚ) ≤ ((2 ^ (k - ulpExp x).toNat : ℤ) : ℚ) := by exact_mod_cast hr
      unfold rnd
      calc (roundEven (x / (2 : K) ^ ulpExp x) : ℚ) * 2 ^ ulpExp x
          ≤ ((2 ^ (k - ulpExp x).toNat : ℤ) : ℚ) * 2 ^ ulpExp x := mul_le_mul_of_nonneg_right hr' (two_zpow_pos _).le
        _ = 2 ^ k := by
          push_cast
          rw [← zpow_natCast, Int.toNat_of_nonneg (by omega), ← zpow_add₀ (by norm_num)]
          congr 1; ring
    have h2 : (2 : ℚ) ^ k ≤ rnd y := by
      have hle : ((2 ^ 52 : ℤ) : K) ≤ y / (2 : K) ^ ulpExp y := by
        rw [le_div_iff₀ (two_zpow_pos _), hey, zpow_sub₀ (by norm_num)]
        have : ((2 ^ 52 : ℤ) : K) * ((2 : K) ^ k / 2 ^ (52 : ℤ)) = 2 ^ k := by
          push_cast; field_simp; norm_num
        rw [this]; exact hyk
      have hr := roundEven_mono hle
      rw [roundEven_intCast] at hr
      have hr' : ((2 ^ 52 : ℤ) : ℚ) ≤ (roundEven (y / (2 : K) ^ ulpExp y) : ℚ) := by exact_mod_cast hr
      unfold rnd
      calc (2 : ℚ) ^ k = ((2 ^ 52 : ℤ) : ℚ) * 2 ^ ulpExp y := by
            rw [hey, zpow_sub₀ (by norm_num)]; push_cast; field_simp
        _ ≤ _ := mul_le_mul_of_nonneg_right hr' (two_zpow_pos _).le
    exact h1.trans h2
  · unfold rnd
    rw [he]
    apply mul_le_mul_of_nonneg_right _ (two_zpow_pos _).le
    have := roundEven_mono (div_le_div_of_nonneg_right h (two_zpow_pos (K := K) (ulpExp y)).le)
    exact_mod_cast this

theorem rnd_mono {x y : K} (h : x ≤ y) : rnd x ≤ rnd y := by
  rcases lt_trichotomy x 0 with hx | hx | hx
  · rcases lt_or_ge y 0 with hy | hy
    · have := rnd_mono_pos (x := -y) (y := -x) (by linarith) (by linarith)
      rw [rnd_neg, rnd_neg] at this; linarith
    · have h1 := rnd_nonneg (x := -x) (by linarith)
      rw [rnd_neg] at h1
      have h2 := rnd_nonneg hy
      linarith
  · subst hx; rw [rnd_zero]; exact rnd_nonneg h
  · exact rnd_mono_pos hx h

/-- Numbers with at most 53 significant bits and exponent ≥ -1074 are not changed by rounding. -/
theorem rnd_dyadic (m e : ℤ) (hm : |m| ≤ 2 ^ 53) (he : -1074 ≤ e) :
    rnd ((m : K) * (2 : K) ^ e) = (m : ℚ) * (2 : ℚ) ^ e := by
  have key : ∀ m e : ℤ, |m| < 2 ^ 53 → -1074 ≤ e →
      rnd ((m : K) * (2 : K) ^ e) = (m : ℚ) * (2 : ℚ) ^ e := by
    intro m e hm he
    by_cases h0 : m = 0
    · subst h0; simp [rnd_zero]
    set v : K := (m : K) * (2 : K) ^ e with hv
    have hv0 : v ≠ 0 := mul_ne_zero (by exact_mod_cast h0) (two_zpow_pos _).ne'
    have hlt : |v| < (2 : K) ^ (53 + e) := by
      rw [hv, abs_mul, abs_of_pos (two_zpow_pos (K := K) e), zpow_add₀ (by norm_num)]
      apply mul_lt_mul_of_pos_right _ (two_zpow_pos _)
      have : ((|m| : ℤ) : K) < ((2 ^ 53 : ℤ) : K) := by exact_mod_cast hm
      rw [Int.cast_abs] at this
      refine lt_of_lt_of_eq this ?_
      norm_num
    have hlog : Int.log 2 |v| < 53 + e := by
      have := (Int.lt_zpow_iff_log_lt (b := 2) (by norm_num) (x := 53 + e) (abs_pos.mpr hv0)).mp (by push_cast; exact hlt)
      exact this
    have hue : ulpExp v ≤ e := by unfold ulpExp; exact max_le (by omega) he
    have hdiv : v / (2 : K) ^ ulpExp v = ((m * 2 ^ (e - ulpExp v).toNat : ℤ) : K) := by
      rw [div_eq_iff (two_zpow_pos _).ne']
      push_cast
      rw [← zpow_natCast, Int.toNat_of_nonneg (by omega), mul_assoc, ← zpow_add₀ (by norm_num), hv]
      congr 2; ring
    unfold rnd
    rw [hdiv, roundEven_intCast]
    push_cast
    rw [← zpow_natCast, Int.toNat_of_nonneg (by omega), mul_assoc, ← zpow_add₀ (by norm_num)]
    congr 2; ring
  rcases lt_or_eq_of_le hm with h | h
  · exact key m e h he
  · rcases abs_eq (by norm_num : (0 : ℤ) ≤ 2 ^ 53) |>.mp h with h | h
    · have := key (2 ^ 52) (e + 1) (by norm_num) (by omega)
      rw [zpow_add₀ (by norm_num), zpow_add₀ (by norm_num)] at this
      rw [h]
      have e1 : ((2 ^ 53 : ℤ) : K) * 2 ^ e = ((2 ^ 52 : ℤ) : K) * (2 ^ e * 2 ^ (1 : ℤ)) := by push_cast; ring
      have e2 : ((2 ^ 53 : ℤ) : ℚ) * 2 ^ e = ((2 ^ 52 : ℤ) : ℚ) * (2 ^ e * 2 ^ (1 : ℤ)) := by push_cast; ring
      rw [e1, e2]; exact this
    · have := key (-2 ^ 52) (e + 1) (by norm_num) (by omega)
      rw [zpow_add₀ (by norm_num), zpow_add₀ (by norm_num)] at this
      rw [h]
      have e1 : ((-2 ^ 53 : ℤ) : K) * 2 ^ e = ((-2 ^ 52 : ℤ) : K) * (2 ^ e * 2 ^ (1 : ℤ)) := by push_cast; ring
      have e2 : ((-2 ^ 53 : ℤ) : ℚ) * 2 ^ e = ((-2 ^ 52 : ℤ) : ℚ) * (2 ^ e * 2 ^ (1 : ℤ)) := by push_cast; ring
      rw [e1, e2]; exact this

theorem rnd_rnd (x : K) : rnd (rnd x) = rnd x := by
  have := rnd_dyadic (K := ℚ) (roundEven (x / (2 : K) ^ ulpExp x)) (ulpExp x) (abs_roundEven_le x) (ulpExp_ge x)
  conv_lhs => unfold rnd
  unfold rnd at this ⊢
  exact this

theorem rnd_rnd_cast (x : K) : rnd ((rnd x : ℚ) : K) = rnd x := by
  have := rnd_dyadic (K := K) (roundEven (x / (2 : K) ^ ulpExp x)) (ulpExp x) (abs_roundEven_le x) (ulpExp_ge x)
  rw [rnd_cast]
  rw [this]; rfl

/-- Integers up to 2^53 in magnitude are exact. -/
theorem rnd_int (n : ℤ) (h : |n| ≤ 2 ^ 53) : rnd (n : K) = n := by
  have := rnd_dyadic (K := K) n 0 h (by norm_num)
  simpa using this

theorem rnd_err (x : K) : |(rnd x : K) - x| ≤ (2 : K) ^ ulpExp x / 2 := by
  have hp := two_zpow_pos (K := K) (ulpExp x)
  have h := roundEven_err (x / (2 : K) ^ ulpExp x)
  rw [rnd_cast]
  have : (roundEven (x / (2 : K) ^ ulpExp x) : K) * (2 : K) ^ ulpExp x - x
      = ((roundEven (x / (2 : K) ^ ulpExp x) : K) - x / (2 : K) ^ ulpExp x) * (2 : K) ^ ulpExp x := by
    field_simp
  rw [this, abs_mul, abs_of_pos hp]
  calc _ ≤ 1 / 2 * (2 : K) ^ ulpExp x := mul_le_mul_of_nonneg_right h hp.le
    _ = _ := by ring

/-- Relative error at most 2^-53 for numbers of magnitude at least 2^-1022. -/
theorem rnd_rel_err (x : K) (hx : (2 : K) ^ (-1022 : ℤ) ≤ |x|) : |(rnd x : K) - x| ≤ |x| * (2 : K) ^ (-53 : ℤ) := by
  have hpos : 0 < |x| := lt_of_lt_of_le (two_zpow_pos _) hx
  have hlog : -1022 ≤ Int.log 2 |x| := (Int.zpow_le_iff_le_log (b := 2) (by norm_num) hpos).mp (by push_cast; exact hx)
  have hue : ulpExp x = Int.log 2 |x| - 52 := by unfold ulpExp; exact max_eq_left (by omega)
  have h1 := Int.zpow_log_le_self (b := 2) (r := |x|) (by norm_num) hpos
  push_cast at h1
  refine (rnd_err x).trans ?_
  rw [hue, zpow_sub₀ (by norm_num)]
  calc (2 : K) ^ Int.log 2 |x| / 2 ^ (52 : ℤ) / 2 = (2 : K) ^ Int.log 2 |x| * 2 ^ (-53 : ℤ) := by
        rw [div_div, div_eq_mul_inv, zpow_neg]; congr 2
        norm_num
    _ ≤ _ := mul_le_mul_of_nonneg_right h1 (two_zpow_pos _).le

theorem rnd_le_two_mul {x : K} (h : 0 ≤ x) : (rnd x : K) ≤ 2 * x := by
  have hp := two_zpow_pos (K := K) (ulpExp x)
  rw [rnd_cast]
  have := roundEven_le_two_mul (x := x / (2 : K) ^ ulpExp x) (div_nonneg h hp.le)
  calc _ ≤ 2 * (x / (2 : K) ^ ulpExp x) * (2 : K) ^ ulpExp x := mul_le_mul_of_nonneg_right this hp.le
    _ = 2 * x := by field_simp

end rnd
end GoMetrics
