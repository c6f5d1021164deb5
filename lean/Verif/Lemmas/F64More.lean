import Verif.Lemmas.F64
import Mathlib.Tactic.Positivity

/-! More lemmas on rounding: magnitudes, integers, fractions. -/

set_option linter.unusedSectionVars false

namespace GoMetrics

section
variable {K : Type} [Field K] [LinearOrder K] [IsStrictOrderedRing K] [FloorRing K]

theorem rnd_two_pow (n : ℕ) : rnd ((2 : K) ^ n) = 2 ^ n := by
  have := rnd_dyadic (K := K) 1 n (by norm_num) (by omega)
  simpa using this

theorem rnd_one : rnd (1 : K) = 1 := by simpa using rnd_two_pow (K := K) 0

theorem abs_rnd_le {x : K} {n : ℕ} (h : |x| ≤ 2 ^ n) : |rnd x| ≤ 2 ^ n := by
  rw [abs_le] at h ⊢
  have h1 := rnd_mono h.1
  have h2 := rnd_mono h.2
  rw [rnd_neg, rnd_two_pow] at h1
  rw [rnd_two_pow] at h2
  exact ⟨h1, h2⟩

theorem round_of_abs_le {x : K} {n : ℕ} (hn : n < 1024) (h : |x| ≤ 2 ^ n) : F64.round x = .fin (rnd x) := by
  have h1 := abs_le.1 (abs_rnd_le h)
  have h2 := F64.pow_lt_overflowAt hn
  unfold F64.round
  rw [if_neg (by linarith [h1.2]), if_neg (by linarith [h1.1])]

theorem rnd_isInt (n : ℤ) : ∃ m : ℤ, rnd (n : K) = m := by
  by_cases h : |n| ≤ 2 ^ 53
  · exact ⟨n, rnd_int n h⟩
  · have h0 : (0 : K) < |(n : K)| := by
      rw [abs_pos]; intro h0
      have : n = 0 := by exact_mod_cast h0
      subst this; simp at h
    have hlog : 53 ≤ Int.log 2 |(n : K)| := by
      refine (Int.zpow_le_iff_le_log (b := 2) (by norm_num) h0).mp ?_
      rw [not_le] at h
      have : ((2 ^ 53 : ℤ) : K) ≤ ((|n| : ℤ) : K) := by exact_mod_cast h.le
      rw [Int.cast_abs] at this
      refine le_trans (le_of_eq ?_) this
      norm_num
    have hu : 0 ≤ ulpExp (n : K) := by unfold ulpExp; exact le_max_of_le_left (by omega)
    refine ⟨roundEven ((n : K) / 2 ^ ulpExp (n : K)) * 2 ^ (ulpExp (n : K)).toNat, ?_⟩
    unfold rnd
    push_cast
    rw [← zpow_natCast, Int.toNat_of_nonneg hu]

/-- A representable number that is at least 1 is a multiple of 2^-52. -/
theorem rep_ge_one_multiple {q : ℚ} (hr : rnd q = q) (h1 : 1 ≤ q) : ∃ m : ℤ, q = m * (2 : ℚ) ^ (-52 : ℤ) := by
  have h0 : (0 : ℚ) < |q| := by rw [abs_pos]; linarith
  have hlog : 0 ≤ Int.log 2 |q| := by
    refine (Int.zpow_le_iff_le_log (b := 2) (by norm_num) h0).mp ?_
    rw [abs_of_pos (by linarith)]
    simpa using h1
  have hu : -52 ≤ ulpExp q := by unfold ulpExp; exact le_max_of_le_left (by omega)
  refine ⟨roundEven (q / 2 ^ ulpExp q) * 2 ^ (ulpExp q + 52).toNat, ?_⟩
  conv_lhs => rw [← hr]
  unfold rnd
  push_cast
  rw [← zpow_natCast, Int.toNat_of_nonneg (by omega), mul_assoc, ← zpow_add₀ (by norm_num)]
  congr 2; ring

end

namespace F64

theorem ofInt_i64 (n : ℤ) (h : |n| ≤ 2 ^ 64) : ofInt n = fin (rnd (n : ℚ)) := by
  unfold ofInt
  refine round_of_abs_le (n := 64) (by norm_num) ?_
  have : ((|n| : ℤ) : ℚ) ≤ ((2 ^ 64 : ℤ) : ℚ) := by exact_mod_cast h
  rw [Int.cast_abs] at this
  refine this.trans (le_of_eq ?_)
  norm_num

theorem abs_rnd_i64 (n : ℤ) (h : |n| ≤ 2 ^ 64) : |rnd (n : ℚ)| ≤ 2 ^ 64 := by
  apply abs_rnd_le
  have : ((|n| : ℤ) : ℚ) ≤ ((2 ^ 64 : ℤ) : ℚ) := by exact_mod_cast h
  rw [Int.cast_abs] at this
  refine this.trans (le_of_eq ?_)
  norm_num

theorem div_fin (a : ℚ) {b : ℚ} (h : b ≠ 0) : div (fin a) (fin b) = round (a / b) := by
  show (if b = 0 then _ else _) = _
  rw [if_neg h]

theorem lt_le_absurd {x y : F64} (h1 : lt x y = true) (h2 : le y x = true) : False := by
  rcases x with _ | (_ | _) | x <;> rcases y with _ | (_ | _) | y <;> simp [lt, le] at h1 h2
  linarith

theorem ninf_le {x : F64} (h : x ≠ nan) : le (inf true) x = true := by rcases x with _ | (_ | _) | _ <;> simp_all [le]
theorem le_pinf {x : F64} (h : x ≠ nan) : le x (inf false) = true := by rcases x with _ | (_ | _) | _ <;> simp_all [le]

/-- Multiplication by a positive finite number is monotone. -/
theorem mul_right_mono {a b : F64} {c : ℚ} (hc : 0 < c) (h : le a b = true) : le (mul a (fin c)) (mul b (fin c)) = true := by
  have hc0 : c ≠ 0 := hc.ne'
  have hcn : ¬ c < 0 := by linarith
  rcases a with _ | (_ | _) | a <;> rcases b with _ | (_ | _) | b <;>
    simp [le, mul, hc0, hcn, -Bool.forall_bool] at h ⊢
  · exact ninf_le (round_ne_nan _)
  · exact le_pinf (round_ne_nan _)
  · exact round_mono (by nlinarith)

theorem mul_ne_nan {a : F64} {c : ℚ} (hc : 0 < c) (h : a ≠ nan) : mul a (fin c) ≠ nan := by
  have hc0 : c ≠ 0 := hc.ne'
  rcases a with _ | (_ | _) | a <;> simp_all [mul, round_ne_nan]

end F64
end GoMetrics
