import Verif.Lemmas.F64More

/-! Evaluation of rounding on concrete numbers (used by the counterexamples). -/

namespace GoMetrics

theorem rnd_eval {x : ℚ} (e : ℤ) (h1 : (2 : ℚ) ^ e ≤ |x|) (h2 : |x| < (2 : ℚ) ^ (e + 1)) (he : -1022 ≤ e) :
    rnd x = roundEven (x / (2 : ℚ) ^ (e - 52)) * (2 : ℚ) ^ (e - 52) := by
  have h0 : 0 < |x| := lt_of_lt_of_le (two_zpow_pos e) h1
  have a : e ≤ Int.log 2 |x| := (Int.zpow_le_iff_le_log (b := 2) (by norm_num) h0).mp (by push_cast; exact h1)
  have b : Int.log 2 |x| < e + 1 := (Int.lt_zpow_iff_log_lt (b := 2) (by norm_num) h0).mp (by push_cast; exact h2)
  have : ulpExp x = e - 52 := by unfold ulpExp; rw [max_eq_left (by omega)]; omega
  unfold rnd; rw [this]

theorem roundEven_of_lt {x : ℚ} {n : ℤ} (h : |x - n| < 1 / 2) : roundEven x = n := by
  rw [abs_lt] at h
  unfold roundEven
  rcases lt_or_ge x n with hx | hx
  · have hf : ⌊x⌋ = n - 1 := by rw [Int.floor_eq_iff]; push_cast; constructor <;> linarith
    rw [hf]; push_cast
    rw [if_neg (by linarith), if_pos (by linarith)]; ring
  · have hf : ⌊x⌋ = n := by rw [Int.floor_eq_iff]; constructor <;> linarith
    rw [hf, if_pos (by linarith)]

theorem roundEven_half_down {x : ℚ} {n : ℤ} (h : x = n + 1 / 2) (he : n % 2 = 0) : roundEven x = n := by
  have hf : ⌊x⌋ = n := by rw [Int.floor_eq_iff]; constructor <;> linarith
  unfold roundEven
  rw [hf, if_neg (by linarith), if_neg (by linarith), if_pos he]

theorem roundEven_half_up {x : ℚ} {n : ℤ} (h : x = n + 1 / 2) (he : n % 2 = 1) : roundEven x = n + 1 := by
  have hf : ⌊x⌋ = n := by rw [Int.floor_eq_iff]; constructor <;> linarith
  unfold roundEven
  rw [hf, if_neg (by linarith), if_neg (by linarith), if_neg (by omega)]

end GoMetrics
