import Verif.Lemmas.Ewma
import Verif.Lemmas.Accuracy

/-! The rounding errors of a moving average do not add up: each step shrinks the old error by `1 - alpha` and adds a bounded one. -/

namespace GoMetrics
open Spec F64

/-- Absolute error of one rounding, subnormal numbers included. -/
theorem rnd_abs_err (x : ℚ) : |rnd x - x| ≤ uu * |x| + 2 ^ (-1075 : ℤ) := by
  have hu := uu_pos
  rcases eq_or_ne x 0 with rfl | hx
  · rw [rnd_zero]; simp only [sub_self, abs_zero, mul_zero, zero_add]; positivity
  by_cases h : (2 : ℚ) ^ (-1022 : ℤ) ≤ |x|
  · have h1 := rnd_rel_err x h
    simp only [Rat.cast_id, ← uu_eq] at h1
    have : (0 : ℚ) < 2 ^ (-1075 : ℤ) := by positivity
    linarith
  · push Not at h
    have h1 := rnd_err x
    simp only [Rat.cast_id] at h1
    have hue : ulpExp x = -1074 := by
      have hpos : 0 < |x| := abs_pos.2 hx
      have : Int.log 2 |x| < -1022 := (Int.lt_zpow_iff_log_lt (b := 2) (by norm_num) hpos).1 (by rw [Nat.cast_ofNat]; exact h)
      unfold ulpExp; exact max_eq_right (by omega)
    rw [hue] at h1
    have e : (2 : ℚ) ^ (-1074 : ℤ) / 2 = 2 ^ (-1075 : ℤ) := by
      rw [show (-1075 : ℤ) = -1074 - 1 by norm_num, zpow_sub_one₀ (by norm_num)]; rfl
    rw [e] at h1
    have := mul_nonneg hu.le (abs_nonneg x)
    linarith

/-- The error of one step, in terms of the error before. -/
theorem newRate_err {a r i R I M : ℚ} (ha0 : 0 ≤ a) (ha1 : a ≤ 1 / 4) (hr0 : 0 ≤ r) (hi0 : 0 ≤ i) (hrM : r ≤ M) (hiM : i ≤ M)
    (k1 : 0 ≤ r + rnd (a * rnd (i - r))) (k2 : r + rnd (a * rnd (i - r)) ≤ max r i) :
    |rnd (r + rnd (a * rnd (i - r))) - (R + a * (I - R))| ≤ (1 - a) * |r - R| + a * |i - I| + 2 * uu * M + 3 * 2 ^ (-1075 : ℤ) := by
  have hu := uu_pos
  have hM : 0 ≤ M := hr0.trans hrM
  set η : ℚ := 2 ^ (-1075 : ℤ) with hη
  have hη0 : 0 < η := by rw [hη]; positivity
  have hd : |i - r| ≤ M := by rw [abs_le]; constructor <;> linarith
  have hd2 : |rnd (i - r)| ≤ 2 * M := by
    rcases le_total 0 (i - r) with h | h
    · have h1 := rnd_nonneg h
      have h2 := rnd_le_two_mul h
      simp only [Rat.cast_id] at h2
      rw [abs_of_nonneg h1]
      have := (abs_le.1 hd).2
      linarith
    · have h1 := rnd_nonneg (x := -(i - r)) (by linarith)
      have h2 := rnd_le_two_mul (x := -(i - r)) (by linarith)
      simp only [Rat.cast_id] at h2
      rw [rnd_neg] at h1 h2
      rw [abs_of_nonpos (by linarith)]
      have := (abs_le.1 hd).1
      linarith
  have e1 := rnd_abs_err (i - r)
  have e2 := rnd_abs_err (a * rnd (i - r))
  have e3 := rnd_abs_err (r + rnd (a * rnd (i - r)))
  rw [← hη] at e1 e2 e3
  set d := rnd (i - r)
  set p := rnd (a * d)
  have hp : |r + p| ≤ M := by rw [abs_of_nonneg k1]; exact k2.trans (max_le hrM hiM)
  have had : |a * d| ≤ M / 2 := by
    rw [abs_mul, abs_of_nonneg ha0]
    nlinarith [abs_nonneg d]
  have f1 : |d - (i - r)| ≤ uu * M + η := e1.trans (by have := mul_le_mul_of_nonneg_left hd hu.le; linarith)
  have f2 : |p - a * d| ≤ uu * (M / 2) + η := e2.trans (by have := mul_le_mul_of_nonneg_left had hu.le; linarith)
  have f3 : |rnd (r + p) - (r + p)| ≤ uu * M + η := e3.trans (by have := mul_le_mul_of_nonneg_left hp hu.le; linarith)
  have split : rnd (r + p) - (R + a * (I - R)) =
      (rnd (r + p) - (r + p)) + (p - a * d) + a * (d - (i - r)) + (1 - a) * (r - R) + a * (i - I) := by ring
  have t1 : |a * (d - (i - r))| ≤ 1 / 4 * (uu * M + η) := by
    rw [abs_mul, abs_of_nonneg ha0]
    exact mul_le_mul ha1 f1 (abs_nonneg _) (by norm_num)
  have t2 : |(1 - a) * (r - R)| = (1 - a) * |r - R| := by rw [abs_mul, abs_of_nonneg (by linarith)]
  have t3 : |a * (i - I)| = a * |i - I| := by rw [abs_mul, abs_of_nonneg ha0]
  rw [split]
  calc _ ≤ |rnd (r + p) - (r + p)| + |p - a * d| + |a * (d - (i - r))| + |(1 - a) * (r - R)| + |a * (i - I)| := by
        refine (abs_add_le _ _).trans (add_le_add ?_ le_rfl)
        refine (abs_add_le _ _).trans (add_le_add ?_ le_rfl)
        refine (abs_add_le _ _).trans (add_le_add ?_ le_rfl)
        exact abs_add_le _ _
    _ ≤ _ := by
        rw [t2, t3]
        have : 0 ≤ uu * M := mul_nonneg hu.le hM
        linarith

/-- The interval rate in float64 against the exact one: two roundings. -/
theorem instQ_err {c : Int} (h : 0 ≤ c) : |instQ c - (c : ℚ) / 5 / 10 ^ 9| ≤ 3 * uu * ((c : ℚ) / 5 / 10 ^ 9) := by
  have hu := uu_pos
  have hc : (0 : ℚ) ≤ c := by exact_mod_cast h
  have hcm : (c : ℚ) = 0 ∨ (2 : ℚ) ^ (0 : ℤ) ≤ c := by
    rcases h.eq_or_lt with h | h
    · left; rw [← h]; simp
    · right; simp only [zpow_zero]; exact_mod_cast h
  obtain ⟨r1, r2, r3, r4⟩ := rnd_uu (e := 0) (by norm_num) hc hcm
  have hq : rnd (c : ℚ) / (5 * 10 ^ 9) = 0 ∨ (2 : ℚ) ^ (-33 : ℤ) ≤ rnd (c : ℚ) / (5 * 10 ^ 9) := by
    rcases r3 with h | h
    · left; rw [h]; simp
    · right
      rw [le_div_iff₀ (by norm_num)]
      refine le_trans ?_ h
      norm_num
  obtain ⟨s1, s2, s3, s4⟩ := rnd_uu (e := -33) (by norm_num) (div_nonneg r4 (by norm_num)) hq
  unfold instQ
  set x := rnd (c : ℚ)
  have hx : (c : ℚ) / 5 / 10 ^ 9 = c / (5 * 10 ^ 9) := by rw [div_div]
  rw [hx]
  have g1 : x / (5 * 10 ^ 9) ≤ (1 + uu) * (c / (5 * 10 ^ 9)) := by
    rw [← mul_div_assoc]; gcongr
  have g2 : (1 - uu) * (c / (5 * 10 ^ 9)) ≤ x / (5 * 10 ^ 9) := by
    rw [← mul_div_assoc]; gcongr
  set y := (c : ℚ) / (5 * 10 ^ 9)
  have hy : 0 ≤ y := div_nonneg hc (by norm_num)
  have hu1 := uu_lt_one
  have hus : uu ^ 2 ≤ uu := by nlinarith
  have a1 : (1 + uu) * (x / (5 * 10 ^ 9)) ≤ (1 + uu) * ((1 + uu) * y) := mul_le_mul_of_nonneg_left g1 (by linarith)
  have a2 : (1 - uu) * ((1 - uu) * y) ≤ (1 - uu) * (x / (5 * 10 ^ 9)) := mul_le_mul_of_nonneg_left g2 (by linarith)
  have a3 : uu ^ 2 * y ≤ uu * y := mul_le_mul_of_nonneg_right hus hy
  have a4 : 0 ≤ uu ^ 2 * y := by positivity
  rw [abs_le]
  constructor <;> nlinarith

/-- The stored rate in float64 against the exact one, however many ticks there were. -/
theorem foldRate_drift {a : ℚ} (ha0 : 0 < a) (ha1 : a ≤ 1 / 4) {cs : List Int64} {B : Int} (hB1 : 1 ≤ B) (hB : B ≤ 2 ^ 64)
    (h0 : ∀ c ∈ cs, 0 ≤ c.toInt) (h1 : ∀ c ∈ cs, c.toInt ≤ B) :
    ∃ r : ℚ, foldRate (F64.fin a) cs = F64.fin r ∧ rnd r = r ∧ 0 ≤ r ∧ r ≤ instQ B ∧
      a * |r - foldRate a cs| ≤ 4 * uu * ((B : ℚ) / 5 / 10 ^ 9) := by
  have hu := uu_pos
  have hBq : (1 : ℚ) ≤ B := by exact_mod_cast hB1
  set m : ℚ := (B : ℚ) / 5 / 10 ^ 9 with hm
  have hm0 : 1 / (5 * 10 ^ 9) ≤ m := by rw [hm, div_div]; gcongr
  have hmpos : 0 < m := lt_of_lt_of_le (by norm_num) hm0
  have hz : 0 ≤ instQ B := by rw [← instQ_zero]; exact instQ_mono (by omega)
  have hBerr := abs_le.1 (instQ_err (c := B) (by omega))
  rw [← hm] at hBerr
  have hMu : instQ B ≤ (1 + 3 * uu) * m := by linarith [hBerr.2]
  have hη : 3 * (2 : ℚ) ^ (-1075 : ℤ) ≤ 1 / 16 * (uu * m) := by
    have e1 : (2 : ℚ) ^ (-1075 : ℤ) ≤ 2 ^ (-100 : ℤ) := zpow_le_zpow_right₀ (by norm_num) (by norm_num)
    have e2 : 3 * (2 : ℚ) ^ (-100 : ℤ) ≤ 1 / 16 * (uu * (1 / (5 * 10 ^ 9))) := by unfold uu; norm_num
    have e3 : uu * (1 / (5 * 10 ^ 9)) ≤ uu * m := mul_le_mul_of_nonneg_left hm0 hu.le
    exact (mul_le_mul_of_nonneg_left e1 (by norm_num)).trans (e2.trans (mul_le_mul_of_nonneg_left e3 (by norm_num)))
  have hE0 : 0 ≤ 4 * uu * m := by positivity
  have hus : uu ≤ 1 / 64 := uu_small.trans (by norm_num)
  induction cs using List.reverseRecOn with
  | nil =>
    refine ⟨0, ?_, rnd_zero, le_rfl, hz, ?_⟩
    · have := lit_f64_int 0 (by norm_num)
      simpa [foldRate] using this
    · have : foldRate a ([] : List Int64) = (0 : ℚ) := by simp [foldRate]
      rw [this]; simpa using hE0
  | append_singleton cs c ih =>
    obtain ⟨r, e, r1, r2, r3, r4⟩ := ih (fun x hx => h0 x (by simp [hx])) (fun x hx => h1 x (by simp [hx]))
    have c0 := h0 c (by simp)
    have c1 := h1 c (by simp)
    have i0 : 0 ≤ instQ c.toInt := by rw [← instQ_zero]; exact instQ_mono c0
    have i1 : instQ c.toInt ≤ instQ B := instQ_mono c1
    have ierr := instQ_err c0
    have hcm : (c.toInt : ℚ) / 5 / 10 ^ 9 ≤ m := by
      rw [hm]
      have : (c.toInt : ℚ) ≤ B := by exact_mod_cast c1
      gcongr
    have ierr' : |instQ c.toInt - (c.toInt : ℚ) / 5 / 10 ^ 9| ≤ 3 * uu * m := ierr.trans (mul_le_mul_of_nonneg_left hcm (by positivity))
    by_cases hne : cs = []
    · subst hne
      refine ⟨instQ c.toInt, by simp [foldRate, instantRate_f64], rnd_rnd _, i0, i1, ?_⟩
      have : foldRate a ([] ++ [c]) = (c.toInt : ℚ) / 5 / 10 ^ 9 := by
        rw [List.nil_append, foldRate_one]; exact instantRate_exact c
      rw [this]
      calc a * |instQ c.toInt - (c.toInt : ℚ) / 5 / 10 ^ 9| ≤ 1 / 4 * (3 * uu * m) := mul_le_mul ha1 ierr' (abs_nonneg _) (by norm_num)
        _ ≤ _ := by linarith
    · have hM100 : instQ B ≤ 2 ^ 100 := (instQ_le hB).trans (by norm_num)
      obtain ⟨q1, k1, k2⟩ := newRate_f64_eq ha0.le ha1 r1 hM100 r2 i0 r3 i1
      have hri : rnd (instQ c.toInt) = instQ c.toInt := rnd_rnd _
      obtain ⟨r', p1, p2, p3, p4⟩ := newRate_f64 ha0.le ha1 r1 hri (M := instQ B) hM100 r2 i0 r3 i1
      have er : r' = rnd (r + rnd (a * rnd (instQ c.toInt - r))) := by rw [q1] at p1; cases p1; rfl
      refine ⟨r', ?_, p2, p3, p4.trans (max_le r3 i1), ?_⟩
      · rw [foldRate_snoc _ _ hne, e, instantRate_f64, p1]
      · have ex : foldRate a (cs ++ [c]) = foldRate a cs + a * ((c.toInt : ℚ) / 5 / 10 ^ 9 - foldRate a cs) := by
          rw [foldRate_snoc _ _ hne, newRate_exact, instantRate_exact]
        rw [er, ex]
        have key := newRate_err (R := foldRate a cs) (I := (c.toInt : ℚ) / 5 / 10 ^ 9) ha0.le ha1 r2 i0 r3 i1 k1 k2
        set E := |rnd (r + rnd (a * rnd (instQ c.toInt - r))) - (foldRate a cs + a * ((c.toInt : ℚ) / 5 / 10 ^ 9 - foldRate a cs))|
        set D := |r - foldRate a cs|
        have h2M : 2 * uu * instQ B ≤ (2 + 1 / 8) * (uu * m) := by
          have s1 : uu * instQ B ≤ uu * ((1 + 3 * uu) * m) := mul_le_mul_of_nonneg_left hMu hu.le
          have s2 : uu * uu * m ≤ 1 / 64 * uu * m := by gcongr
          nlinarith
        have hai : a * |instQ c.toInt - (c.toInt : ℚ) / 5 / 10 ^ 9| ≤ 1 / 4 * (3 * uu * m) := mul_le_mul ha1 ierr' (abs_nonneg _) (by norm_num)
        have h3 : E ≤ (1 - a) * D + (3 * (uu * m)) := by linarith [mul_pos hu hmpos]
        have h4 : a * E ≤ (1 - a) * (a * D) + a * (3 * (uu * m)) := by
          have := mul_le_mul_of_nonneg_left h3 ha0.le
          linarith
        have h5 : (1 - a) * (a * D) ≤ (1 - a) * (4 * uu * m) := mul_le_mul_of_nonneg_left r4 (by linarith)
        have h6 : a * (3 * (uu * m)) ≤ a * (4 * (uu * m)) := mul_le_mul_of_nonneg_left (by linarith [mul_pos hu hmpos]) ha0.le
        linarith

/-- What `Rate()` returns, in float64, against the exact moving average of the interval rates. -/
theorem rate_drift {a : ℚ} (ha0 : 0 < a) (ha1 : a ≤ 1 / 4) {cs : List Int64} {B : Int} (hB1 : 1 ≤ B) (hB : B ≤ 2 ^ 64)
    (h0 : ∀ c ∈ cs, 0 ≤ c.toInt) (h1 : ∀ c ∈ cs, c.toInt ≤ B) :
    ∃ r : ℚ, GoFloat.mul (foldRate (F64.fin a) cs) (GoFloat.lit (10 ^ 9)) = F64.fin r ∧
      a * |r - movingAvg a (cs.map fun c => (c.toInt : ℚ) / 5)| ≤ uu * B := by
  obtain ⟨r, e, r1, r2, r3, r4⟩ := foldRate_drift ha0 ha1 hB1 hB h0 h1
  have hu := uu_pos
  refine ⟨rnd (r * 10 ^ 9), by rw [e]; exact rateOf_f64 r2 (r3.trans (instQ_le hB)), ?_⟩
  have hBq : (1 : ℚ) ≤ B := by exact_mod_cast hB1
  have hBerr := abs_le.1 (instQ_err (c := B) (by omega))
  have hM : r * 10 ^ 9 ≤ (1 + 3 * uu) * ((B : ℚ) / 5) := by
    have : r ≤ (1 + 3 * uu) * ((B : ℚ) / 5 / 10 ^ 9) := by linarith [hBerr.2]
    calc r * 10 ^ 9 ≤ (1 + 3 * uu) * ((B : ℚ) / 5 / 10 ^ 9) * 10 ^ 9 := by gcongr
      _ = _ := by ring
  have h5 := rnd_abs_err (r * 10 ^ 9)
  rw [abs_of_nonneg (by positivity : 0 ≤ r * 10 ^ 9)] at h5
  have hη : (2 : ℚ) ^ (-1075 : ℤ) ≤ 1 / 16 * (uu * (B : ℚ)) := by
    have e1 : (2 : ℚ) ^ (-1075 : ℤ) ≤ 2 ^ (-100 : ℤ) := zpow_le_zpow_right₀ (by norm_num) (by norm_num)
    have e2 : (2 : ℚ) ^ (-100 : ℤ) ≤ 1 / 16 * (uu * 1) := by unfold uu; norm_num
    have e3 : uu * 1 ≤ uu * (B : ℚ) := mul_le_mul_of_nonneg_left hBq hu.le
    exact e1.trans (e2.trans (mul_le_mul_of_nonneg_left e3 (by norm_num)))
  have hus : uu ≤ 1 / 64 := uu_small.trans (by norm_num)
  have huB : 0 ≤ uu * (B : ℚ) := by positivity
  have h6 : |rnd (r * 10 ^ 9) - r * 10 ^ 9| ≤ 1 / 2 * (uu * B) := by
    refine h5.trans ?_
    have s1 : uu * (r * 10 ^ 9) ≤ uu * ((1 + 3 * uu) * ((B : ℚ) / 5)) := mul_le_mul_of_nonneg_left hM hu.le
    have s2 : uu * uu * (B : ℚ) ≤ 1 / 64 * uu * B := by gcongr
    nlinarith
  rw [← foldRate_exact]
  have h7 : |r * 10 ^ 9 - foldRate a cs * 10 ^ 9| = |r - foldRate a cs| * 10 ^ 9 := by
    rw [← sub_mul, abs_mul, abs_of_pos (by norm_num : (0 : ℚ) < 10 ^ 9)]
  have h8 : |rnd (r * 10 ^ 9) - foldRate a cs * 10 ^ 9| ≤ 1 / 2 * (uu * B) + |r - foldRate a cs| * 10 ^ 9 := by
    calc _ = |(rnd (r * 10 ^ 9) - r * 10 ^ 9) + (r * 10 ^ 9 - foldRate a cs * 10 ^ 9)| := by congr 1; ring
      _ ≤ _ := abs_add_le _ _
      _ ≤ _ := by rw [h7]; linarith
  calc a * |rnd (r * 10 ^ 9) - foldRate a cs * 10 ^ 9| ≤ a * (1 / 2 * (uu * B) + |r - foldRate a cs| * 10 ^ 9) := mul_le_mul_of_nonneg_left h8 ha0.le
    _ = a * (1 / 2 * (uu * B)) + (a * |r - foldRate a cs|) * 10 ^ 9 := by ring
    _ ≤ 1 / 4 * (1 / 2 * (uu * B)) + 4 * uu * ((B : ℚ) / 5 / 10 ^ 9) * 10 ^ 9 := by gcongr
    _ ≤ _ := by linarith

section real

/-- The moving averages of the same values with two smoothing factors. -/
theorem movingAvg_alpha {a b M : ℝ} (ha0 : 0 < a) (ha1 : a ≤ 1) (hb0 : 0 ≤ b) (hb1 : b ≤ 1) (hM : 0 ≤ M) {xs : List ℝ}
    (h0 : ∀ x ∈ xs, 0 ≤ x) (h1 : ∀ x ∈ xs, x ≤ M) :
    a * |movingAvg a xs - movingAvg b xs| ≤ |a - b| * M := by
  have hz : 0 ≤ |a - b| * M := mul_nonneg (abs_nonneg _) hM
  induction xs using List.reverseRecOn with
  | nil => simpa [movingAvg] using hz
  | append_singleton xs x ih =>
    have ih := ih (fun y hy => h0 y (by simp [hy])) (fun y hy => h1 y (by simp [hy]))
    by_cases hne : xs = []
    · subst hne; simpa [movingAvg] using hz
    · have step : ∀ c : ℝ, movingAvg c (xs ++ [x]) = movingAvg c xs + c * (x - movingAvg c xs) := by
        intro c
        cases xs with
        | nil => exact absurd rfl hne
        | cons y ys => simp [movingAvg, List.foldl_append]
      obtain ⟨s0, s1⟩ := movingAvg_le hb0 hb1 (fun y hy => h0 y (List.mem_append_left _ hy)) (fun y hy => h1 y (List.mem_append_left _ hy)) hne
      have x0 := h0 x (by simp)
      have x1 := h1 x (by simp)
      rw [step a, step b]
      set R := movingAvg a xs
      set S := movingAvg b xs
      have e : R + a * (x - R) - (S + b * (x - S)) = (1 - a) * (R - S) + (a - b) * (x - S) := by ring
      have hxS : |x - S| ≤ M := by rw [abs_le]; constructor <;> linarith
      have h2 : |R + a * (x - R) - (S + b * (x - S))| ≤ (1 - a) * |R - S| + |a - b| * M := by
        rw [e]
        refine (abs_add_le _ _).trans ?_
        rw [abs_mul, abs_mul, abs_of_nonneg (by linarith : 0 ≤ 1 - a)]
        have := mul_le_mul_of_nonneg_left hxS (abs_nonneg (a - b))
        linarith
      calc a * |R + a * (x - R) - (S + b * (x - S))| ≤ a * ((1 - a) * |R - S| + |a - b| * M) := mul_le_mul_of_nonneg_left h2 ha0.le
        _ = (1 - a) * (a * |R - S|) + a * (|a - b| * M) := by ring
        _ ≤ (1 - a) * (|a - b| * M) + a * (|a - b| * M) := by
            have := mul_le_mul_of_nonneg_left ih (by linarith : 0 ≤ 1 - a)
            linarith
        _ = _ := by ring

theorem exp_lipschitz {s t : ℝ} (hs : s ≤ 0) (ht : t ≤ 0) : |Real.exp s - Real.exp t| ≤ |s - t| := by
  have key : ∀ s t : ℝ, s ≤ t → t ≤ 0 → |Real.exp s - Real.exp t| ≤ |s - t| := by
    intro s t h ht
    have h1 : Real.exp s ≤ Real.exp t := Real.exp_le_exp.2 h
    have h2 := Real.add_one_le_exp (s - t)
    have h3 : Real.exp s = Real.exp t * Real.exp (s - t) := by rw [← Real.exp_add]; congr 1; ring
    have h4 : Real.exp t ≤ 1 := Real.exp_le_one_iff.2 ht
    have h5 := Real.exp_pos t
    rw [abs_of_nonpos (by linarith), abs_of_nonpos (by linarith)]
    have h6 : Real.exp t * (1 - Real.exp (s - t)) ≤ Real.exp t * (t - s) := mul_le_mul_of_nonneg_left (by linarith) h5.le
    have h7 : Real.exp t * (t - s) ≤ 1 * (t - s) := mul_le_mul_of_nonneg_right h4 (by linarith)
    linarith
  rcases le_total s t with h | h
  · exact key s t h ht
  · rw [abs_sub_comm, abs_sub_comm s]; exact key t s h hs

theorem uu_real : ((uu : ℚ) : ℝ) = 1 / 2 ^ 53 := by unfold uu; push_cast; rfl

/-- The smoothing factor of a standard average in float64 against the exact one. -/
theorem ewmaAlpha_err {m : Nat} (hm : 1 ≤ m) : ∃ a : ℚ, (ewmaAlpha m : F64) = F64.fin a ∧ 0 ≤ a ∧ a ≤ 1 / 4 ∧
    |(a : ℝ) - (1 - Real.exp (-5 / 60 / m))| ≤ 2 * ((uu : ℚ) : ℝ) := by
  obtain ⟨e, q0, q1⟩ := ewmaAlpha_f64_eq hm
  obtain ⟨a, e', a0, a1⟩ := ewmaAlpha_f64 hm
  have ea : a = rnd (1 - rnd (Real.exp ((-rnd (5 / 60 / (m : ℚ)) : ℚ) : ℝ))) := by rw [e] at e'; cases e'; rfl
  refine ⟨a, e', a0, a1, ?_⟩
  have hu := uu_pos
  have hm' : (1 : ℚ) ≤ m := by exact_mod_cast hm
  set x : ℚ := 5 / 60 / (m : ℚ) with hx
  have x0 : 0 ≤ x := by positivity
  have x1 : x ≤ 1 / 12 := by
    rw [hx, div_div, div_le_div_iff₀ (by positivity) (by norm_num)]; linarith
  have r0 : 0 ≤ rnd x := rnd_nonneg x0
  have hη : (2 : ℚ) ^ (-1075 : ℤ) ≤ 1 / 16 * uu := by
    have e1 : (2 : ℚ) ^ (-1075 : ℤ) ≤ 2 ^ (-100 : ℤ) := zpow_le_zpow_right₀ (by norm_num) (by norm_num)
    have e2 : (2 : ℚ) ^ (-100 : ℤ) ≤ 1 / 16 * uu := by unfold uu; norm_num
    exact e1.trans e2
  have f1 : |rnd x - x| ≤ 1 / 4 * uu := by
    refine (rnd_abs_err x).trans ?_
    rw [abs_of_nonneg x0]
    have := mul_le_mul_of_nonneg_left x1 hu.le
    linarith
  set y := Real.exp ((-rnd x : ℚ) : ℝ) with hy
  have hy0 := Real.exp_pos ((-rnd x : ℚ) : ℝ)
  rw [← hy] at hy0
  have hy1 : y ≤ 1 := by rw [hy, Real.exp_le_one_iff]; push_cast; simpa using r0
  have hy34 : (1 / 2 : ℝ) ≤ y := by
    have h := Real.add_one_le_exp ((-rnd x : ℚ) : ℝ)
    have r2 : rnd x ≤ 1 / 6 := by
      have := rnd_le_two_mul x0
      simp at this; linarith
    have : ((rnd x : ℚ) : ℝ) ≤ 1 / 6 := by
      have := (Rat.cast_le (K := ℝ)).2 r2
      push_cast at this; linarith
    rw [← hy] at h
    push_cast at h
    linarith
  have f2 : |((rnd y : ℚ) : ℝ) - y| ≤ ((uu : ℚ) : ℝ) := by
    have h := rnd_near (x := y) (Apart.of_le (-1) (by norm_num) (.inr (by rw [abs_of_pos hy0]; norm_num; linarith)))
    have hue : (2 : ℝ) ^ (-53 : ℤ) = ((uu : ℚ) : ℝ) := by rw [uu_eq]; push_cast; rfl
    rw [hue, abs_of_pos hy0] at h
    have hu' : (0 : ℝ) < ((uu : ℚ) : ℝ) := by exact_mod_cast hu
    nlinarith
  have f3 : |a - (1 - rnd y)| ≤ 1 / 2 * uu := by
    rw [ea]
    refine (rnd_abs_err _).trans ?_
    rw [abs_of_nonneg (by linarith)]
    have : uu * (1 - rnd y) ≤ uu * (1 / 4) := mul_le_mul_of_nonneg_left (by linarith) hu.le
    linarith
  have f1' : |((rnd x : ℚ) : ℝ) - (x : ℝ)| ≤ 1 / 4 * ((uu : ℚ) : ℝ) := by
    have := (Rat.cast_le (K := ℝ)).2 f1
    push_cast at this
    exact this
  have f3' : |(a : ℝ) - (1 - ((rnd y : ℚ) : ℝ))| ≤ 1 / 2 * ((uu : ℚ) : ℝ) := by
    have := (Rat.cast_le (K := ℝ)).2 f3
    push_cast at this
    exact this
  have ex : (-5 / 60 / (m : ℝ)) = -(x : ℝ) := by rw [hx]; push_cast; ring
  rw [ex]
  have f4 : |y - Real.exp (-(x : ℝ))| ≤ 1 / 4 * ((uu : ℚ) : ℝ) := by
    have hxr : (0 : ℝ) ≤ (x : ℝ) := by exact_mod_cast x0
    have hrr : (0 : ℝ) ≤ ((rnd x : ℚ) : ℝ) := by exact_mod_cast r0
    have := exp_lipschitz (s := ((-rnd x : ℚ) : ℝ)) (t := -(x : ℝ)) (by push_cast; linarith) (by linarith)
    rw [← hy] at this
    refine this.trans ?_
    rw [show ((-rnd x : ℚ) : ℝ) - -(x : ℝ) = -(((rnd x : ℚ) : ℝ) - (x : ℝ)) by push_cast; ring, abs_neg]
    exact f1'
  have split : (a : ℝ) - (1 - Real.exp (-(x : ℝ))) = ((a : ℝ) - (1 - ((rnd y : ℚ) : ℝ))) + (-(((rnd y : ℚ) : ℝ) - y)) + (-(y - Real.exp (-(x : ℝ)))) := by ring
  rw [split]
  have hu' : (0 : ℝ) < ((uu : ℚ) : ℝ) := by exact_mod_cast hu
  calc _ ≤ |(a : ℝ) - (1 - ((rnd y : ℚ) : ℝ))| + |-(((rnd y : ℚ) : ℝ) - y)| + |-(y - Real.exp (-(x : ℝ)))| :=
        (abs_add_le _ _).trans (add_le_add (abs_add_le _ _) le_rfl)
    _ ≤ _ := by rw [abs_neg, abs_neg]; linarith

/-- The exact smoothing factor is at least 11/12 of 1/(12m). -/
theorem alpha_lower {m : Nat} (hm : 1 ≤ m) : (11 : ℝ) / (144 * m) ≤ 1 - Real.exp (-5 / 60 / m) ∧ 1 - Real.exp (-5 / 60 / m) ≤ 1 := by
  have hm' : (1 : ℝ) ≤ m := by exact_mod_cast hm
  have ex : (-5 / 60 / (m : ℝ)) = -(1 / (12 * m)) := by field_simp; norm_num
  rw [ex]
  set x : ℝ := 1 / (12 * m) with hx
  have x0 : 0 < x := by positivity
  have x1 : x ≤ 1 / 12 := by rw [hx]; gcongr; linarith
  -- exp(-x) = 1 / exp x ≤ 1 / (1 + x)
  have h1 : Real.exp (-x) ≤ 1 / (1 + x) := by
    rw [Real.exp_neg, ← one_div]
    exact one_div_le_one_div_of_le (by linarith) (by linarith [Real.add_one_le_exp x])
  have h2 : 1 / (1 + x) ≤ 1 - 11 / 12 * x := by
    rw [div_le_iff₀ (by linarith)]
    nlinarith
  constructor
  · have : (11 : ℝ) / (144 * m) = 11 / 12 * x := by rw [hx]; field_simp; norm_num
    rw [this]; linarith
  · linarith [Real.exp_pos (-x)]

/-- What a standard average shows, in float64, against the exact moving average with the exact smoothing factor. -/
theorem standard_drift {m : Nat} (hm : 1 ≤ m) (hm15 : m ≤ 2 ^ 20) {cs : List Int64} {B : Int} (hB1 : 1 ≤ B) (hB : B ≤ 2 ^ 64)
    (h0 : ∀ c ∈ cs, 0 ≤ c.toInt) (h1 : ∀ c ∈ cs, c.toInt ≤ B) :
    ∃ r : ℚ, GoFloat.mul (foldRate (ewmaAlpha m : F64) cs) (GoFloat.lit (10 ^ 9)) = F64.fin r ∧
      |(r : ℝ) - movingAvg (1 - Real.exp (-5 / 60 / m)) (cs.map fun c => (c.toInt : ℝ) / 5)| ≤ 20 * m * ((uu : ℚ) : ℝ) * B := by
  obtain ⟨a, ea, a0, a1, aerr⟩ := ewmaAlpha_err hm
  obtain ⟨l1, l2⟩ := alpha_lower hm
  have hm' : (1 : ℝ) ≤ m := by exact_mod_cast hm
  have hm20 : (m : ℝ) ≤ 2 ^ 20 := by exact_mod_cast hm15
  have hu' : (0 : ℝ) < ((uu : ℚ) : ℝ) := by exact_mod_cast uu_pos
  have hBr : (1 : ℝ) ≤ B := by exact_mod_cast hB1
  set α : ℝ := 1 - Real.exp (-5 / 60 / m) with hα
  have hα0 : 0 < α := lt_of_lt_of_le (by positivity) l1
  have inv1 : 1 ≤ 144 / 11 * m * α := by
    rw [div_le_iff₀ (by positivity)] at l1
    linarith
  have hus : 2 * ((uu : ℚ) : ℝ) * m ≤ 1 / 144 := by
    rw [uu_real]
    calc 2 * (1 / 2 ^ 53 : ℝ) * m ≤ 2 * (1 / 2 ^ 53) * 2 ^ 20 := by gcongr
      _ ≤ _ := by norm_num
  have hal := (abs_le.1 aerr).1
  have inv2 : 1 ≤ 144 / 10 * m * (a : ℝ) := by nlinarith
  have apos : (0 : ℝ) < a := by
    by_contra h
    push Not at h
    have : 144 / 10 * m * (a : ℝ) ≤ 0 := mul_nonpos_of_nonneg_of_nonpos (by positivity) h
    linarith
  have apos' : 0 < a := by exact_mod_cast apos
  obtain ⟨r, e, hr⟩ := rate_drift apos' a1 hB1 hB h0 h1
  refine ⟨r, by rw [ea]; exact e, ?_⟩
  have hr' : (a : ℝ) * |(r : ℝ) - movingAvg (a : ℝ) (cs.map fun c => (c.toInt : ℝ) / 5)| ≤ ((uu : ℚ) : ℝ) * B := by
    have hcast : ((movingAvg a (cs.map fun c => (c.toInt : ℚ) / 5) : ℚ) : ℝ) = movingAvg (a : ℝ) (cs.map fun c => (c.toInt : ℝ) / 5) := by
      cases cs with
      | nil => simp [movingAvg]
      | cons c cs =>
        simp only [List.map_cons, movingAvg]
        have : ∀ (ys : List Int64) (s : ℚ), ((List.foldl (fun r x => r + a * (x - r)) s (ys.map fun c => (c.toInt : ℚ) / 5) : ℚ) : ℝ)
            = List.foldl (fun r x => r + (a : ℝ) * (x - r)) (s : ℝ) (ys.map fun c => (c.toInt : ℝ) / 5) := by
          intro ys
          induction ys with
          | nil => intro s; rfl
          | cons y ys ih =>
            intro s
            simp only [List.map_cons, List.foldl_cons]
            rw [ih]
            congr 1
            push_cast
            rfl
        rw [this]
        push_cast
        rfl
    rw [← hcast]
    exact_mod_cast hr
  set A := movingAvg (a : ℝ) (cs.map fun c => (c.toInt : ℝ) / 5)
  have hM : α * |movingAvg α (cs.map fun c => (c.toInt : ℝ) / 5) - A| ≤ |α - a| * ((B : ℝ) / 5) := by
    refine movingAvg_alpha hα0 l2 apos.le ?_ (by positivity) ?_ ?_
    · have : ((a : ℚ) : ℝ) ≤ ((1 / 4 : ℚ) : ℝ) := by exact_mod_cast a1
      push_cast at this
      linarith
    · intro x hx
      obtain ⟨c, hc, rfl⟩ := List.mem_map.1 hx
      have : (0 : ℝ) ≤ c.toInt := by exact_mod_cast h0 c hc
      positivity
    · intro x hx
      obtain ⟨c, hc, rfl⟩ := List.mem_map.1 hx
      have : (c.toInt : ℝ) ≤ B := by exact_mod_cast h1 c hc
      gcongr
  set T := movingAvg α (cs.map fun c => (c.toInt : ℝ) / 5)
  have d1 : |(r : ℝ) - A| ≤ 144 / 10 * m * (((uu : ℚ) : ℝ) * B) := by
    calc |(r : ℝ) - A| = 1 * |(r : ℝ) - A| := by ring
      _ ≤ 144 / 10 * m * (a : ℝ) * |(r : ℝ) - A| := mul_le_mul_of_nonneg_right inv2 (abs_nonneg _)
      _ = 144 / 10 * m * ((a : ℝ) * |(r : ℝ) - A|) := by ring
      _ ≤ _ := mul_le_mul_of_nonneg_left hr' (by positivity)
  have d2 : |T - A| ≤ 144 / 11 * m * (2 * ((uu : ℚ) : ℝ) * ((B : ℝ) / 5)) := by
    calc |T - A| = 1 * |T - A| := by ring
      _ ≤ 144 / 11 * m * α * |T - A| := mul_le_mul_of_nonneg_right inv1 (abs_nonneg _)
      _ = 144 / 11 * m * (α * |T - A|) := by ring
      _ ≤ 144 / 11 * m * (|α - a| * ((B : ℝ) / 5)) := mul_le_mul_of_nonneg_left hM (by positivity)
      _ ≤ _ := by
          rw [abs_sub_comm] at aerr
          gcongr
  have hmu : 0 ≤ (m : ℝ) * (((uu : ℚ) : ℝ) * B) := by positivity
  calc |(r : ℝ) - T| = |((r : ℝ) - A) + -(T - A)| := by congr 1; ring
    _ ≤ |(r : ℝ) - A| + |-(T - A)| := abs_add_le _ _
    _ ≤ _ := by rw [abs_neg]; nlinarith

end real

end GoMetrics
