import Verif.Lemmas.ExpDecay
import Verif.Lemmas.F64More
import Verif.Lemmas.Percentile
import Verif.Lemmas.RoundEval
import Verif.Lemmas.Exact
import Mathlib.Analysis.Complex.ExponentialBounds

/-! Priorities of the exponentially decaying sample: exact reals, and binary64. -/

set_option linter.unusedSimpArgs false
set_option linter.unusedSectionVars false

namespace GoMetrics
open Spec

theorem perm_map_exists {α β : Type} (f : α → β) {l : List β} {R : List α} (h : l.Perm (R.map f)) :
    ∃ R' : List α, R'.Perm R ∧ l = R'.map f := by
  induction l generalizing R with
  | nil =>
    have : R = [] := by simpa using h.symm.eq_nil
    exact ⟨[], by simp [this], rfl⟩
  | cons a l ih =>
    have ha : a ∈ R.map f := h.mem_iff.1 List.mem_cons_self
    obtain ⟨x, hx, rfl⟩ := List.mem_map.1 ha
    obtain ⟨p, q, rfl⟩ := List.append_of_mem hx
    have h2 : l.Perm ((p ++ q).map f) := by
      have h3 : ((p ++ x :: q).map f).Perm (f x :: (p ++ q).map f) := List.perm_middle.map f
      exact (List.perm_cons _).1 (h.trans h3)
    obtain ⟨R', h4, rfl⟩ := ih h2
    exact ⟨x :: R', (h4.cons x).trans List.perm_middle.symm, rfl⟩

/-! ### keys in order -/

theorem keyOrder_real : KeyOrder ℝ (fun _ => True) := by
  constructor
  · intro a b _ _ h; simp at h ⊢; exact le_of_lt h
  · intro a b c _ _ _ h1 h2; simp at h1 h2 ⊢; exact le_trans h1 h2

theorem keyOrder_f64 : KeyOrder F64 (· ≠ .nan) := by
  constructor
  · intro a b ha hb h
    change F64.lt b a = false
    cases hba : F64.lt b a
    · rfl
    · exact absurd h (by
        have h' : F64.le a b = true := by
          rcases a with _ | (_ | _) | _ <;> rcases b with _ | (_ | _) | _ <;> simp_all [F64.le, GoFloat.lt, F64.lt]
          exact le_of_lt h
        exact fun _ => F64.lt_le_absurd hba h')
  · intro a b c ha hb hc h1 h2
    change F64.lt c a = false
    change F64.lt b a = false at h1
    change F64.lt c b = false at h2
    rw [F64.not_lt_of_ne_nan hb ha] at h1
    rw [F64.not_lt_of_ne_nan hc hb] at h2
    rw [F64.not_lt_of_ne_nan hc ha]
    exact F64.le_trans h1 h2

/-! ### exact time -/

theorem timeSub_eq {t u : Instant} (h1 : minInt64 ≤ t - u) (h2 : t - u ≤ maxInt64) : timeSub t u = t - u := by
  unfold timeSub; rw [min_eq_right h2, max_eq_right h1]

theorem seconds_real (d : Int) : (seconds d : ℝ) = d / 10 ^ 9 := by
  unfold seconds
  simp only [exact_add, exact_ofInt, exact_div, exact_lit]
  have h : ((second * d.tdiv second + d.tmod second : ℤ) : ℝ) = d := by rw [Int.mul_tdiv_add_tmod]
  have hs : ((second : ℤ) : ℝ) = 10 ^ 9 := by unfold second; norm_num
  push_cast at h
  rw [hs] at h
  rw [← h]
  push_cast
  field_simp

/-! ### binary64 time -/

theorem seconds_f64 (d : Int) (h0 : 0 ≤ d) (h1 : d ≤ maxInt64) :
    ∃ x : ℚ, (seconds d : F64) = .fin x ∧ 0 ≤ x ∧ x ≤ d / 10 ^ 9 + 1 ∧ (d / 10 ^ 9 : ℚ) ≤ x + 1 := by
  have hsec : second = 1000000000 := by decide
  have hm : maxInt64 = 9223372036854775807 := by decide
  set q := d.tdiv second with hq
  set r := d.tmod second with hr
  have hqr : second * q + r = d := Int.mul_tdiv_add_tmod d second
  have hr0 : 0 ≤ r := by rw [hr, Int.tmod_eq_emod_of_nonneg h0]; exact Int.emod_nonneg _ (by rw [hsec]; norm_num)
  have hr1 : r < second := by rw [hr, Int.tmod_eq_emod_of_nonneg h0]; exact Int.emod_lt_of_pos _ (by rw [hsec]; norm_num)
  have hq0 : 0 ≤ q := by rw [hq, Int.tdiv_eq_ediv_of_nonneg h0]; exact Int.ediv_nonneg h0 (by rw [hsec]; norm_num)
  have hq1 : q ≤ 9223372036 := by rw [hsec] at hqr hr1; omega
  have e1 : (GoFloat.ofInt q : F64) = .fin q := F64.ofInt_small q (by rw [abs_of_nonneg hq0]; omega)
  have e2 : (GoFloat.ofInt r : F64) = .fin r := F64.ofInt_small r (by rw [abs_of_nonneg hr0]; omega)
  have e3 : (GoFloat.lit (10 ^ 9) : F64) = .fin (10 ^ 9) := by
    have := F64.round_int (K := ℚ) (10 ^ 9) (by norm_num)
    push_cast at this
    exact this
  have hrq0 : (0 : ℚ) ≤ r := by exact_mod_cast hr0
  have hrq1 : (r : ℚ) < 10 ^ 9 := by rw [hsec] at hr1; exact_mod_cast hr1
  have hqq0 : (0 : ℚ) ≤ q := by exact_mod_cast hq0
  have hfrac0 : (0 : ℚ) ≤ r / 10 ^ 9 := by positivity
  have hfrac1 : (r / 10 ^ 9 : ℚ) ≤ 1 := by rw [div_le_one (by norm_num)]; exact le_of_lt hrq1
  set y := rnd (r / 10 ^ 9 : ℚ) with hy
  have hy0 : 0 ≤ y := rnd_nonneg hfrac0
  have hy1 : y ≤ 1 := by have := rnd_mono hfrac1; rwa [rnd_one] at this
  have e4 : (GoFloat.div (GoFloat.ofInt r) (GoFloat.lit (10 ^ 9)) : F64) = .fin y := by
    rw [e2, e3]
    change F64.div (.fin _) (.fin _) = _
    rw [F64.div_fin _ (by norm_num), round_of_abs_le (n := 0) (by norm_num) (by rw [abs_of_nonneg hfrac0]; simpa using hfrac1)]
  have hdq : (d : ℚ) / 10 ^ 9 = q + r / 10 ^ 9 := by
    have : (d : ℚ) = 10 ^ 9 * q + r := by
      rw [← hqr, hsec]; push_cast; norm_num
    rw [this]; field_simp
  have hupper : rnd ((q : ℚ) + y) ≤ q + 1 := by
    have h : rnd ((q : ℚ) + y) ≤ rnd (((q + 1 : ℤ)) : ℚ) := rnd_mono (by push_cast; linarith)
    rw [rnd_int _ (by rw [abs_of_nonneg (by omega)]; omega)] at h
    push_cast at h; exact h
  have hlower : (q : ℚ) ≤ rnd ((q : ℚ) + y) := by
    have h : rnd ((q : ℤ) : ℚ) ≤ rnd ((q : ℚ) + y) := rnd_mono (by linarith)
    rwa [rnd_int _ (by rw [abs_of_nonneg (by omega)]; omega)] at h
  refine ⟨rnd ((q : ℚ) + y), ?_, ?_, ?_, ?_⟩
  · unfold seconds
    rw [e4, e1]
    change F64.round ((q : ℚ) + y) = _
    apply round_of_abs_le (n := 60) (by norm_num)
    have : (q : ℚ) ≤ 9223372036 := by exact_mod_cast hq1
    rw [abs_of_nonneg (by linarith)]
    norm_num
    linarith
  · linarith
  · rw [hdq]; linarith
  · rw [hdq]; linarith

/-! ### binary64 exp in a safe range -/

theorem exp_one_lt_pow : Real.exp 700 ≤ 2 ^ 1022 := by
  have h1 : Real.exp 700 = Real.exp 1 ^ 700 := by rw [← Real.exp_nat_mul]; norm_num
  have h3 : Real.exp 1 ≤ 2.7182818286 := le_of_lt Real.exp_one_lt_d9
  have h4 : Real.exp 1 ^ 7 ≤ 1097 := le_trans (pow_le_pow_left₀ (Real.exp_pos _).le h3 7) (by norm_num)
  have h5 : (1097 : ℝ) ^ 5 ≤ 2 ^ 51 := by norm_num
  rw [h1, show (700 : ℕ) = 7 * 100 from rfl, pow_mul]
  calc (Real.exp 1 ^ 7) ^ 100 ≤ (1097 : ℝ) ^ 100 := pow_le_pow_left₀ (by positivity) h4 100
    _ = ((1097 : ℝ) ^ 5) ^ 20 := by rw [← pow_mul]
    _ ≤ (2 ^ 51) ^ 20 := pow_le_pow_left₀ (by positivity) h5 20
    _ = 2 ^ 1020 := by rw [← pow_mul]
    _ ≤ 2 ^ 1022 := pow_le_pow_right₀ (by norm_num) (by norm_num)

theorem exp_pos_range {y : ℚ} (h0 : 0 ≤ y) (h1 : y ≤ 700) : ∃ e : ℚ, F64.exp (.fin y) = .fin e ∧ 1 ≤ e := by
  have hy : (y : ℝ) ≤ 700 := by exact_mod_cast h1
  have hy0 : (0 : ℝ) ≤ y := by exact_mod_cast h0
  have hb : |Real.exp y| ≤ 2 ^ 1022 := by
    rw [abs_of_pos (Real.exp_pos _)]; exact le_trans (Real.exp_le_exp.2 hy) exp_one_lt_pow
  refine ⟨rnd (Real.exp y), ?_, ?_⟩
  · exact round_of_abs_le (n := 1022) (by norm_num) hb
  · have : rnd (1 : ℝ) ≤ rnd (Real.exp y) := rnd_mono (by rw [← Real.exp_zero]; exact Real.exp_le_exp.2 hy0)
    rwa [rnd_one] at this

theorem exp_neg_range {y : ℚ} (h0 : 0 ≤ y) (h1 : y ≤ 700) : ∃ e : ℚ, F64.exp (.fin (-y)) = .fin e ∧ 0 < e := by
  have hy : (y : ℝ) ≤ 700 := by exact_mod_cast h1
  have hy0 : (0 : ℝ) ≤ y := by exact_mod_cast h0
  have hcast : ((-y : ℚ) : ℝ) = -(y : ℝ) := by push_cast; rfl
  have hb : |Real.exp ((-y : ℚ) : ℝ)| ≤ 2 ^ 0 := by
    rw [abs_of_pos (Real.exp_pos _), hcast, pow_zero, ← Real.exp_zero]
    exact Real.exp_le_exp.2 (by linarith)
  refine ⟨rnd (Real.exp ((-y : ℚ) : ℝ)), ?_, ?_⟩
  · exact round_of_abs_le (n := 0) (by norm_num) hb
  · have h2 : (2 : ℝ) ^ (-1022 : ℤ) ≤ Real.exp ((-y : ℚ) : ℝ) := by
      rw [hcast, Real.exp_neg, zpow_neg]
      apply inv_anti₀ (Real.exp_pos _)
      exact_mod_cast le_trans (Real.exp_le_exp.2 hy) exp_one_lt_pow
    have h3 := rnd_mono h2
    have h4 : rnd ((2 : ℝ) ^ (-1022 : ℤ)) = 2 ^ (-1022 : ℤ) := by
      have := rnd_dyadic (K := ℝ) 1 (-1022) (by norm_num) (by norm_num)
      simpa using this
    rw [h4] at h3
    exact lt_of_lt_of_le (by positivity) h3

/-- A priority that cannot become NaN under a positive factor: finite and non-negative, or +Inf. -/
def GoodKey : F64 → Prop
  | .fin q => 0 ≤ q
  | .inf b => b = false
  | .nan => False

theorem GoodKey.ne_nan {x : F64} (h : GoodKey x) : x ≠ .nan := by rintro rfl; exact h

theorem goodKey_round {x : ℚ} (h : 0 ≤ x) : GoodKey (F64.round x) := by
  unfold F64.round
  have := rnd_nonneg h
  have hp := F64.overflowAt_pos
  split_ifs with h1 h2
  · rfl
  · exfalso; linarith
  · exact this

theorem GoodKey.div {e u : ℚ} (he : 1 ≤ e) (hu : 0 ≤ u) : GoodKey (F64.div (.fin e) (.fin u)) := by
  unfold F64.div
  dsimp only
  split_ifs with h1 h2
  · linarith
  · show decide (e < 0) = false
    simp; linarith
  · exact goodKey_round (div_nonneg (by linarith) hu)

theorem GoodKey.mul {x : F64} (h : GoodKey x) {f : ℚ} (hf : 0 < f) : GoodKey (F64.mul x (.fin f)) := by
  rcases x with _ | b | q
  · exact h
  · unfold F64.mul
    dsimp only
    rw [if_neg hf.ne']
    change b = false at h
    show (b != decide (f < 0)) = false
    rw [h]; simp; linarith
  · unfold F64.mul
    exact goodKey_round (mul_nonneg h hf.le)

theorem safe_product {a x : ℚ} (ha : 0 ≤ a) (hx : 0 ≤ x) (h : x * a ≤ 700) :
    ∃ y : ℚ, F64.mul (.fin x) (.fin a) = .fin y ∧ F64.mul (.fin (-a)) (.fin x) = .fin (-y) ∧ 0 ≤ y ∧ y ≤ 700 := by
  have h0 : 0 ≤ x * a := mul_nonneg hx ha
  have hr : rnd (x * a) ≤ 700 := by
    have := rnd_mono h
    rwa [show (700 : ℚ) = ((700 : ℤ) : ℚ) by norm_num, rnd_int 700 (by norm_num)] at this
  refine ⟨rnd (x * a), ?_, ?_, rnd_nonneg h0, hr⟩
  · exact round_of_abs_le (n := 10) (by norm_num) (by rw [abs_of_nonneg h0]; norm_num; linarith)
  · change F64.round (-a * x) = _
    rw [show -a * x = -(x * a) by ring, ← rnd_neg]
    exact round_of_abs_le (n := 10) (by norm_num) (by rw [abs_neg, abs_of_nonneg h0]; norm_num; linarith)

theorem key_good {a : ℚ} (ha : 0 ≤ a) {t0 t : Instant} (h0 : t0 ≤ t) (h1 : t - t0 ≤ maxInt64)
    (hs : a * ((t - t0 : ℤ) / 10 ^ 9 + 1) ≤ 700) {u : ℚ} (hu : 0 ≤ u) :
    GoodKey (ExpDecaySample.key (F64.fin a) t0 t (F64.fin u)) ∧
    ∃ f : ℚ, ExpDecaySample.factor (F64.fin a) t0 t = .fin f ∧ 0 < f := by
  have hm : minInt64 ≤ 0 := by decide
  have h0' : (0 : Int) ≤ t - t0 := Int.sub_nonneg.2 h0
  obtain ⟨x, hx, hx0, hx1, _⟩ := seconds_f64 (t - t0) h0' h1
  have hxa : x * a ≤ 700 := by
    have := mul_le_mul_of_nonneg_left hx1 ha
    linarith
  obtain ⟨y, e1, e2, hy0, hy1⟩ := safe_product ha hx0 hxa
  unfold ExpDecaySample.key ExpDecaySample.factor
  rw [timeSub_eq (le_trans hm h0') h1, hx]
  constructor
  · change GoodKey (F64.div (F64.exp (F64.mul (.fin x) (.fin a))) (.fin u))
    rw [e1]
    obtain ⟨e, he, he1⟩ := exp_pos_range hy0 hy1
    rw [he]
    exact GoodKey.div he1 hu
  · change ∃ f : ℚ, F64.exp (F64.mul (.fin (-a)) (.fin x)) = .fin f ∧ 0 < f
    rw [e2]
    exact exp_neg_range hy0 hy1

/-! ### overflow and underflow of exp -/

theorem rnd_tiny {x : ℝ} (h0 : 0 < x) (h1 : x < (2 : ℝ) ^ (-1075 : ℤ)) : rnd x = 0 := by
  have habs : |x| = x := abs_of_pos h0
  have hlog : Int.log 2 x < -1075 := (Int.lt_zpow_iff_log_lt (b := 2) (by norm_num) h0).mp (by push_cast; exact h1)
  have hu : ulpExp x = -1074 := by unfold ulpExp; rw [habs, max_eq_right (by omega)]
  have hp : (0 : ℝ) < (2 : ℝ) ^ (-1074 : ℤ) := two_zpow_pos _
  have hq0 : 0 < x / (2 : ℝ) ^ (-1074 : ℤ) := div_pos h0 hp
  have hq1 : x / (2 : ℝ) ^ (-1074 : ℤ) < 1 / 2 := by
    rw [div_lt_iff₀ hp]
    have : (2 : ℝ) ^ (-1075 : ℤ) = 1 / 2 * (2 : ℝ) ^ (-1074 : ℤ) := by
      rw [show (-1075 : ℤ) = -1074 - 1 by norm_num, zpow_sub_one₀ (by norm_num)]; ring
    linarith
  have hfl : ⌊x / (2 : ℝ) ^ (-1074 : ℤ)⌋ = 0 := by
    rw [Int.floor_eq_iff]; push_cast; constructor <;> linarith
  unfold rnd
  rw [hu]
  have : roundEven (x / (2 : ℝ) ^ (-1074 : ℤ)) = 0 := by
    unfold roundEven; rw [hfl, if_pos (by push_cast; linarith)]
  rw [this]; simp

theorem pow_le_exp : (2 : ℝ) ^ 1080 ≤ Real.exp 780 := by
  have h1 : Real.exp 780 = (Real.exp 1 ^ 5) ^ 156 := by rw [← pow_mul, ← Real.exp_nat_mul]; norm_num
  have h3 : (2.7182818283 : ℝ) ≤ Real.exp 1 := le_of_lt Real.exp_one_gt_d9
  have h4 : (2 : ℝ) ^ 7 ≤ Real.exp 1 ^ 5 := le_trans (by norm_num) (pow_le_pow_left₀ (by norm_num) h3 5)
  rw [h1]
  calc (2 : ℝ) ^ 1080 ≤ 2 ^ 1092 := pow_le_pow_right₀ (by norm_num) (by norm_num)
    _ = (2 ^ 7) ^ 156 := by rw [← pow_mul]
    _ ≤ _ := pow_le_pow_left₀ (by positivity) h4 156

theorem exp_overflow {y : ℚ} (h : 780 ≤ y) : F64.exp (.fin y) = .inf false := by
  have hy : (780 : ℝ) ≤ y := by exact_mod_cast h
  have h1 : (2 : ℝ) ^ 1024 ≤ Real.exp y :=
    le_trans (pow_le_pow_right₀ (by norm_num) (by norm_num)) (le_trans pow_le_exp (Real.exp_le_exp.2 hy))
  have h2 : rnd ((2 : ℝ) ^ 1024) ≤ rnd (Real.exp y) := rnd_mono h1
  rw [rnd_two_pow] at h2
  show F64.round (Real.exp y) = _
  unfold F64.round
  rw [if_pos]
  unfold F64.overflowAt
  exact h2

theorem exp_underflow {y : ℚ} (h : 780 ≤ y) : F64.exp (.fin (-y)) = .fin 0 := by
  have hy : (780 : ℝ) ≤ y := by exact_mod_cast h
  have hcast : ((-y : ℚ) : ℝ) = -(y : ℝ) := by push_cast; rfl
  have h1 : Real.exp ((-y : ℚ) : ℝ) < (2 : ℝ) ^ (-1075 : ℤ) := by
    rw [hcast, Real.exp_neg, zpow_neg]
    apply inv_strictAnti₀ (by positivity)
    refine lt_of_lt_of_le ?_ (le_trans pow_le_exp (Real.exp_le_exp.2 hy))
    exact_mod_cast pow_lt_pow_right₀ (by norm_num : (1 : ℕ) < 2) (by norm_num : 1075 < 1080)
  show F64.round (Real.exp ((-y : ℚ) : ℝ)) = _
  have := rnd_tiny (Real.exp_pos _) h1
  unfold F64.round
  have hp := F64.overflowAt_pos
  rw [this, if_neg (by linarith), if_neg (by linarith)]

/-- A long idle period makes a priority NaN. -/
theorem key_nan {a : ℚ} (ha : 0 < a) {t0 t : Instant} (h0 : t0 ≤ t) (h1 : t - t0 ≤ maxInt64)
    (hs : 780 + a ≤ a * ((t - t0 : ℤ) / 10 ^ 9)) (hmax : a * ((t - t0 : ℤ) / 10 ^ 9 + 1) ≤ 2 ^ 60) {u : ℚ} (hu : 0 < u) :
    F64.mul (ExpDecaySample.key (F64.fin a) t0 t (F64.fin u)) (ExpDecaySample.factor (F64.fin a) t0 t) = .nan := by
  have hm : minInt64 ≤ 0 := by decide
  obtain ⟨x, hx, hx0, hx1, hx2⟩ := seconds_f64 (t - t0) (by omega) h1
  have hxa : 780 ≤ x * a := by
    have := mul_le_mul_of_nonneg_left hx2 ha.le
    linarith
  have hxb : x * a ≤ 2 ^ 60 := by
    have := mul_le_mul_of_nonneg_left hx1 ha.le
    linarith
  have e0 : F64.mul (.fin x) (.fin a) = .fin (rnd (x * a)) :=
    round_of_abs_le (n := 60) (by norm_num) (by rw [abs_of_nonneg (by linarith)]; exact hxb)
  have e1 : F64.mul (.fin (-a)) (.fin x) = .fin (-rnd (x * a)) := by
    change F64.round (-a * x) = _
    rw [show -a * x = -(x * a) by ring, ← rnd_neg]
    exact round_of_abs_le (n := 60) (by norm_num) (by rw [abs_neg, abs_of_nonneg (by linarith)]; exact hxb)
  have hr : 780 ≤ rnd (x * a) := by
    have := rnd_mono hxa
    rwa [show (780 : ℚ) = ((780 : ℤ) : ℚ) by norm_num, rnd_int 780 (by norm_num)] at this
  unfold ExpDecaySample.key ExpDecaySample.factor
  rw [timeSub_eq (by omega) h1, hx]
  change F64.mul (F64.div (F64.exp (F64.mul (.fin x) (.fin a))) (.fin u)) (F64.exp (F64.mul (.fin (-a)) (.fin x))) = .nan
  rw [e0, e1, exp_overflow hr, exp_underflow hr]
  simp [F64.div, F64.mul]

/-! ### exact forward-decay weights -/

/-- The forward-decay weight of an update, relative to the time origin. -/
noncomputable def fwdWeight (alpha : ℝ) (g : Given ℝ) : ℝ := Real.exp (alpha * (g.t / 10 ^ 9)) / g.u

/-- The item that stands for an update when the landmark is `t0`. -/
noncomputable def itemAt (alpha : ℝ) (t0 : Instant) (g : Given ℝ) : Item ℝ :=
  { k := fwdWeight alpha g * Real.exp (-alpha * (t0 / 10 ^ 9)), v := g.v }

theorem key_real (alpha : ℝ) {t0 t : Instant} (h1 : minInt64 ≤ t - t0) (h2 : t - t0 ≤ maxInt64) (v : Int64) (u : ℝ) :
    (⟨ExpDecaySample.key alpha t0 t u, v⟩ : Item ℝ) = itemAt alpha t0 ⟨t, v, u⟩ := by
  unfold ExpDecaySample.key itemAt fwdWeight
  rw [timeSub_eq h1 h2, seconds_real]
  simp only [exact_div, exact_mul, GoExp.exp]
  congr 1
  rw [div_mul_eq_mul_div (Real.exp (alpha * (t / 10 ^ 9))), ← Real.exp_add]
  congr 2
  push_cast
  ring

theorem rescale_real (alpha : ℝ) {t0 t : Instant} (h1 : minInt64 ≤ t - t0) (h2 : t - t0 ≤ maxInt64) (g : Given ℝ) :
    ExpDecaySample.scaleItem (ExpDecaySample.factor alpha t0 t) (itemAt alpha t0 g) = itemAt alpha t g := by
  unfold ExpDecaySample.factor ExpDecaySample.scaleItem itemAt
  rw [timeSub_eq h1 h2, seconds_real]
  simp only [exact_neg, exact_mul, GoExp.exp]
  congr 1
  rw [mul_assoc, ← Real.exp_add]
  congr 2
  push_cast
  ring

theorem itemAt_not_lt {alpha : ℝ} {t0 : Instant} {x y : Given ℝ} (h : GoFloat.lt (itemAt alpha t0 y).k (itemAt alpha t0 x).k = false) :
    fwdWeight alpha x ≤ fwdWeight alpha y := by
  simp [itemAt] at h
  exact le_of_mul_le_mul_right h (Real.exp_pos _)

end GoMetrics
