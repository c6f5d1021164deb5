import Verif.Lemmas.F64More
import Verif.Lemmas.Stats
import Verif.Spec.Accuracy
import Mathlib.Tactic.GCongr
import Mathlib.Algebra.Order.Ring.Pow

/-! Rounding errors of the statistics in float64: one rounding, a rounded sum of squares, a rounded mean. -/

set_option linter.unusedSectionVars false

namespace GoMetrics
open Spec

section
variable {K : Type} [Field K] [LinearOrder K] [IsStrictOrderedRing K] [FloorRing K]

/-- Zero, or far from the subnormal numbers. -/
def Apart (x : K) : Prop := x = 0 ∨ (2 : K) ^ (-1022 : ℤ) ≤ |x|

theorem Apart.of_le {x : K} (e : ℤ) (he : -1022 ≤ e) (h : x = 0 ∨ (2 : K) ^ e ≤ |x|) : Apart x := by
  rcases h with h | h
  · exact .inl h
  · exact .inr ((zpow_le_zpow_right₀ (by norm_num) he).trans h)

theorem rnd_near {x : K} (h : Apart x) : |(rnd x : K) - x| ≤ |x| * (2 : K) ^ (-53 : ℤ) := by
  rcases h with rfl | h
  · rw [rnd_zero]; simp
  · exact rnd_rel_err x h

theorem rnd_near_nonneg {x : K} (h0 : 0 ≤ x) (h : Apart x) :
    (1 - (2 : K) ^ (-53 : ℤ)) * x ≤ rnd x ∧ (rnd x : K) ≤ (1 + (2 : K) ^ (-53 : ℤ)) * x := by
  have := abs_le.1 (rnd_near h)
  rw [abs_of_nonneg h0] at this
  constructor <;> linarith [this.1, this.2]

theorem rnd_two_zpow (e : ℤ) (he : -1074 ≤ e) : rnd ((2 : K) ^ e) = 2 ^ e := by
  have := rnd_dyadic (K := K) 1 e (by norm_num) he
  simpa using this

theorem le_abs_rnd {x : K} {e : ℤ} (he : -1074 ≤ e) (h : (2 : K) ^ e ≤ |x|) : (2 : ℚ) ^ e ≤ |rnd x| := by
  have h1 := rnd_mono h
  rw [rnd_two_zpow e he] at h1
  rcases abs_cases x with ⟨hx, _⟩ | ⟨hx, _⟩ <;> rw [hx] at h1
  · exact h1.trans (le_abs_self _)
  · rw [rnd_neg] at h1; exact h1.trans (neg_le_abs _)

/-- Rounding keeps a number that is zero or at least 2^e in magnitude so. -/
theorem rnd_apart {x : K} {e : ℤ} (he : -1074 ≤ e) (h : x = 0 ∨ (2 : K) ^ e ≤ |x|) : rnd x = 0 ∨ (2 : ℚ) ^ e ≤ |rnd x| := by
  rcases h with rfl | h
  · exact .inl rnd_zero
  · exact .inr (le_abs_rnd he h)

/-- A rounded number of magnitude at least 2^e is a multiple of 2^(e-52). -/
theorem rnd_multiple {x : K} {e : ℤ} (h : x = 0 ∨ (2 : K) ^ e ≤ |x|) : ∃ m : ℤ, rnd x = m * (2 : ℚ) ^ (e - 52) := by
  rcases h with rfl | h
  · exact ⟨0, by rw [rnd_zero]; simp⟩
  · have hpos : 0 < |x| := lt_of_lt_of_le (two_zpow_pos _) h
    have hlog : e ≤ Int.log 2 |x| := (Int.zpow_le_iff_le_log (b := 2) (by norm_num) hpos).mp (by push_cast; exact h)
    have hu : e - 52 ≤ ulpExp x := by unfold ulpExp; exact le_max_of_le_left (by omega)
    refine ⟨roundEven (x / 2 ^ ulpExp x) * 2 ^ (ulpExp x - (e - 52)).toNat, ?_⟩
    unfold rnd
    push_cast
    rw [← zpow_natCast, Int.toNat_of_nonneg (by omega), mul_assoc, ← zpow_add₀ (by norm_num)]
    congr 2; ring

end

/-- A multiple of 2^e is zero or at least 2^e in magnitude. -/
theorem multiple_apart {x : ℚ} {e : ℤ} (h : ∃ m : ℤ, x = m * (2 : ℚ) ^ e) : x = 0 ∨ (2 : ℚ) ^ e ≤ |x| := by
  obtain ⟨m, rfl⟩ := h
  by_cases hm : m = 0
  · left; simp [hm]
  · right
    rw [abs_mul, abs_of_pos (two_zpow_pos (K := ℚ) e)]
    have : (1 : ℚ) ≤ |(m : ℚ)| := by exact_mod_cast Int.one_le_abs hm
    nlinarith [two_zpow_pos (K := ℚ) e]

theorem uu_pos : (0 : ℚ) < uu := by unfold uu; positivity
theorem uu_small : uu ≤ 1 / 2 ^ 53 := by unfold uu; norm_num
theorem uu_eq : uu = (2 : ℚ) ^ (-53 : ℤ) := by unfold uu; norm_num
theorem uu_lt_one : uu < 1 := by unfold uu; norm_num

/-- One rounding of a number that is zero or at least 2^e. -/
theorem rnd_uu {x : ℚ} {e : ℤ} (he : -1022 ≤ e) (h0 : 0 ≤ x) (h : x = 0 ∨ (2 : ℚ) ^ e ≤ x) :
    (1 - uu) * x ≤ rnd x ∧ rnd x ≤ (1 + uu) * x ∧ (rnd x = 0 ∨ (2 : ℚ) ^ e ≤ rnd x) ∧ 0 ≤ rnd x := by
  have h' : x = 0 ∨ (2 : ℚ) ^ e ≤ |x| := by rwa [abs_of_nonneg h0]
  have h1 := rnd_near_nonneg h0 (Apart.of_le e he h')
  have h2 := rnd_apart (e := e) (by omega) h'
  have h3 := rnd_nonneg h0
  rw [abs_of_nonneg h3] at h2
  rw [uu_eq]
  simp only [Rat.cast_id] at h1
  exact ⟨h1.1, h1.2, h2, h3⟩


/-- Σ(v-c)² = Σ(v-mean)² + n(c-mean)². -/
theorem squares_shift (vs : List Int64) (h : vs ≠ []) (c : ℚ) :
    squares c vs / vs.length = trueVariance vs + (c - trueMean vs) ^ 2 := by
  have hn : (0 : ℚ) < vs.length := by exact_mod_cast List.length_pos_iff.2 h
  have hexp : ∀ (c : ℚ) (ws : List Int64), squares c ws = (ws.map fun v => ((v.toInt : ℚ)) ^ 2).sum - 2 * c * total ws + ws.length * c ^ 2 := by
    intro c ws
    induction ws with
    | nil => simp [squares, total]
    | cons v ws ih =>
      simp only [squares, total, List.map_cons, List.sum_cons, List.length_cons, Nat.cast_add, Int.cast_add, Nat.cast_one] at ih ⊢
      rw [ih]; ring
  unfold trueVariance
  rw [hexp c, hexp (trueMean vs)]
  unfold trueMean
  field_simp
  ring

theorem squares_nonneg (c : ℚ) (vs : List Int64) : 0 ≤ squares c vs := by
  unfold squares
  refine List.sum_nonneg ?_
  intro x hx
  obtain ⟨v, _, rfl⟩ := List.mem_map.1 hx
  positivity

theorem trueVariance_nonneg (vs : List Int64) : 0 ≤ trueVariance vs := div_nonneg (squares_nonneg _ _) (by positivity)

/-- The float64 mean: two roundings. -/
theorem mean_rnd (vs : List Int64) (h : vs ≠ []) (hlen : (vs.length : Int) ≤ 2 ^ 53) (hs : SumFits vs) :
    (sampleMean vs : F64) = .fin (rnd (rnd ((total vs : ℤ) : ℚ) / vs.length)) := by
  have h0 : vs.length ≠ 0 := fun h0 => h (List.length_eq_zero_iff.1 h0)
  have hsum : (sampleSum vs).toInt = total vs := by
    rw [sampleSum_toInt]
    exact bmod_small hs.1 hs.2
  have hl : (1 : ℚ) ≤ vs.length := by exact_mod_cast (Nat.one_le_iff_ne_zero.2 h0)
  have hst : |rnd ((total vs : ℤ) : ℚ)| ≤ 2 ^ 64 := F64.abs_rnd_i64 _ (by have := hs.1; have := hs.2; rw [abs_le]; omega)
  have hq : |rnd ((total vs : ℤ) : ℚ) / vs.length| ≤ 2 ^ 64 := by
    rw [abs_div, abs_of_pos (by linarith : (0 : ℚ) < vs.length)]
    rw [div_le_iff₀ (by linarith)]
    nlinarith
  unfold sampleMean
  rw [if_neg h0, hsum]
  show F64.div (F64.ofInt _) (F64.ofInt _) = _
  rw [F64.ofInt_i64 _ (by have := hs.1; have := hs.2; rw [abs_le]; omega), F64.ofInt_small _ (by rw [abs_of_nonneg (by omega)]; exact hlen)]
  rw [F64.div_fin _ (by push_cast; linarith)]
  have := round_of_abs_le (n := 64) (by norm_num) hq
  exact_mod_cast this

theorem rnd_total_apart (vs : List Int64) : rnd ((total vs : ℤ) : ℚ) = 0 ∨ (2 : ℚ) ^ (0 : ℤ) ≤ |rnd ((total vs : ℤ) : ℚ)| :=
  rnd_apart (by norm_num) (multiple_apart ⟨total vs, by simp⟩)

theorem mean_quot_apart (vs : List Int64) (h : vs ≠ []) (hlen : (vs.length : Int) ≤ 2 ^ 53) :
    rnd ((total vs : ℤ) : ℚ) / vs.length = 0 ∨ (2 : ℚ) ^ (-53 : ℤ) ≤ |rnd ((total vs : ℤ) : ℚ) / vs.length| := by
  have hn : (0 : ℚ) < vs.length := by exact_mod_cast List.length_pos_iff.2 h
  rcases rnd_total_apart vs with h1 | h1
  · left; rw [h1]; simp
  · right
    rw [abs_div, abs_of_pos hn, le_div_iff₀ hn]
    have : (vs.length : ℚ) ≤ 2 ^ 53 := by exact_mod_cast hlen
    have h2 : (2 : ℚ) ^ (-53 : ℤ) * 2 ^ 53 = 1 := by norm_num
    calc (2 : ℚ) ^ (-53 : ℤ) * vs.length ≤ (2 : ℚ) ^ (-53 : ℤ) * 2 ^ 53 := by gcongr
      _ ≤ _ := by rw [h2]; simpa using h1

theorem mean_err (vs : List Int64) (h : vs ≠ []) (hlen : (vs.length : Int) ≤ 2 ^ 53) :
    |rnd (rnd ((total vs : ℤ) : ℚ) / vs.length) - trueMean vs| ≤ (2 * uu + uu ^ 2) * |trueMean vs| := by
  have hn : (0 : ℚ) < vs.length := by exact_mod_cast List.length_pos_iff.2 h
  have h1 := rnd_near (Apart.of_le (-53) (by norm_num) (mean_quot_apart vs h hlen))
  have h2 := rnd_near (K := ℚ) (x := ((total vs : ℤ) : ℚ)) (Apart.of_le 0 (by norm_num) (multiple_apart ⟨total vs, by simp⟩))
  simp only [Rat.cast_id, ← uu_eq] at h1 h2
  set t : ℚ := ((total vs : ℤ) : ℚ)
  set a := rnd t / vs.length
  have e : trueMean vs = t / vs.length := rfl
  have h3 : |a - trueMean vs| ≤ uu * |trueMean vs| := by
    rw [e]
    have : a - t / vs.length = (rnd t - t) / vs.length := by simp only [a]; ring
    rw [this, abs_div, abs_div, abs_of_pos hn]
    calc |rnd t - t| / vs.length ≤ (|t| * uu) / vs.length := by gcongr
      _ = _ := by ring
  have h4 : |a| ≤ (1 + uu) * |trueMean vs| := by
    have : a = (a - trueMean vs) + trueMean vs := by ring
    calc |a| = |(a - trueMean vs) + trueMean vs| := by rw [← this]
      _ ≤ |a - trueMean vs| + |trueMean vs| := abs_add_le _ _
      _ ≤ _ := by linarith
  calc |rnd a - trueMean vs| = |(rnd a - a) + (a - trueMean vs)| := by congr 1; ring
    _ ≤ |rnd a - a| + |a - trueMean vs| := abs_add_le _ _
    _ ≤ |a| * uu + uu * |trueMean vs| := by linarith
    _ ≤ (1 + uu) * |trueMean vs| * uu + uu * |trueMean vs| := by have := uu_pos; gcongr
    _ = _ := by ring

/-- The rounded sum of the squared distances from a number that is a multiple of 2^-105. -/
theorem squares_rnd (m : ℚ) (hm : ∃ j : ℤ, m = j * (2 : ℚ) ^ (-105 : ℤ)) (hm64 : |m| ≤ 2 ^ 64) :
    ∀ (ws : List Int64) (k : Nat) (s t : ℚ), (∀ v ∈ ws, |v.toInt| ≤ 2 ^ 53) → (((k + ws.length : ℕ)) : Int) ≤ 2 ^ 53 →
      0 ≤ t → (s = 0 ∨ (2 : ℚ) ^ (-210 : ℤ) ≤ s) → 0 ≤ s → s ≤ k * (2 : ℚ) ^ 132 →
      (1 - uu) ^ (k + 3) * t ≤ s → s ≤ (1 + uu) ^ (k + 3) * t →
      ∃ q : ℚ, ws.foldl (fun (sum : F64) v => let d := GoFloat.sub (GoFloat.ofInt v.toInt) (.fin m : F64); GoFloat.add sum (GoFloat.mul d d)) (.fin s) = .fin q
        ∧ 0 ≤ q ∧ (q = 0 ∨ (2 : ℚ) ^ (-210 : ℤ) ≤ q) ∧ q ≤ ((k + ws.length : ℕ) : ℚ) * (2 : ℚ) ^ 132
        ∧ (1 - uu) ^ (k + ws.length + 3) * (t + squares m ws) ≤ q ∧ q ≤ (1 + uu) ^ (k + ws.length + 3) * (t + squares m ws) := by
  intro ws
  induction ws with
  | nil =>
    intro k s t _ _ _ h1 h2 h3 h4 h5
    exact ⟨s, rfl, h2, h1, by simpa using h3, by simpa [squares] using h4, by simpa [squares] using h5⟩
  | cons v ws ih =>
    intro k s t hv hn ht h1 h2 h3 h4 h5
    have hv53 : |v.toInt| ≤ 2 ^ 53 := hv v (by simp)
    have hvq : |(v.toInt : ℚ)| ≤ 2 ^ 53 := by exact_mod_cast hv53
    have hd : |(v.toInt : ℚ) - m| ≤ 2 ^ 65 := by
      refine (abs_sub _ _).trans ?_
      have : (2 : ℚ) ^ 53 ≤ 2 ^ 64 := by norm_num
      linarith
    have hdm : (v.toInt : ℚ) - m = 0 ∨ (2 : ℚ) ^ (-105 : ℤ) ≤ |(v.toInt : ℚ) - m| := by
      obtain ⟨j, rfl⟩ := hm
      refine multiple_apart ⟨v.toInt * 2 ^ 105 - j, ?_⟩
      push_cast
      have : (2 : ℚ) ^ 105 * 2 ^ (-105 : ℤ) = 1 := by norm_num
      linear_combination -(v.toInt : ℚ) * this
    have e1 : GoFloat.sub (GoFloat.ofInt v.toInt) (.fin m : F64) = .fin (rnd ((v.toInt : ℚ) - m)) := by
      show F64.sub (F64.ofInt _) _ = _
      rw [F64.ofInt_small _ hv53]
      show F64.round (_ + -m) = _
      rw [← sub_eq_add_neg]
      exact round_of_abs_le (n := 65) (by norm_num) hd
    set x := (v.toInt : ℚ) - m with hx
    have hd' := abs_rnd_le hd
    have hdr := rnd_apart (by norm_num) hdm
    have hnear := rnd_near (Apart.of_le (-105) (by norm_num) hdm)
    simp only [Rat.cast_id, ← uu_eq] at hnear
    set d := rnd x
    have hdd : |d * d| ≤ 2 ^ 130 := by
      rw [abs_mul]
      calc _ ≤ (2 : ℚ) ^ 65 * 2 ^ 65 := mul_le_mul hd' hd' (abs_nonneg _) (by norm_num)
        _ = _ := by norm_num
    have hdlo : (1 - uu) * |x| ≤ |d| := by
      have := abs_sub_abs_le_abs_sub x d
      rw [abs_sub_comm x d] at this
      linarith
    have hdhi : |d| ≤ (1 + uu) * |x| := by
      have := abs_sub_abs_le_abs_sub d x
      linarith
    have hu := uu_pos
    have hu1 := uu_lt_one
    have hddlo : (1 - uu) ^ 2 * x ^ 2 ≤ d * d := by
      have : ((1 - uu) * |x|) * ((1 - uu) * |x|) ≤ |d| * |d| :=
        mul_le_mul hdlo hdlo (mul_nonneg (by linarith) (abs_nonneg _)) (abs_nonneg _)
      rw [abs_mul_abs_self] at this
      calc (1 - uu) ^ 2 * x ^ 2 = (1 - uu) ^ 2 * |x| ^ 2 := by rw [sq_abs]
        _ = ((1 - uu) * |x|) * ((1 - uu) * |x|) := by ring
        _ ≤ _ := this
    have hddhi : d * d ≤ (1 + uu) ^ 2 * x ^ 2 := by
      have : |d| * |d| ≤ ((1 + uu) * |x|) * ((1 + uu) * |x|) :=
        mul_le_mul hdhi hdhi (abs_nonneg _) (mul_nonneg (by linarith) (abs_nonneg _))
      rw [abs_mul_abs_self] at this
      calc d * d ≤ ((1 + uu) * |x|) * ((1 + uu) * |x|) := this
        _ = (1 + uu) ^ 2 * |x| ^ 2 := by ring
        _ = _ := by rw [sq_abs]
    have hddm : d * d = 0 ∨ (2 : ℚ) ^ (-210 : ℤ) ≤ d * d := by
      rcases hdr with h | h
      · left; rw [h]; ring
      · right
        rw [← abs_mul_abs_self]
        calc (2 : ℚ) ^ (-210 : ℤ) = 2 ^ (-105 : ℤ) * 2 ^ (-105 : ℤ) := by norm_num
          _ ≤ |d| * |d| := mul_le_mul h h (by positivity) (abs_nonneg _)
    have e2 : GoFloat.mul (.fin d : F64) (.fin d) = .fin (rnd (d * d)) := round_of_abs_le (n := 130) (by norm_num) hdd
    obtain ⟨r1, r2, r3, r4⟩ := rnd_uu (e := -210) (by norm_num) (mul_self_nonneg d) hddm
    have hdd1 : rnd (d * d) ≤ 2 ^ 130 := (abs_le.1 (abs_rnd_le hdd)).2
    set w := rnd (d * d)
    have hwlo : (1 - uu) ^ 3 * x ^ 2 ≤ w := by
      calc (1 - uu) ^ 3 * x ^ 2 = (1 - uu) * ((1 - uu) ^ 2 * x ^ 2) := by ring
        _ ≤ (1 - uu) * (d * d) := mul_le_mul_of_nonneg_left hddlo (by linarith)
        _ ≤ w := r1
    have hwhi : w ≤ (1 + uu) ^ 3 * x ^ 2 := by
      calc w ≤ (1 + uu) * (d * d) := r2
        _ ≤ (1 + uu) * ((1 + uu) ^ 2 * x ^ 2) := mul_le_mul_of_nonneg_left hddhi (by linarith)
        _ = _ := by ring
    have hn1 : (((k + 1 : ℕ) : ℤ)) ≤ 2 ^ 53 := by
      simp only [List.length_cons] at hn; omega
    have hs2 : s + w ≤ ((k + 1 : ℕ) : ℚ) * (2 : ℚ) ^ 132 := by
      push_cast
      have : (2 : ℚ) ^ 130 ≤ 2 ^ 132 := by norm_num
      linarith
    have hrs : rnd (s + w) ≤ ((k + 1 : ℕ) : ℚ) * (2 : ℚ) ^ 132 := by
      have := rnd_mono hs2
      have e := rnd_dyadic (K := ℚ) ((k + 1 : ℕ) : ℤ) 132 (by rw [abs_of_nonneg (by omega)]; exact hn1) (by norm_num)
      have e' : rnd (((k + 1 : ℕ) : ℚ) * (2 : ℚ) ^ 132) = ((k + 1 : ℕ) : ℚ) * (2 : ℚ) ^ 132 := by exact_mod_cast e
      rwa [e'] at this
    have e3 : GoFloat.add (.fin s : F64) (.fin w) = .fin (rnd (s + w)) := by
      show F64.round _ = _
      refine round_of_abs_le (n := 185) (by norm_num) ?_
      rw [abs_of_nonneg (by linarith)]
      refine hs2.trans ?_
      have : ((k + 1 : ℕ) : ℚ) ≤ 2 ^ 53 := by exact_mod_cast hn1
      calc ((k + 1 : ℕ) : ℚ) * (2 : ℚ) ^ 132 ≤ 2 ^ 53 * 2 ^ 132 := mul_le_mul_of_nonneg_right this (by norm_num)
        _ = 2 ^ 185 := by norm_num
    have hsw : s + w = 0 ∨ (2 : ℚ) ^ (-210 : ℤ) ≤ s + w := by
      rcases h1 with h1 | h1
      · rw [h1, zero_add]; exact r3
      · right; linarith
    obtain ⟨z1, z2, z3, z4⟩ := rnd_uu (e := -210) (by norm_num) (by linarith) hsw
    have hx2 : 0 ≤ x ^ 2 := sq_nonneg x
    have lo : (1 - uu) ^ (k + 1 + 3) * (t + x ^ 2) ≤ rnd (s + w) := by
      have hp : (1 - uu) ^ (k + 3) ≤ (1 - uu) ^ 3 := pow_le_pow_of_le_one (by linarith) (by linarith) (by omega)
      calc (1 - uu) ^ (k + 1 + 3) * (t + x ^ 2) = (1 - uu) * ((1 - uu) ^ (k + 3) * t + (1 - uu) ^ (k + 3) * x ^ 2) := by ring
        _ ≤ (1 - uu) * ((1 - uu) ^ (k + 3) * t + (1 - uu) ^ 3 * x ^ 2) := by
            refine mul_le_mul_of_nonneg_left ?_ (by linarith)
            have := mul_le_mul_of_nonneg_right hp hx2
            linarith
        _ ≤ (1 - uu) * (s + w) := mul_le_mul_of_nonneg_left (by linarith) (by linarith)
        _ ≤ _ := z1
    have hi : rnd (s + w) ≤ (1 + uu) ^ (k + 1 + 3) * (t + x ^ 2) := by
      have hp : (1 + uu) ^ 3 ≤ (1 + uu) ^ (k + 3) := pow_le_pow_right₀ (by linarith) (by omega)
      calc rnd (s + w) ≤ (1 + uu) * (s + w) := z2
        _ ≤ (1 + uu) * ((1 + uu) ^ (k + 3) * t + (1 + uu) ^ 3 * x ^ 2) := mul_le_mul_of_nonneg_left (by linarith) (by linarith)
        _ ≤ (1 + uu) * ((1 + uu) ^ (k + 3) * t + (1 + uu) ^ (k + 3) * x ^ 2) := by
            refine mul_le_mul_of_nonneg_left ?_ (by linarith)
            have := mul_le_mul_of_nonneg_right hp hx2
            linarith
        _ = _ := by ring
    obtain ⟨q, q1, q2, q3, q4, q5, q6⟩ := ih (k + 1) (rnd (s + w)) (t + x ^ 2) (fun v' h' => hv v' (by simp [h']))
      (by simp only [List.length_cons] at hn; omega) (by linarith) z3 z4 hrs lo hi
    have hsq : t + squares m (v :: ws) = t + x ^ 2 + squares m ws := by
      simp only [squares, List.map_cons, List.sum_cons, hx]; ring
    have hk : k + (v :: ws).length = k + 1 + ws.length := by simp only [List.length_cons]; omega
    refine ⟨q, ?_, q2, q3, ?_, ?_, ?_⟩
    · rw [List.foldl_cons]
      simp only [e1, e2, e3]
      exact q1
    · rw [hk]; exact q4
    · rw [hk, hsq]; exact q5
    · rw [hk, hsq]; exact q6

/-- The float64 variance against the exact one. -/
theorem variance_rnd (vs : List Int64) (h : vs ≠ []) (hlen : (vs.length : Int) ≤ 2 ^ 53) (hs : SumFits vs) (hv : ∀ v ∈ vs, |v.toInt| ≤ 2 ^ 53) :
    ∃ s : ℚ, (sampleVariance vs : F64) = .fin s ∧ 0 ≤ s ∧ (s = 0 ∨ (2 : ℚ) ^ (-263 : ℤ) ≤ s) ∧ s ≤ 2 ^ 185
      ∧ (1 - uu) ^ (vs.length + 4) * trueVariance vs ≤ s
      ∧ s ≤ (1 + uu) ^ (vs.length + 4) * (trueVariance vs + ((2 * uu + uu ^ 2) * trueMean vs) ^ 2) := by
  have h0 : vs.length ≠ 0 := fun h0 => h (List.length_eq_zero_iff.1 h0)
  have hn : (0 : ℚ) < vs.length := by exact_mod_cast List.length_pos_iff.2 h
  have hn1 : (1 : ℚ) ≤ vs.length := by exact_mod_cast List.length_pos_iff.2 h
  have hn53 : (vs.length : ℚ) ≤ 2 ^ 53 := by exact_mod_cast hlen
  have hu := uu_pos
  have hu1 := uu_lt_one
  have hmean := mean_rnd vs h hlen hs
  have hap := mean_quot_apart vs h hlen
  have hmul := rnd_multiple hap
  have herr := mean_err vs h hlen
  have hm64 : |rnd (rnd ((total vs : ℤ) : ℚ) / vs.length)| ≤ 2 ^ 64 := by
    refine abs_rnd_le ?_
    have hst : |rnd ((total vs : ℤ) : ℚ)| ≤ 2 ^ 64 := F64.abs_rnd_i64 _ (by have := hs.1; have := hs.2; rw [abs_le]; omega)
    rw [abs_div, abs_of_pos hn, div_le_iff₀ hn]
    nlinarith
  set m := rnd (rnd ((total vs : ℤ) : ℚ) / vs.length)
  obtain ⟨q, q1, q2, q3, q4, q5, q6⟩ := squares_rnd m (by norm_num at hmul ⊢; exact hmul) hm64 vs 0 0 0 hv (by simpa using hlen)
    le_rfl (.inl rfl) le_rfl (by norm_num) (by norm_num) (by norm_num)
  simp only [zero_add] at q4 q5 q6
  have hqn : q / vs.length = 0 ∨ (2 : ℚ) ^ (-263 : ℤ) ≤ q / vs.length := by
    rcases q3 with h | h
    · left; rw [h]; simp
    · right
      rw [le_div_iff₀ hn]
      calc (2 : ℚ) ^ (-263 : ℤ) * vs.length ≤ 2 ^ (-263 : ℤ) * 2 ^ 53 := by gcongr
        _ = 2 ^ (-210 : ℤ) := by rw [← zpow_natCast, ← zpow_add₀ (by norm_num)]; norm_num
        _ ≤ q := h
  have hq0 : 0 ≤ q / vs.length := div_nonneg q2 hn.le
  obtain ⟨r1, r2, r3, r4⟩ := rnd_uu (e := -263) (by norm_num) hq0 hqn
  have hb : |q / vs.length| ≤ 2 ^ 185 := by
    rw [abs_of_nonneg hq0, div_le_iff₀ hn]
    calc q ≤ vs.length * 2 ^ 132 := q4
      _ ≤ 2 ^ 53 * 2 ^ 132 := by gcongr
      _ = 2 ^ 185 * 1 := by norm_num
      _ ≤ _ := by gcongr
  have hshift := squares_shift vs h m
  have hsq : (m - trueMean vs) ^ 2 ≤ ((2 * uu + uu ^ 2) * trueMean vs) ^ 2 := by
    refine sq_le_sq.2 ?_
    rw [abs_mul (2 * uu + uu ^ 2), abs_of_nonneg (by positivity : (0 : ℚ) ≤ 2 * uu + uu ^ 2)]
    exact herr
  refine ⟨rnd (q / vs.length), ?_, r4, r3, (abs_le.1 (abs_rnd_le hb)).2, ?_, ?_⟩
  · unfold sampleVariance
    rw [if_neg h0]
    have hz : (GoFloat.lit 0 : F64) = .fin 0 := F64.representable_zero
    simp only [hmean, hz, q1]
    show F64.div (.fin q) (F64.ofInt _) = _
    rw [F64.ofInt_small _ (by rw [abs_of_nonneg (by omega)]; exact hlen), F64.div_fin _ (by push_cast; linarith)]
    have := round_of_abs_le (n := 185) (by norm_num) hb
    exact_mod_cast this
  · calc (1 - uu) ^ (vs.length + 4) * trueVariance vs
        ≤ (1 - uu) ^ (vs.length + 4) * (squares m vs / vs.length) := by
          refine mul_le_mul_of_nonneg_left ?_ (pow_nonneg (by linarith) _)
          rw [hshift]; linarith [sq_nonneg (m - trueMean vs)]
      _ = (1 - uu) * ((1 - uu) ^ (vs.length + 3) * squares m vs / vs.length) := by ring
      _ ≤ (1 - uu) * (q / vs.length) := by
          refine mul_le_mul_of_nonneg_left ?_ (by linarith)
          gcongr
      _ ≤ _ := r1
  · calc rnd (q / vs.length) ≤ (1 + uu) * (q / vs.length) := r2
      _ ≤ (1 + uu) * ((1 + uu) ^ (vs.length + 3) * squares m vs / vs.length) := by
          refine mul_le_mul_of_nonneg_left ?_ (by linarith)
          gcongr
      _ = (1 + uu) ^ (vs.length + 4) * (squares m vs / vs.length) := by ring
      _ ≤ _ := by
          refine mul_le_mul_of_nonneg_left ?_ (pow_nonneg (by linarith) _)
          rw [hshift]; linarith

end GoMetrics
