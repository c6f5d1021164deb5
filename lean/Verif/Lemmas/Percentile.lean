import Verif.Lemmas.Stats
import Verif.Lemmas.F64More
import Verif.Lemmas.Exact

/-! Lemmas about percentiles. -/

set_option linter.unusedSimpArgs false

namespace GoMetrics

section generic
open GoFloat
variable {F : Type} [GoFloat F]

theorem samplePercentile_nonempty (values : List Int64) (p : F) (h : 0 < values.length) :
    samplePercentile values p = (percentileSorted (sortInts values) p).map (fun s => (s, sortInts values)) := by
  unfold samplePercentile samplePercentiles
  rw [if_pos h]
  cases hp : percentileSorted (sortInts values) p with
  | error e => simp [hp, bind, Except.bind, Except.map]
  | ok v => simp [hp, bind, Except.bind, Except.map, pure, Except.pure, index]

theorem samplePercentile_empty (p : F) : samplePercentile [] p = .ok (lit 0, []) := by
  simp [samplePercentile, samplePercentiles, bind, Except.bind, pure, Except.pure, index]

theorem mapM_except_map {α β γ ε : Type} (f : α → Except ε β) (g : β → γ) (l : List α) :
    l.mapM (fun a => (f a).map g) = (l.mapM f).map (List.map g) := by
  induction l with
  | nil => rfl
  | cons a l ih =>
    rw [List.mapM_cons, List.mapM_cons, ih]
    cases f a with
    | error e => rfl
    | ok b =>
      cases h : l.mapM f with
      | error e => simp [Except.map, bind, Except.bind, h]
      | ok bs => simp [Except.map, bind, Except.bind, h, pure, Except.pure]

theorem samplePercentiles_perm {a b : List Int64} (h : a.Perm b) (ps : List F) :
    (samplePercentiles a ps).map Prod.fst = (samplePercentiles b ps).map Prod.fst := by
  unfold samplePercentiles
  rw [h.length_eq, sortInts_eq_of_perm h]
  split_ifs with h0
  · rfl
  · rfl

end generic

section exact
variable {K : Type} [Field K] [LinearOrder K] [IsStrictOrderedRing K] [FloorRing K]

theorem percentileSorted_exact_lo (xs : List Int64) (p : K) (h0 : 0 < xs.length) (h : p * (xs.length + 1) < 1) :
    percentileSorted xs p = .ok ((xs[0].toInt : ℤ) : K) := by
  obtain ⟨h1, h2⟩ := index_ok (a := xs) (i := 0) (le_refl _) (by omega)
  simp only [percentileSorted, exact_lit, exact_ofInt, exact_add, exact_sub, exact_mul, exact_lt, exact_le, exact_floor, exact_toInt, Rat.cast_one, Int.cast_add, Int.cast_natCast, Int.cast_one, h, decide_true, if_true, h2]
  rfl

theorem percentileSorted_exact_hi (xs : List Int64) (p : K) (h0 : 0 < xs.length) (h : (xs.length : K) ≤ p * (xs.length + 1)) :
    percentileSorted xs p = .ok ((xs[xs.length - 1].toInt : ℤ) : K) := by
  obtain ⟨h1, h2⟩ := index_ok (a := xs) (i := xs.length - 1) (by omega) (by omega)
  have hn : (1 : K) ≤ xs.length := by exact_mod_cast h0
  have hlt : ¬ p * ((xs.length : K) + 1) < 1 := by linarith
  have : ((xs.length : Int) - 1).toNat = xs.length - 1 := by omega
  simp only [percentileSorted, exact_lit, exact_ofInt, exact_add, exact_sub, exact_mul, exact_lt, exact_le, exact_floor, exact_toInt, Rat.cast_one, Int.cast_add, Int.cast_natCast, Int.cast_one, hlt, h, decide_true, if_true, h2,
    decide_false, Bool.false_eq_true, if_false, this]
  rfl

theorem percentileSorted_exact_mid (xs : List Int64) (p : K) (k : Nat) (h1 : 1 ≤ k) (hkn : k < xs.length)
    (hk1 : (k : K) ≤ p * (xs.length + 1)) (hk2 : p * (xs.length + 1) < k + 1) :
    percentileSorted xs p = .ok (((xs[k - 1].toInt : ℤ) : K) +
      (p * (xs.length + 1) - k) * (((xs[k].toInt : ℤ) : K) - ((xs[k - 1].toInt : ℤ) : K))) := by
  have hk : (1 : K) ≤ k := by exact_mod_cast h1
  have hn : (k : K) + 1 ≤ xs.length := by exact_mod_cast hkn
  have hlt : ¬ p * ((xs.length : K) + 1) < 1 := by linarith
  have hle : ¬ (xs.length : K) ≤ p * ((xs.length : K) + 1) := by linarith
  have hnn : 0 ≤ p * ((xs.length : K) + 1) := by linarith
  have hfl : ⌊p * ((xs.length : K) + 1)⌋ = k := by
    rw [Int.floor_eq_iff]; push_cast; exact ⟨hk1, hk2⟩
  obtain ⟨i1, e1⟩ := index_ok (a := xs) (i := (k : Int) - 1) (by omega) (by omega)
  obtain ⟨i2, e2⟩ := index_ok (a := xs) (i := (k : Int)) (by omega) (by omega)
  have t1 : ((k : Int) - 1).toNat = k - 1 := by omega
  have t2 : (k : Int).toNat = k := by omega
  simp only [percentileSorted, exact_lit, exact_ofInt, exact_add, exact_sub, exact_mul, exact_lt, exact_le, exact_floor, exact_toInt, Rat.cast_one, Int.cast_add, Int.cast_natCast, Int.cast_one, hlt, hle, hnn, hfl,
    decide_true, if_true, e1, e2, decide_false, Bool.false_eq_true, if_false, t1, t2]
  rfl

/-- Every p falls in one of the three cases. -/
theorem rank_cases (n : Nat) (h0 : 0 < n) (r : K) : r < 1 ∨ (n : K) ≤ r ∨ ∃ k : Nat, 1 ≤ k ∧ k < n ∧ (k : K) ≤ r ∧ r < k + 1 := by
  by_cases h1 : r < 1
  · exact .inl h1
  by_cases h2 : (n : K) ≤ r
  · exact .inr (.inl h2)
  refine .inr (.inr ⟨⌊r⌋.toNat, ?_, ?_, ?_, ?_⟩)
  all_goals
    have hf1 : 1 ≤ ⌊r⌋ := Int.le_floor.2 (by push_cast; linarith)
    have hf2 : ⌊r⌋ < n := Int.floor_lt.2 (by push_cast; linarith)
    have hc : ((⌊r⌋.toNat : ℕ) : K) = (⌊r⌋ : K) := by
      rw [← Int.cast_natCast, Int.toNat_of_nonneg (by omega)]
  · omega
  · omega
  · rw [hc]; exact Int.floor_le r
  · rw [hc]; exact Int.lt_floor_add_one r

/-- Bounds of one score on a sorted slice, exact. -/
theorem score_exact (xs : List Int64) (hs : xs.Pairwise (· ≤ ·)) (p : K) (hn0 : 0 < xs.length) :
    ∃ s, percentileSorted xs p = .ok s ∧ ((xs[0].toInt : ℤ) : K) ≤ s ∧ s ≤ ((xs[xs.length - 1].toInt : ℤ) : K) ∧
      (p ≤ 0 → s = ((xs[0].toInt : ℤ) : K)) ∧ (1 ≤ p → s = ((xs[xs.length - 1].toInt : ℤ) : K)) := by
  have hnK : (1 : K) ≤ (xs.length : K) := by exact_mod_cast hn0
  have getle : ∀ (i j : Nat) (hij : i ≤ j) (hj : j < xs.length), ((xs[i].toInt : ℤ) : K) ≤ ((xs[j].toInt : ℤ) : K) := by
    intro i j hij hj
    exact_mod_cast sorted_get hs hij hj
  rcases rank_cases xs.length hn0 (p * (xs.length + 1)) with h1 | h1 | ⟨k, h1, h2, h3, h4⟩
  · refine ⟨_, percentileSorted_exact_lo xs p hn0 h1, le_refl _, getle 0 _ (by omega) (by omega), fun _ => rfl, fun h => ?_⟩
    nlinarith
  · refine ⟨_, percentileSorted_exact_hi xs p hn0 h1, getle 0 _ (by omega) (by omega), le_refl _, fun h => ?_, fun _ => rfl⟩
    nlinarith
  · have hk : (1 : K) ≤ k := by exact_mod_cast h1
    have hkn : (k : K) + 1 ≤ xs.length := by exact_mod_cast h2
    have g := getle (k - 1) k (by omega) h2
    have g0 := getle 0 (k - 1) (by omega) (by omega)
    have gn := getle k (xs.length - 1) (by omega) (by omega)
    refine ⟨_, percentileSorted_exact_mid xs p k h1 h2 h3 h4, ?_, ?_, fun h => ?_, fun h => ?_⟩
    · nlinarith
    · nlinarith
    · nlinarith
    · nlinarith

/-- Scores on a sorted slice are monotone in the request, exact. -/
theorem score_exact_mono (xs : List Int64) (hs : xs.Pairwise (· ≤ ·)) (p q : K) (hpq : p ≤ q) (hn0 : 0 < xs.length) (s t : K)
    (hp : percentileSorted xs p = .ok s) (hq : percentileSorted xs q = .ok t) : s ≤ t := by
  have hnK : (1 : K) ≤ (xs.length : K) := by exact_mod_cast hn0
  have hr : p * (xs.length + 1) ≤ q * ((xs.length : K) + 1) := by nlinarith
  have getle : ∀ (i j : Nat) (hij : i ≤ j) (hj : j < xs.length), ((xs[i].toInt : ℤ) : K) ≤ ((xs[j].toInt : ℤ) : K) := by
    intro i j hij hj
    exact_mod_cast sorted_get hs hij hj
  obtain ⟨s', hs', hsb1, hsb2, -⟩ := score_exact xs hs p hn0
  obtain ⟨t', ht', htb1, htb2, -⟩ := score_exact xs hs q hn0
  rw [hp] at hs'; cases hs'
  rw [hq] at ht'; cases ht'
  rcases rank_cases xs.length hn0 (p * (xs.length + 1)) with h1 | h1 | ⟨k, h1, h2, h3, h4⟩
  · rw [percentileSorted_exact_lo xs p hn0 h1] at hp; cases hp; exact htb1
  · rw [percentileSorted_exact_hi xs q hn0 (by linarith)] at hq; cases hq; exact hsb2
  · rcases rank_cases xs.length hn0 (q * (xs.length + 1)) with g1 | g1 | ⟨j, g1, g2, g3, g4⟩
    · have hk : (1 : K) ≤ k := by exact_mod_cast h1
      linarith
    · rw [percentileSorted_exact_hi xs q hn0 g1] at hq; cases hq; exact hsb2
    · rw [percentileSorted_exact_mid xs p k h1 h2 h3 h4] at hp; cases hp
      rw [percentileSorted_exact_mid xs q j g1 g2 g3 g4] at hq; cases hq
      have hkj : k ≤ j := by
        have : (k : K) < j + 1 := by linarith
        have : k < j + 1 := by exact_mod_cast this
        omega
      have gk := getle (k - 1) k (by omega) h2
      have gj := getle (j - 1) j (by omega) g2
      rcases Nat.lt_or_eq_of_le hkj with hlt | rfl
      · have gkj := getle k (j - 1) (by omega) (by omega)
        have a : ((xs[k - 1].toInt : ℤ) : K) + (p * (xs.length + 1) - k) * (((xs[k].toInt : ℤ) : K) - ((xs[k - 1].toInt : ℤ) : K)) ≤ ((xs[k].toInt : ℤ) : K) := by
          nlinarith
        have b : ((xs[j - 1].toInt : ℤ) : K) ≤ ((xs[j - 1].toInt : ℤ) : K) + (q * (xs.length + 1) - j) * (((xs[j].toInt : ℤ) : K) - ((xs[j - 1].toInt : ℤ) : K)) := by
          nlinarith
        linarith
      · nlinarith

end exact

section ieee
open F64

/-- The interpolated score as computed in binary64. -/
def interp (l u q : ℚ) (k : ℤ) : ℚ := rnd (l + rnd (rnd (q - k) * rnd (u - l)))

theorem interp_bounds {x y : ℤ} {q : ℚ} {k : ℤ} (hxy : x ≤ y) (hr : rnd q = q) (h1 : 1 ≤ q) (hk1 : (k : ℚ) ≤ q) (hk2 : q < k + 1) :
    rnd (x : ℚ) ≤ interp (rnd (x : ℚ)) (rnd (y : ℚ)) q k ∧ interp (rnd (x : ℚ)) (rnd (y : ℚ)) q k ≤ rnd (y : ℚ) := by
  set l := rnd (x : ℚ)
  set u := rnd (y : ℚ)
  have hlu : l ≤ u := rnd_mono (by exact_mod_cast hxy)
  have hd0 : 0 ≤ rnd (u - l) := rnd_nonneg (by linarith)
  have hf0 : 0 ≤ rnd (q - k) := rnd_nonneg (by linarith)
  have hll : rnd l = l := rnd_rnd _
  have huu : rnd u = u := rnd_rnd _
  constructor
  · unfold interp
    have h2 : 0 ≤ rnd (rnd (q - k) * rnd (u - l)) := rnd_nonneg (mul_nonneg hf0 hd0)
    have h3 : rnd l ≤ rnd (l + rnd (rnd (q - k) * rnd (u - l))) := rnd_mono (by linarith)
    rwa [hll] at h3
  · suffices h : rnd (rnd (q - k) * rnd (u - l)) ≤ u - l by
      unfold interp
      have h3 : rnd (l + rnd (rnd (q - k) * rnd (u - l))) ≤ rnd u := rnd_mono (by linarith)
      rwa [huu] at h3
    obtain ⟨a, ha⟩ := rnd_isInt (K := ℚ) x
    obtain ⟨b, hb⟩ := rnd_isInt (K := ℚ) y
    change l = a at ha
    change u = b at hb
    rcases eq_or_lt_of_le hlu with he | hlt
    · rw [he, sub_self, rnd_zero, mul_zero, rnd_zero]
    have hge : 1 ≤ u - l := by
      rw [ha, hb] at hlt ⊢
      have : a < b := by exact_mod_cast hlt
      have : a + 1 ≤ b := by omega
      have : (a : ℚ) + 1 ≤ b := by exact_mod_cast this
      linarith
    obtain ⟨m, hm⟩ := rep_ge_one_multiple hr h1
    have hp : (0 : ℚ) < 2 ^ (-52 : ℤ) := two_zpow_pos _
    have hkk : (k : ℚ) = ((k * 2 ^ 52 : ℤ) : ℚ) * 2 ^ (-52 : ℤ) := by
      push_cast; rw [mul_assoc, zpow_neg]; norm_num
    have hone : (1 : ℚ) = ((2 ^ 52 : ℤ) : ℚ) * 2 ^ (-52 : ℤ) := by push_cast; rw [zpow_neg]; norm_num
    have hmlt : m - k * 2 ^ 52 ≤ 2 ^ 52 - 1 := by
      have : ((m : ℤ) : ℚ) * 2 ^ (-52 : ℤ) < ((k * 2 ^ 52 + 2 ^ 52 : ℤ) : ℚ) * 2 ^ (-52 : ℤ) := by
        rw [← hm, Int.cast_add, add_mul, ← hkk, ← hone]; exact hk2
      have := lt_of_mul_lt_mul_right this hp.le
      have : m < k * 2 ^ 52 + 2 ^ 52 := by exact_mod_cast this
      omega
    have hqk : q - k = ((m - k * 2 ^ 52 : ℤ) : ℚ) * 2 ^ (-52 : ℤ) := by
      rw [Int.cast_sub, sub_mul, ← hkk, ← hm]
    -- bound on the fraction
    have hfu : rnd (q - k) ≤ ((2 ^ 52 - 1 : ℤ) : ℚ) * 2 ^ (-52 : ℤ) := by
      have e := rnd_dyadic (K := ℚ) (2 ^ 52 - 1) (-52) (by norm_num) (by norm_num)
      rw [← e]
      apply rnd_mono
      rw [hqk]
      exact mul_le_mul_of_nonneg_right (by exact_mod_cast hmlt) hp.le
    rcases eq_or_lt_of_le (show (0 : ℚ) ≤ q - k by linarith) with hz | hpos
    · rw [← hz, rnd_zero, zero_mul, rnd_zero]; linarith
    have hfl : (2 : ℚ) ^ (-52 : ℤ) ≤ rnd (q - k) := by
      have e := rnd_dyadic (K := ℚ) 1 (-52) (by norm_num) (by norm_num)
      simp only [Int.cast_one, one_mul] at e
      rw [← e]
      apply rnd_mono
      rw [hqk] at hpos ⊢
      have : (0 : ℚ) < ((m - k * 2 ^ 52 : ℤ) : ℚ) := pos_of_mul_pos_left hpos hp.le
      have : 1 ≤ m - k * 2 ^ 52 := by
        have : (0 : ℤ) < m - k * 2 ^ 52 := by exact_mod_cast this
        omega
      have : (1 : ℚ) ≤ ((m - k * 2 ^ 52 : ℤ) : ℚ) := by exact_mod_cast this
      nlinarith
    -- bound on the difference
    have hd := rnd_rel_err (u - l) (by
      rw [abs_of_pos (by linarith)]
      refine le_trans ?_ hge
      rw [zpow_neg]; exact inv_le_one_of_one_le₀ (one_le_zpow₀ (by norm_num) (by norm_num)))
    rw [abs_of_pos (by linarith : 0 < u - l), abs_le] at hd
    have hd1 : 1 ≤ rnd (u - l) := by
      have := rnd_mono hge
      rwa [rnd_one] at this
    have hprod : (2 : ℚ) ^ (-52 : ℤ) ≤ rnd (q - k) * rnd (u - l) := by
      calc (2 : ℚ) ^ (-52 : ℤ) = 2 ^ (-52 : ℤ) * 1 := by ring
        _ ≤ _ := mul_le_mul hfl hd1 (by norm_num) hf0
    have hpr := rnd_rel_err (rnd (q - k) * rnd (u - l)) (by
      rw [abs_of_pos (lt_of_lt_of_le hp hprod)]
      refine le_trans ?_ hprod
      exact zpow_le_zpow_right₀ (by norm_num) (by norm_num))
    rw [abs_of_pos (lt_of_lt_of_le hp hprod), abs_le] at hpr
    simp only [Rat.cast_id] at hd hpr
    have he52 : (2 : ℚ) ^ (-52 : ℤ) = 1 / 4503599627370496 := by rw [zpow_neg]; norm_num
    have he53 : (2 : ℚ) ^ (-53 : ℤ) = 1 / 9007199254740992 := by rw [zpow_neg]; norm_num
    rw [he53] at hd hpr
    rw [he52] at hfu
    push_cast at hfu
    have hd2 : rnd (u - l) ≤ (u - l) * (1 + 1 / 9007199254740992) := by linarith [hd.2]
    have hp2 : rnd (q - k) * rnd (u - l) ≤ (4503599627370495 * (1 / 4503599627370496)) * ((u - l) * (1 + 1 / 9007199254740992)) :=
      mul_le_mul hfu hd2 hd0 (by norm_num)
    have hp3 : rnd (rnd (q - k) * rnd (u - l)) ≤ rnd (q - k) * rnd (u - l) * (1 + 1 / 9007199254740992) := by linarith [hpr.2]
    have hp4 : rnd (q - k) * rnd (u - l) * (1 + 1 / 9007199254740992) ≤
        (4503599627370495 * (1 / 4503599627370496)) * ((u - l) * (1 + 1 / 9007199254740992)) * (1 + 1 / 9007199254740992) :=
      mul_le_mul_of_nonneg_right hp2 (by norm_num)
    have hp5 : ((4503599627370495 : ℚ) * (1 / 4503599627370496)) * ((u - l) * (1 + 1 / 9007199254740992)) * (1 + 1 / 9007199254740992)
        ≤ u - l := by
      have : ((4503599627370495 : ℚ) * (1 / 4503599627370496)) * (1 + 1 / 9007199254740992) * (1 + 1 / 9007199254740992) ≤ 1 := by norm_num
      nlinarith
    linarith

theorem interp_mono {x y : ℤ} {q q' : ℚ} {k : ℤ} (hxy : x ≤ y) (h : q ≤ q') :
    interp (rnd (x : ℚ)) (rnd (y : ℚ)) q k ≤ interp (rnd (x : ℚ)) (rnd (y : ℚ)) q' k := by
  have hlu : rnd (x : ℚ) ≤ rnd (y : ℚ) := rnd_mono (by exact_mod_cast hxy)
  have hd0 : 0 ≤ rnd (rnd (y : ℚ) - rnd (x : ℚ)) := rnd_nonneg (by linarith)
  unfold interp
  apply rnd_mono
  have h1 : rnd (q - k) ≤ rnd (q' - k) := rnd_mono (by linarith)
  have := rnd_mono (mul_le_mul_of_nonneg_right h1 hd0)
  linarith

theorem ofInt_len (n : Nat) (h : (n : Int) ≤ maxInt64) : GoFloat.ofInt (F := F64) (n : Int) = fin (rnd (n : ℚ)) := by
  show F64.ofInt (n : Int) = _
  rw [ofInt_i64 _ (by rw [abs_of_nonneg (by omega)]; unfold maxInt64 at h; omega)]
  push_cast; rfl

theorem ofInt_len1 (n : Nat) (h : (n : Int) ≤ maxInt64) :
    GoFloat.ofInt (F := F64) ((n : Int) + 1) = fin (rnd ((n : ℚ) + 1)) ∧ 1 ≤ rnd ((n : ℚ) + 1) := by
  constructor
  · show F64.ofInt ((n : Int) + 1) = _
    rw [ofInt_i64 _ (by rw [abs_of_nonneg (by omega)]; unfold maxInt64 at h; omega)]
    push_cast; rfl
  · have : rnd (1 : ℚ) ≤ rnd ((n : ℚ) + 1) := rnd_mono (le_add_of_nonneg_left (by positivity))
    rwa [rnd_one] at this

theorem ofInt_i64' (v : Int64) : GoFloat.ofInt (F := F64) v.toInt = fin (rnd ((v.toInt : ℤ) : ℚ)) := by
  show F64.ofInt v.toInt = _
  apply ofInt_i64
  have := i64_range v
  rw [abs_le]; omega

theorem lit_one : GoFloat.lit (F := F64) 1 = fin 1 := by
  show F64.round (1 : ℚ) = fin 1
  have := round_int (K := ℚ) 1 (by norm_num)
  simpa using this

theorem lit_zero : GoFloat.lit (F := F64) 0 = fin 0 := by
  show F64.round (0 : ℚ) = fin 0
  have := round_int (K := ℚ) 0 (by norm_num)
  simpa using this

/-- Classification of the result of a percentile request in binary64. -/
theorem percentileSorted_f64 (xs : List Int64) (p : F64) (hp : p ≠ nan) (h0 : 0 < xs.length) (hlen : (xs.length : Int) ≤ maxInt64) :
    let pos := F64.mul p (fin (rnd ((xs.length : ℚ) + 1)))
    (lt pos (fin 1) = true ∧ percentileSorted xs p = .ok (fin (rnd ((xs[0].toInt : ℤ) : ℚ)))) ∨
    (le (fin (rnd (xs.length : ℚ))) pos = true ∧ percentileSorted xs p = .ok (fin (rnd ((xs[xs.length - 1].toInt : ℤ) : ℚ)))) ∨
    (∃ (q : ℚ) (k : Nat) (_ : 1 ≤ k) (hk : k < xs.length), pos = fin q ∧ rnd q = q ∧ q < rnd (xs.length : ℚ) ∧ (k : ℚ) ≤ q ∧ q < k + 1 ∧
      percentileSorted xs p = .ok (fin (interp (rnd ((xs[k - 1].toInt : ℤ) : ℚ)) (rnd ((xs[k].toInt : ℤ) : ℚ)) q k))) := by
  intro pos
  obtain ⟨e1, hge1⟩ := ofInt_len1 xs.length hlen
  have e2 := ofInt_len xs.length hlen
  have hposdef : GoFloat.mul p (GoFloat.ofInt ((xs.length : Int) + 1)) = pos := by rw [e1]; rfl
  by_cases hA : lt pos (fin 1) = true
  · left
    refine ⟨hA, ?_⟩
    obtain ⟨_, hi⟩ := index_ok (a := xs) (i := 0) (le_refl _) (by omega)
    unfold percentileSorted
    simp only [hposdef, lit_one]
    rw [if_pos (show GoFloat.lt pos (fin 1) = true from hA), hi]
    simp only [bind, Except.bind, pure, Except.pure, ofInt_i64']
    rfl
  by_cases hB : le (fin (rnd (xs.length : ℚ))) pos = true
  · right; left
    refine ⟨hB, ?_⟩
    obtain ⟨_, hi⟩ := index_ok (a := xs) (i := xs.length - 1) (by omega) (by omega)
    unfold percentileSorted
    simp only [hposdef, lit_one, e2]
    rw [if_neg (show ¬ GoFloat.lt pos (fin 1) = true from hA), if_pos (show GoFloat.le (fin (rnd (xs.length : ℚ))) pos = true from hB), hi]
    have t1 : ((xs.length : Int) - 1).toNat = xs.length - 1 := by omega
    simp only [bind, Except.bind, pure, Except.pure, ofInt_i64', t1]
  · right; right
    have hpn : pos ≠ nan := mul_ne_nan (by linarith) hp
    have hwf : WF pos := mul_wf _ _
    obtain ⟨q, hq⟩ : ∃ q, pos = fin q := by
      rcases hx : pos with _ | (_ | _) | q
      · exact absurd hx hpn
      · rw [hx] at hB; simp [le] at hB
      · rw [hx] at hA; simp [lt] at hA
      · exact ⟨q, rfl⟩
    rw [hq] at hA hB hwf
    have hrep := (representable_iff q).1 hwf
    have h1 : 1 ≤ q := by rw [lt_fin] at hA; linarith
    have hn : q < rnd (xs.length : ℚ) := by rw [le_fin] at hB; linarith
    have hqn : q < xs.length := by
      by_contra hc
      have := rnd_mono (not_lt.1 hc)
      rw [hrep.1] at this
      linarith
    have hf1 : 1 ≤ ⌊q⌋ := Int.le_floor.2 (by push_cast; linarith)
    have hf2 : ⌊q⌋ < xs.length := Int.floor_lt.2 (by push_cast; linarith)
    obtain ⟨k, hk⟩ : ∃ k : Nat, ⌊q⌋ = k := ⟨⌊q⌋.toNat, by omega⟩
    have hk1 : (k : ℚ) ≤ q := by
      have := Int.floor_le q; rw [hk] at this; exact_mod_cast this
    have hk2 : q < k + 1 := by
      have := Int.lt_floor_add_one q; rw [hk] at this; exact_mod_cast this
    refine ⟨q, k, by omega, by omega, hq, hrep.1, hn, hk1, hk2, ?_⟩
    have hti : GoFloat.toInt (fin q) = (k : Int) := by
      show F64.toInt (fin q) = _
      unfold F64.toInt
      simp only [if_pos (show (0 : ℚ) ≤ q by linarith), hk]
      rw [if_pos]
      unfold minInt64 maxInt64 at *
      constructor <;> omega
    have hfl : GoFloat.floor (fin q) = fin ((k : ℤ) : ℚ) := by
      show fin ((⌊q⌋ : ℤ) : ℚ) = _
      rw [hk]
    obtain ⟨i1, e3⟩ := index_ok (a := xs) (i := (k : Int) - 1) (by omega) (by omega)
    obtain ⟨i2, e4⟩ := index_ok (a := xs) (i := (k : Int)) (by omega) (by omega)
    have t1 : ((k : Int) - 1).toNat = k - 1 := by omega
    have t2 : (k : Int).toNat = k := by omega
    unfold percentileSorted
    simp only [hposdef, lit_one, e2, hq]
    rw [if_neg (show ¬ GoFloat.lt (fin q) (fin 1) = true from hA), if_neg (show ¬ GoFloat.le (fin (rnd (xs.length : ℚ))) (fin q) = true from hB)]
    simp only [hti, hfl, e3, e4, bind, Except.bind, pure, Except.pure, ofInt_i64', t1, t2]
    congr 1
    have r1 := i64_range xs[k - 1]
    have r2 := i64_range xs[k]
    set l := rnd ((xs[k - 1].toInt : ℤ) : ℚ) with hl
    set u := rnd ((xs[k].toInt : ℤ) : ℚ) with hu
    have hl64 : |l| ≤ 2 ^ 64 := abs_rnd_i64 _ (by rw [abs_le]; omega)
    have hu64 : |u| ≤ 2 ^ 64 := abs_rnd_i64 _ (by rw [abs_le]; omega)
    show F64.add (fin l) (F64.mul (F64.sub (fin q) (fin ((k : ℤ) : ℚ))) (F64.sub (fin u) (fin l))) = _
    have s1 : F64.sub (fin q) (fin ((k : ℤ) : ℚ)) = fin (rnd (q - (k : ℤ))) := by
      show F64.round (q + -((k : ℤ) : ℚ)) = _
      rw [← sub_eq_add_neg]
      refine round_of_abs_le (n := 0) (by norm_num) ?_
      rw [abs_le]; constructor <;> push_cast <;> linarith
    have s2 : F64.sub (fin u) (fin l) = fin (rnd (u - l)) := by
      show F64.round (u + -l) = _
      rw [← sub_eq_add_neg]
      refine round_of_abs_le (n := 65) (by norm_num) ?_
      refine (abs_sub _ _).trans ?_
      linarith
    have a1 : |rnd (q - (k : ℤ))| ≤ 2 ^ 0 := by
      apply abs_rnd_le
      rw [abs_le]; constructor <;> push_cast <;> linarith
    have a2 : |rnd (u - l)| ≤ 2 ^ 65 := by
      apply abs_rnd_le
      refine (abs_sub _ _).trans ?_
      linarith
    have a3 : |rnd (q - (k : ℤ)) * rnd (u - l)| ≤ 2 ^ 65 := by
      rw [abs_mul]
      calc _ ≤ (2 : ℚ) ^ 0 * 2 ^ 65 := mul_le_mul a1 a2 (abs_nonneg _) (by norm_num)
        _ = _ := by norm_num
    have s3 : F64.mul (fin (rnd (q - (k : ℤ)))) (fin (rnd (u - l))) = fin (rnd (rnd (q - (k : ℤ)) * rnd (u - l))) :=
      round_of_abs_le (n := 65) (by norm_num) a3
    rw [s1, s2, s3]
    refine round_of_abs_le (n := 66) (by norm_num) ?_
    have := abs_rnd_le a3
    refine (abs_add_le _ _).trans ?_
    linarith

/-- Bounds of one score on a sorted slice, in binary64. -/
theorem score_f64 (xs : List Int64) (hs : xs.Pairwise (· ≤ ·)) (p : F64) (hp : p ≠ nan) (h0 : 0 < xs.length)
    (hlen : (xs.length : Int) ≤ maxInt64) :
    ∃ s, percentileSorted xs p = .ok (fin s) ∧ rnd ((xs[0].toInt : ℤ) : ℚ) ≤ s ∧ s ≤ rnd ((xs[xs.length - 1].toInt : ℤ) : ℚ) ∧
      (F64.le p (fin 0) = true → s = rnd ((xs[0].toInt : ℤ) : ℚ)) ∧
      (F64.le (fin 1) p = true → s = rnd ((xs[xs.length - 1].toInt : ℤ) : ℚ)) := by
  obtain ⟨e1, hc1⟩ := ofInt_len1 xs.length hlen
  set c := rnd ((xs.length : ℚ) + 1) with hc
  have hc0 : 0 < c := by linarith
  have hcn : rnd (xs.length : ℚ) ≤ c := rnd_mono (by linarith)
  have getle : ∀ (i j : Nat) (hij : i ≤ j) (hj : j < xs.length), rnd ((xs[i].toInt : ℤ) : ℚ) ≤ rnd ((xs[j].toInt : ℤ) : ℚ) := by
    intro i j hij hj
    apply rnd_mono
    exact_mod_cast sorted_get hs hij hj
  have hge : F64.le (fin 1) p = true → F64.le (fin c) (mul p (fin c)) = true := by
    intro h
    have := mul_right_mono hc0 h
    have h1c : mul (fin 1) (fin c) = fin c := by
      show F64.round (1 * c) = _
      rw [one_mul]
      have hw : WF (fin c) := e1 ▸ ofInt_wf _
      exact round_rep hw
    rwa [h1c] at this
  have hle : F64.le p (fin 0) = true → F64.le (mul p (fin c)) (fin 0) = true := by
    intro h
    have := mul_right_mono hc0 h
    have h0c : mul (fin 0) (fin c) = fin 0 := by
      show F64.round (0 * c) = _
      rw [zero_mul]
      exact round_rep representable_zero
    rwa [h0c] at this
  have hn1 : 1 ≤ rnd (xs.length : ℚ) := by
    have : rnd (1 : ℚ) ≤ rnd (xs.length : ℚ) := rnd_mono (by exact_mod_cast h0)
    rwa [rnd_one] at this
  rcases percentileSorted_f64 xs p hp h0 hlen with ⟨a1, hs1⟩ | ⟨a1, hs1⟩ | ⟨r, k, h1, hk, ar, arr, hrn, h3, h4, hs1⟩
  · refine ⟨_, hs1, _root_.le_refl _, getle 0 _ (by omega) (by omega), fun _ => rfl, fun h => ?_⟩
    exfalso
    have h2 := F64.le_trans (le_fin.2 hc1) (hge h)
    rw [← hc] at a1
    exact lt_le_absurd a1 h2
  · refine ⟨_, hs1, getle 0 _ (by omega) (by omega), _root_.le_refl _, fun h => ?_, fun _ => rfl⟩
    exfalso
    rw [← hc] at a1
    have h2 := F64.le_trans a1 (hle h)
    rw [le_fin] at h2
    linarith
  · rw [← hc] at ar
    have hk1 : (1 : ℚ) ≤ k := by exact_mod_cast h1
    obtain ⟨m1, m2⟩ := interp_bounds (x := xs[k - 1].toInt) (y := xs[k].toInt) (q := r) (k := k) (sorted_get hs (by omega) hk) arr (by linarith)
      (by exact_mod_cast h3) (by exact_mod_cast h4)
    refine ⟨_, hs1, (getle 0 (k - 1) (by omega) (by omega)).trans m1, m2.trans (getle k _ (by omega) (by omega)), fun h => ?_, fun h => ?_⟩
    · exfalso
      have := hle h
      rw [ar, le_fin] at this
      linarith
    · exfalso
      have := hge h
      rw [ar, le_fin] at this
      linarith

/-- Scores on a sorted slice are monotone in the request, in binary64. -/
theorem score_f64_mono (xs : List Int64) (hs : xs.Pairwise (· ≤ ·)) (p q : F64) (hpq : F64.le p q = true) (h0 : 0 < xs.length)
    (hlen : (xs.length : Int) ≤ maxInt64) (s t : ℚ) (hp : percentileSorted xs p = .ok (fin s)) (hq : percentileSorted xs q = .ok (fin t)) :
    s ≤ t := by
  have hpn := ne_nan_of_le_left hpq
  have hqn := ne_nan_of_le_right hpq
  obtain ⟨e1, hc1⟩ := ofInt_len1 xs.length hlen
  set c := rnd ((xs.length : ℚ) + 1) with hc
  have hc0 : 0 < c := by linarith
  have hr : F64.le (mul p (fin c)) (mul q (fin c)) = true := mul_right_mono hc0 hpq
  have getle : ∀ (i j : Nat) (hij : i ≤ j) (hj : j < xs.length), rnd ((xs[i].toInt : ℤ) : ℚ) ≤ rnd ((xs[j].toInt : ℤ) : ℚ) := by
    intro i j hij hj
    apply rnd_mono
    exact_mod_cast sorted_get hs hij hj
  have mid : ∀ (r : ℚ) (k : Nat) (_ : 1 ≤ k) (hk : k < xs.length) (_ : rnd r = r) (_ : (k : ℚ) ≤ r) (_ : r < k + 1),
      rnd ((xs[k - 1].toInt : ℤ) : ℚ) ≤ interp (rnd ((xs[k - 1].toInt : ℤ) : ℚ)) (rnd ((xs[k].toInt : ℤ) : ℚ)) r k ∧
      interp (rnd ((xs[k - 1].toInt : ℤ) : ℚ)) (rnd ((xs[k].toInt : ℤ) : ℚ)) r k ≤ rnd ((xs[k].toInt : ℤ) : ℚ) := by
    intro r k h1 hk hrr h3 h4
    refine interp_bounds (sorted_get hs (by omega) hk) hrr ?_ (by exact_mod_cast h3) (by exact_mod_cast h4)
    have : (1 : ℚ) ≤ k := by exact_mod_cast h1
    linarith
  have hn1 : 1 ≤ rnd (xs.length : ℚ) := by
    have : rnd (1 : ℚ) ≤ rnd (xs.length : ℚ) := rnd_mono (by exact_mod_cast h0)
    rwa [rnd_one] at this
  obtain ⟨s', hs', hsb1, hsb2, -⟩ := score_f64 xs hs p hpn h0 hlen
  obtain ⟨t', ht', htb1, htb2, -⟩ := score_f64 xs hs q hqn h0 hlen
  rw [hp] at hs'
  rw [hq] at ht'
  cases hs'; cases ht'
  rcases percentileSorted_f64 xs p hpn h0 hlen with ⟨a1, hs1⟩ | ⟨a1, hs1⟩ | ⟨r, k, h1, hk, ar, arr, hrn, h3, h4, hs1⟩
  · rw [hp] at hs1; cases hs1; exact htb1
  · rcases percentileSorted_f64 xs q hqn h0 hlen with ⟨b1, ht1⟩ | ⟨b1, ht1⟩ | ⟨r', j, g1, gj, br, brr, brn, g3, g4, ht1⟩
    · exfalso
      rw [← hc] at a1 b1
      exact lt_le_absurd b1 (F64.le_trans (F64.le_trans (le_fin.2 hn1) a1) hr)
    · rw [hq] at ht1; cases ht1; exact hsb2
    · exfalso
      rw [← hc] at a1 br
      have h2 := F64.le_trans a1 hr
      rw [br, le_fin] at h2
      linarith
  · have hk1 : (1 : ℚ) ≤ k := by exact_mod_cast h1
    rw [← hc] at ar
    rcases percentileSorted_f64 xs q hqn h0 hlen with ⟨b1, ht1⟩ | ⟨b1, ht1⟩ | ⟨r', j, g1, gj, br, brr, brn, g3, g4, ht1⟩
    · exfalso
      rw [← hc] at b1
      rw [ar] at hr
      exact lt_le_absurd b1 (F64.le_trans (le_fin.2 (by linarith)) hr)
    · rw [hq] at ht1; cases ht1; exact hsb2
    · rw [← hc] at br
      rw [hp] at hs1; cases hs1
      rw [hq] at ht1; cases ht1
      rw [ar, br, le_fin] at hr
      have hkj : k ≤ j := by
        have : (k : ℚ) < j + 1 := by linarith
        have : k < j + 1 := by exact_mod_cast this
        omega
      rcases Nat.lt_or_eq_of_le hkj with hlt | rfl
      · exact ((mid _ k h1 hk arr h3 h4).2).trans ((getle k (j - 1) (by omega) (by omega)).trans (mid _ j g1 gj brr g3 g4).1)
      · exact interp_mono (sorted_get hs (by omega) hk) hr

end ieee
end GoMetrics
