import Verif.Lemmas.Accuracy
import Verif.Lemmas.Percentile

/-! Rounding errors of percentiles in float64. -/

namespace GoMetrics
open Spec F64

theorem rankValue_le_one {xs : List Int64} {r : ℚ} (h0 : 0 < xs.length) (h : r ≤ 1) : rankValue xs r = (xs.getD 0 0).toInt := by
  unfold rankValue
  simp only
  split_ifs with h1 h2
  · rfl
  · have : (xs.length : ℚ) ≤ 1 := h2.trans h
    have : xs.length ≤ 1 := by exact_mod_cast this
    have : xs.length - 1 = 0 := by omega
    rw [this]
  · have : r = 1 := le_antisymm h (not_lt.1 h1)
    subst this
    simp

theorem rankValue_one (x : Int64) (r : ℚ) : rankValue [x] r = x.toInt := by
  unfold rankValue
  simp only
  split_ifs with h1 h2
  · rfl
  · rfl
  · exfalso; simp only [List.length_singleton, Nat.cast_one] at h2; exact h2 (not_lt.1 h1)

theorem rankValue_cons (x y : Int64) (ys : List Int64) (r : ℚ) :
    rankValue (x :: y :: ys) r = if r ≤ 1 then (x.toInt : ℚ) else if r ≤ 2 then x.toInt + (r - 1) * (y.toInt - x.toInt)
      else rankValue (y :: ys) (r - 1) := by
  split_ifs with h1 h2
  · rw [rankValue_le_one (by simp) h1]; simp
  · push Not at h1
    unfold rankValue
    simp only
    rw [if_neg (by linarith)]
    split_ifs with h3
    · simp only [List.length_cons] at h3 ⊢
      push_cast at h3
      have h4 : (ys.length : ℚ) ≤ 0 := by linarith
      have h5 : ys.length = 0 := by
        have : ys.length ≤ 0 := by exact_mod_cast h4
        omega
      have : r = 2 := by rw [h5] at h3; norm_num at h3; linarith
      subst this
      obtain rfl := List.length_eq_zero_iff.1 h5
      simp; ring
    · rcases eq_or_lt_of_le h2 with rfl | h2
      · have hf : ⌊(2 : ℚ)⌋ = 2 := by norm_num
        rw [hf]
        simp only [List.length_cons] at h3
        simp; ring
      · have hf : ⌊r⌋ = 1 := by rw [Int.floor_eq_iff]; push_cast; constructor <;> linarith
        rw [hf]; simp
  · push Not at h1 h2
    unfold rankValue
    simp only
    rw [if_neg (by linarith), if_neg (by linarith : ¬ r - 1 < 1)]
    have hl : (((x :: y :: ys).length : ℚ) ≤ r) ↔ (((y :: ys).length : ℚ) ≤ r - 1) := by
      simp only [List.length_cons]; push_cast
      constructor <;> intro h <;> linarith
    by_cases h3 : ((y :: ys).length : ℚ) ≤ r - 1
    · rw [if_pos (hl.2 h3), if_pos h3]; simp
    · rw [if_neg (fun h => h3 (hl.1 h)), if_neg h3]
      have hf : ⌊r - 1⌋ = ⌊r⌋ - 1 := Int.floor_sub_one r
      have hge : 2 ≤ ⌊r⌋ := Int.le_floor.2 (by push_cast; linarith)
      obtain ⟨k, hk⟩ : ∃ k : Nat, ⌊r⌋ = k + 2 := ⟨(⌊r⌋ - 2).toNat, by omega⟩
      have e1 : (⌊r⌋).toNat = k + 2 := by omega
      have e2 : (⌊r⌋ - 1).toNat = k + 1 := by omega
      rw [hf, e1, e2, hk]
      have e3 : k + 2 - 1 = k + 1 := rfl
      have e4 : k + 1 - 1 = k := rfl
      rw [e3, e4]
      simp only [List.getD_cons_succ]
      push_cast
      congr 2
      ring

/-- Between sorted values that are at most `g` apart the interpolated value moves by at most `g` per rank. -/
theorem rankValue_lipschitz {g : ℚ} (hg : 0 ≤ g) : ∀ (xs : List Int64), xs.Pairwise (· ≤ ·) → GapsAtMost g xs → ∀ r r' : ℚ, r ≤ r' →
    0 ≤ rankValue xs r' - rankValue xs r ∧ rankValue xs r' - rankValue xs r ≤ g * (r' - r) := by
  intro xs
  induction xs with
  | nil =>
    intro _ _ r r' h
    have : ∀ r, rankValue [] r = 0 := by intro r; unfold rankValue; simp
    rw [this, this]
    refine ⟨by simp, by simpa using mul_nonneg hg (by linarith)⟩
  | cons x xs ih =>
    intro hs hgap r r' h
    have hgr : 0 ≤ g * (r' - r) := mul_nonneg hg (by linarith)
    cases xs with
    | nil => rw [rankValue_one, rankValue_one]; exact ⟨by simp, by simpa using hgr⟩
    | cons y ys =>
      have hs' : (y :: ys).Pairwise (· ≤ ·) := (List.pairwise_cons.1 hs).2
      have hgap' : GapsAtMost g (y :: ys) := by
        intro i hi
        have := hgap (i + 1) (by simpa using hi)
        simpa using this
      have hxy : (x.toInt : ℚ) ≤ y.toInt := by
        have := i64_le.1 ((List.pairwise_cons.1 hs).1 y (by simp))
        exact_mod_cast this
      have hgxy : (y.toInt : ℚ) - x.toInt ≤ g := by
        have := hgap 0 (by simp)
        simpa using this
      have hy1 : rankValue (y :: ys) 1 = y.toInt := by rw [rankValue_le_one (by simp) le_rfl]; simp
      have ih' := ih hs' hgap'
      rw [rankValue_cons, rankValue_cons]
      have hd : 0 ≤ (y.toInt : ℚ) - x.toInt := by linarith
      split_ifs with a1 a2 a3 a4 a5 a6 a7
      all_goals first | (exfalso; linarith) | skip
      · exact ⟨by simp, by simpa using hgr⟩
      · constructor
        · have := mul_nonneg (by linarith : (0 : ℚ) ≤ r' - 1) hd; linarith
        · have h1 : (r' - 1) * ((y.toInt : ℚ) - x.toInt) ≤ (r' - 1) * g := mul_le_mul_of_nonneg_left hgxy (by linarith)
          have h2 : (r' - 1) * g ≤ (r' - r) * g := mul_le_mul_of_nonneg_right (by linarith) hg
          linarith
      · constructor
        · have := mul_nonneg (by linarith : (0 : ℚ) ≤ r' - r) hd; linarith
        · have h1 : (r' - r) * ((y.toInt : ℚ) - x.toInt) ≤ (r' - r) * g := mul_le_mul_of_nonneg_left hgxy (by linarith)
          linarith
      · have h3 := ih' 1 (r' - 1) (by linarith)
        rw [hy1] at h3
        have h4 : g * 1 ≤ g * (1 + (1 - r)) := mul_le_mul_of_nonneg_left (by linarith) hg
        constructor <;> nlinarith [h3.1, h3.2]
      · have h3 := ih' 1 (r' - 1) (by linarith)
        rw [hy1] at h3
        have h1 : (2 - r) * ((y.toInt : ℚ) - x.toInt) ≤ (2 - r) * g := mul_le_mul_of_nonneg_left hgxy (by linarith)
        have h0 := mul_nonneg (by linarith : (0 : ℚ) ≤ 2 - r) hd
        constructor
        · linarith [h3.1]
        · linarith [h3.2]
      · have h3 := ih' (r - 1) (r' - 1) (by linarith)
        refine ⟨h3.1, h3.2.trans (le_of_eq (by ring))⟩

theorem rankValue_near {g : ℚ} (hg : 0 ≤ g) (xs : List Int64) (hs : xs.Pairwise (· ≤ ·)) (hgap : GapsAtMost g xs) (r r' : ℚ) :
    |rankValue xs r' - rankValue xs r| ≤ g * |r' - r| := by
  rcases le_total r r' with h | h
  · have := rankValue_lipschitz hg xs hs hgap r r' h
    rw [abs_of_nonneg this.1, abs_of_nonneg (by linarith)]
    exact this.2
  · have := rankValue_lipschitz hg xs hs hgap r' r h
    rw [abs_sub_comm, abs_of_nonneg this.1, abs_sub_comm, abs_of_nonneg (by linarith)]
    exact this.2

/-- Interpolation in float64 between integers that are exact: the two roundings that count. -/
theorem interp_err {x y k : ℤ} {q g b : ℚ} (hxy : x ≤ y) (hx : |(x : ℚ)| ≤ b) (hy : |(y : ℚ)| ≤ b) (hb : b ≤ 2 ^ 52) (hg : (y : ℚ) - x ≤ g)
    (hr : rnd q = q) (h1 : 1 ≤ q) (hk1 : (k : ℚ) ≤ q) (hk2 : q < k + 1) :
    |interp (rnd (x : ℚ)) (rnd (y : ℚ)) q k - (x + (q - k) * (y - x))| ≤ uu * (g + b) := by
  have hu := uu_pos
  have hx' := abs_le.1 hx
  have hy' := abs_le.1 hy
  have hxy' : (x : ℚ) ≤ y := by exact_mod_cast hxy
  have hxi : |x| ≤ 2 ^ 52 := by
    have : |(x : ℚ)| ≤ 2 ^ 52 := hx.trans hb
    exact_mod_cast this
  have hyi : |y| ≤ 2 ^ 52 := by
    have : |(y : ℚ)| ≤ 2 ^ 52 := hy.trans hb
    exact_mod_cast this
  have e1 : rnd (x : ℚ) = x := by rw [rnd_int x (by omega)]
  have e2 : rnd (y : ℚ) = y := by rw [rnd_int y (by omega)]
  have e3 : rnd ((y : ℚ) - x) = y - x := by
    have := rnd_int (K := ℚ) (y - x) (by rw [abs_le] at *; omega)
    exact_mod_cast this
  obtain ⟨m, hm⟩ := rep_ge_one_multiple hr h1
  have hp : (0 : ℚ) < 2 ^ (-52 : ℤ) := two_zpow_pos _
  have hone : ((2 ^ 52 : ℤ) : ℚ) * 2 ^ (-52 : ℤ) = 1 := by push_cast; rw [zpow_neg]; norm_num
  have hqk : q - k = ((m - k * 2 ^ 52 : ℤ) : ℚ) * 2 ^ (-52 : ℤ) := by
    rw [hm]; push_cast; push_cast at hone; linear_combination -(k : ℚ) * hone
  have hf0 : 0 ≤ q - k := by linarith
  have hf1 : q - k < 1 := by linarith
  have e4 : rnd (q - k) = q - k := by
    rw [hqk]
    refine rnd_dyadic _ _ ?_ (by norm_num)
    rw [hqk] at hf0 hf1
    rw [← hone] at hf1
    have a1 : (0 : ℚ) ≤ ((m - k * 2 ^ 52 : ℤ) : ℚ) := nonneg_of_mul_nonneg_left hf0 hp
    have a2 := lt_of_mul_lt_mul_right hf1 hp.le
    have a3 : 0 ≤ m - k * 2 ^ 52 := by exact_mod_cast a1
    have a4 : m - k * 2 ^ 52 < 2 ^ 52 := by exact_mod_cast a2
    rw [abs_of_nonneg a3]; omega
  unfold interp
  rw [e1, e2, e3, e4]
  have hd : 0 ≤ (y : ℚ) - x := by linarith
  set z := (q - k) * ((y : ℚ) - x) with hz
  have hz0 : 0 ≤ z := mul_nonneg hf0 hd
  have hzle : z ≤ (y : ℚ) - x := by
    rw [hz]; nlinarith
  have hzm : z = 0 ∨ (2 : ℚ) ^ (-52 : ℤ) ≤ z := by
    have := multiple_apart (x := z) (e := -52) ⟨(m - k * 2 ^ 52) * (y - x), by rw [hz, hqk]; push_cast; ring⟩
    rwa [abs_of_nonneg hz0] at this
  obtain ⟨r1, r2, r3, r4⟩ := rnd_uu (by norm_num) hz0 hzm
  have hw : rnd z ≤ (y : ℚ) - x := by
    have := rnd_mono hzle
    rwa [e3] at this
  obtain ⟨j, hj⟩ := rnd_multiple (x := z) (e := -52) (by rwa [abs_of_nonneg hz0])
  have hlm : (x : ℚ) + rnd z = 0 ∨ (2 : ℚ) ^ (-104 : ℤ) ≤ |(x : ℚ) + rnd z| := by
    refine multiple_apart ⟨x * 2 ^ 104 + j, ?_⟩
    rw [hj]
    push_cast
    have : (20282409603651670423947251286016 : ℚ) * 2 ^ (-104 : ℤ) = 1 := by rw [zpow_neg]; norm_num
    linear_combination -(x : ℚ) * this
  have h3 := rnd_near (Apart.of_le (-104) (by norm_num) hlm)
  simp only [Rat.cast_id, ← uu_eq] at h3
  have h4 : |(x : ℚ) + rnd z| ≤ b := by rw [abs_le]; constructor <;> linarith
  calc |rnd ((x : ℚ) + rnd z) - (x + z)| = |(rnd ((x : ℚ) + rnd z) - (x + rnd z)) + (rnd z - z)| := by congr 1; ring
    _ ≤ |rnd ((x : ℚ) + rnd z) - (x + rnd z)| + |rnd z - z| := abs_add_le _ _
    _ ≤ b * uu + uu * g := by
        have h5 : |rnd z - z| ≤ uu * g := by
          have : uu * z ≤ uu * g := mul_le_mul_of_nonneg_left (by linarith) hu.le
          rw [abs_le]; constructor <;> linarith
        have h6 : |(x : ℚ) + rnd z| * uu ≤ b * uu := mul_le_mul_of_nonneg_right h4 hu.le
        linarith
    _ = _ := by ring

/-- A float64 percentile of a sorted slice against the exact one. -/
theorem percentileSorted_err (xs : List Int64) (hs : xs.Pairwise (· ≤ ·)) (h0 : 0 < xs.length) (hlen : (xs.length : Int) ≤ 2 ^ 52)
    (b g : ℚ) (hb : b ≤ 2 ^ 52) (hv : ∀ v ∈ xs, |(v.toInt : ℚ)| ≤ b) (hg0 : 0 ≤ g) (hgap : GapsAtMost g xs) (p : ℚ) (hp0 : 0 ≤ p) (hp1 : p ≤ 1) :
    ∃ s : ℚ, percentileSorted xs (fin p) = .ok (fin s) ∧ |s - rankValue xs (p * (xs.length + 1))| ≤ uu * ((xs.length + 2) * g + b) := by
  have hu := uu_pos
  have hn1 : rnd ((xs.length : ℚ) + 1) = xs.length + 1 := by
    have := rnd_int (K := ℚ) (xs.length + 1) (by rw [abs_of_nonneg (by omega)]; omega)
    exact_mod_cast this
  have hn : rnd (xs.length : ℚ) = xs.length := by
    have := rnd_int (K := ℚ) xs.length (by rw [abs_of_nonneg (by omega)]; omega)
    exact_mod_cast this
  have hlq : (xs.length : ℚ) ≤ 2 ^ 52 := by exact_mod_cast hlen
  have hl1 : (1 : ℚ) ≤ xs.length := by exact_mod_cast h0
  have hv' : ∀ i (hi : i < xs.length), |(xs[i].toInt : ℚ)| ≤ b ∧ rnd ((xs[i].toInt : ℤ) : ℚ) = xs[i].toInt := by
    intro i hi
    have h1 := hv xs[i] (List.getElem_mem hi)
    refine ⟨h1, ?_⟩
    have h2 : |xs[i].toInt| ≤ 2 ^ 52 := by
      have : |(xs[i].toInt : ℚ)| ≤ 2 ^ 52 := h1.trans hb
      exact_mod_cast this
    exact rnd_int _ (by omega)
  have hgetD : ∀ i (hi : i < xs.length), xs.getD i 0 = xs[i] := fun i hi => by simp [hi]
  set r := p * ((xs.length : ℚ) + 1) with hr
  have hr0 : 0 ≤ r := mul_nonneg hp0 (by linarith)
  have hrle : r ≤ xs.length + 1 := by rw [hr]; nlinarith
  have hpos : F64.mul (fin p) (fin (rnd ((xs.length : ℚ) + 1))) = fin (rnd r) := by
    rw [hn1]
    show F64.round (p * _) = _
    refine round_of_abs_le (n := 53) (by norm_num) ?_
    rw [abs_of_nonneg hr0]
    refine hrle.trans ?_
    have : (2 : ℚ) ^ 52 + 1 ≤ 2 ^ 53 := by norm_num
    linarith
  -- moving the rank to its rounded value
  have hmove : |rankValue xs (rnd r) - rankValue xs r| ≤ uu * ((xs.length + 1) * g) := by
    by_cases hh : r ≤ 1 / 2
    · have h2 : rnd r ≤ 1 / 2 := by
        have := rnd_mono hh
        have e : rnd ((1 : ℚ) / 2) = 1 / 2 := by
          have := rnd_two_zpow (K := ℚ) (-1) (by norm_num)
          norm_num at this ⊢; exact this
        rwa [e] at this
      rw [rankValue_le_one h0 (by linarith), rankValue_le_one h0 (by linarith)]
      simp only [sub_self, abs_zero]
      exact mul_nonneg hu.le (mul_nonneg (by linarith) hg0)
    · push Not at hh
      have h1 := rankValue_near hg0 xs hs hgap r (rnd r)
      have h2 := rnd_near (x := r) (Apart.of_le (-1) (by norm_num) (.inr (by rw [abs_of_nonneg hr0]; norm_num; linarith)))
      simp only [Rat.cast_id, ← uu_eq] at h2
      rw [abs_of_nonneg hr0] at h2
      calc |rankValue xs (rnd r) - rankValue xs r| ≤ g * |rnd r - r| := h1
        _ ≤ g * (r * uu) := mul_le_mul_of_nonneg_left h2 hg0
        _ ≤ g * ((xs.length + 1) * uu) := mul_le_mul_of_nonneg_left (mul_le_mul_of_nonneg_right hrle hu.le) hg0
        _ = _ := by ring
  have hb0 : 0 ≤ b := le_trans (abs_nonneg _) (hv' 0 h0).1
  -- the score against the value at the rounded rank
  suffices h : ∃ s : ℚ, percentileSorted xs (fin p) = .ok (fin s) ∧ |s - rankValue xs (rnd r)| ≤ uu * (g + b) by
    obtain ⟨s, hs1, hs2⟩ := h
    refine ⟨s, hs1, ?_⟩
    calc |s - rankValue xs r| = |(s - rankValue xs (rnd r)) + (rankValue xs (rnd r) - rankValue xs r)| := by congr 1; ring
      _ ≤ _ := abs_add_le _ _
      _ ≤ uu * (g + b) + uu * ((xs.length + 1) * g) := by linarith
      _ = _ := by ring
  have hz : 0 ≤ uu * (g + b) := mul_nonneg hu.le (by linarith)
  rcases percentileSorted_f64 xs (fin p) (by simp) h0 (by unfold maxInt64; omega) with ⟨a1, h⟩ | ⟨a1, h⟩ | ⟨q, k, k1, hk, a1, a2, a3, a4, a5, h⟩
  · rw [hpos, lt_fin] at a1
    refine ⟨_, h, ?_⟩
    rw [(hv' 0 h0).2, rankValue_le_one h0 a1.le, hgetD 0 h0]
    simpa using hz
  · rw [hpos, le_fin, hn] at a1
    refine ⟨_, h, ?_⟩
    rw [(hv' _ _).2]
    have : rankValue xs (rnd r) = xs[xs.length - 1].toInt := by
      unfold rankValue
      simp only
      rw [if_neg (by linarith), if_pos a1, hgetD _ (by omega)]
    rw [this]
    simpa using hz
  · rw [hpos] at a1
    have e : rnd r = q := by cases a1; rfl
    rw [e]
    refine ⟨_, h, ?_⟩
    have hf : ⌊q⌋ = (k : ℤ) := by rw [Int.floor_eq_iff]; push_cast; exact ⟨a4, a5⟩
    have hk1 : (1 : ℚ) ≤ k := by exact_mod_cast k1
    have hrv : rankValue xs q = (xs[k - 1].toInt : ℚ) + (q - k) * ((xs[k].toInt : ℚ) - xs[k - 1].toInt) := by
      unfold rankValue
      simp only
      rw [if_neg (by linarith), if_neg (by rw [hn] at a3; linarith), hf]
      simp only [Int.toNat_natCast]
      rw [hgetD k hk, hgetD (k - 1) (by omega)]
      push_cast
      rfl
    rw [hrv]
    have hgk := hgap (k - 1) (by omega)
    rw [show k - 1 + 1 = k by omega, hgetD k hk, hgetD (k - 1) (by omega)] at hgk
    have := interp_err (x := xs[k - 1].toInt) (y := xs[k].toInt) (k := (k : ℤ)) (q := q) (g := g) (b := b)
      (sorted_get hs (by omega) hk) (hv' (k - 1) (by omega)).1 (hv' k hk).1 hb hgk a2 (by linarith) (by exact_mod_cast a4) (by exact_mod_cast a5)
    exact_mod_cast this

end GoMetrics
