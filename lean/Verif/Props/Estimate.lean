import Verif.Lemmas.Estimate
import Verif.Props.Stats

/-! Property theorems C94: what is read from a uniform sample estimates the statistics of all values fed. -/

set_option linter.unusedSimpArgs false
set_option linter.unusedVariables false

namespace GoMetrics
open Spec Finset

section
variable (k n : Nat) (h1 : 1 ≤ k) (hkn : k ≤ n) (hn : n < 2 ^ 63) (v : Nat → Int64) (reads : Nat → Nat)
include h1 hkn hn

private theorem map_total (l : List Nat) (hl : l.Nodup) (g : Int64 → ℚ) : ((l.map v).map g).sum = ∑ i ∈ l.toFinset, g (v i) := by
  rw [List.map_map, List.sum_toFinset _ hl]; rfl

private theorem pos_length (d : List Nat) : (positions k v reads d n).length = k := by
  rw [(positions_inv k v reads d n).1]; omega

private theorem fits (hv : ∀ i < n, k * |(v i).toInt| < 2 ^ 63) (d : List Nat) : SumFits ((positions k v reads d n).map v) := by
  obtain ⟨_, h2, h3⟩ := positions_inv k v reads d n
  have hl := pos_length k n h1 hkn hn v reads d
  have key : ∀ l : List Nat, (∀ i ∈ l, i < n) → k * |total (l.map v)| ≤ l.length * (2 ^ 63 - 1) := by
    intro l hl
    induction l with
    | nil => simp [total]
    | cons a l ih =>
      have i1 := ih fun i hi => hl i (List.mem_cons_of_mem _ hi)
      have i2 := hv a (hl a List.mem_cons_self)
      have i3 : |total ((a :: l).map v)| ≤ |(v a).toInt| + |total (l.map v)| := by
        simp only [total, List.map_cons, List.sum_cons]; exact abs_add_le _ _
      have : (k : Int) * |total ((a :: l).map v)| ≤ k * (|(v a).toInt| + |total (l.map v)|) :=
        mul_le_mul_of_nonneg_left i3 (by positivity)
      rw [List.length_cons]; push_cast
      linarith
  have hk := key _ h3
  rw [hl] at hk
  have hk0 : (0 : Int) < k := by exact_mod_cast h1
  have := le_of_mul_le_mul_left hk hk0
  rw [abs_le] at this
  exact ⟨by omega, by omega⟩

private theorem read_mean (hv : ∀ i < n, k * |(v i).toInt| < 2 ^ 63) {d : List Nat} (hd : d ∈ allDraws n) :
    estimate sampleMean (fed k v reads n d) = (∑ i ∈ (positions k v reads d n).toFinset, ((v i).toInt : ℚ)) / k := by
  obtain ⟨s, e, hs⟩ := fed_eq k v reads n hn hd
  have hl := pos_length k n h1 hkn hn v reads d
  rw [e]
  simp only [estimate, hs, sampleMean, List.length_map, hl]
  rw [if_neg (by omega), C11_sum_exact _ (fits k n h1 hkn hn v reads hv d)]
  rw [← map_total k n h1 hkn hn v _ (positions_inv k v reads d n).2.1 fun w => (w.toInt : ℚ)]
  simp [total]
  rfl

/-- C94: the mean read from a sample is, on average over the equally likely random outcomes, the mean of all values fed. The sums
must not overflow (`hv`); see C12 for what happens when they do. -/
theorem C94_mean (hv : ∀ i < n, k * |(v i).toInt| < 2 ^ 63) :
    average (allDraws n) (fun d => estimate sampleMean (fed k v reads n d)) = fedMean v n := by
  rw [average_congr fun d hd => read_mean k n h1 hkn hn v reads hv hd]
  exact pick_mean k v reads n h1 hkn fun i => ((v i).toInt : ℚ)

/-- C94: the mean square error of the mean read is the variance of all values fed, times (n - k) / (k (n - 1)). -/
theorem C94_mean_error (hv : ∀ i < n, k * |(v i).toInt| < 2 ^ 63) :
    average (allDraws n) (fun d => (estimate sampleMean (fed k v reads n d) - fedMean v n) ^ 2) * (k * (n - 1))
      = fedVariance v n * (n - k) := by
  rw [average_congr fun d hd => by rw [read_mean k n h1 hkn hn v reads hv hd]]
  exact pick_error k v reads n h1 hkn fun i => ((v i).toInt : ℚ)

/-- C94: the variance read from a sample is, on average, the variance of all values fed times n (k - 1) / (k (n - 1)): slightly too
small. -/
theorem C94_variance (hv : ∀ i < n, k * |(v i).toInt| < 2 ^ 63) :
    average (allDraws n) (fun d => estimate sampleVariance (fed k v reads n d)) * (k * (n - 1)) = fedVariance v n * (n * (k - 1)) := by
  have hk0 : (k : ℚ) ≠ 0 := by exact_mod_cast (by omega : k ≠ 0)
  set μ := fedMean v n with hμ
  have hread : ∀ d ∈ allDraws n, estimate sampleVariance (fed k v reads n d) =
      (∑ i ∈ (positions k v reads d n).toFinset, (((v i).toInt : ℚ) - μ) ^ 2) / k
        - ((∑ i ∈ (positions k v reads d n).toFinset, ((v i).toInt : ℚ)) / k - μ) ^ 2 := by
    intro d hd
    obtain ⟨s, e, hs⟩ := fed_eq k v reads n hn hd
    have hl := pos_length k n h1 hkn hn v reads d
    have hnd := (positions_inv k v reads d n).2.1
    have hc : (positions k v reads d n).toFinset.card = k := by rw [List.toFinset_card_of_nodup hnd, hl]
    rw [e]
    simp only [estimate, hs]
    rw [C13_variance_formula _ (by intro h0; rw [List.map_eq_nil_iff] at h0; rw [h0] at hl; simp at hl; omega)
      (fits k n h1 hkn hn v reads hv d)]
    have e1 : (total ((positions k v reads d n).map v) : ℚ) = ∑ i ∈ (positions k v reads d n).toFinset, ((v i).toInt : ℚ) := by
      rw [← map_total k n h1 hkn hn v _ hnd fun w => (w.toInt : ℚ)]; simp [total]; rfl
    have e2 : (totalSq ((positions k v reads d n).map v) : ℚ) = ∑ i ∈ (positions k v reads d n).toFinset, ((v i).toInt : ℚ) ^ 2 := by
      rw [← map_total k n h1 hkn hn v _ hnd fun w => (w.toInt : ℚ) ^ 2]
      simp [totalSq, Function.comp_def, sq]
    have e3 : ∑ i ∈ (positions k v reads d n).toFinset, (((v i).toInt : ℚ) - μ) ^ 2 =
        ∑ i ∈ (positions k v reads d n).toFinset, ((v i).toInt : ℚ) ^ 2
          - 2 * μ * ∑ i ∈ (positions k v reads d n).toFinset, ((v i).toInt : ℚ) + k * μ ^ 2 := by
      have : ∀ i ∈ (positions k v reads d n).toFinset, (((v i).toInt : ℚ) - μ) ^ 2 = ((v i).toInt : ℚ) ^ 2 - 2 * μ * ((v i).toInt : ℚ) + μ ^ 2 := by
        intro i _; ring
      rw [sum_congr rfl this, sum_add_distrib, sum_sub_distrib, sum_const, hc, nsmul_eq_mul, mul_sum]
    rw [e1, e2, e3, List.length_map, hl]
    field_simp
    ring
  have hsub : ∀ f g : List Nat → ℚ, average (allDraws n) (fun d => f d - g d) = average (allDraws n) f - average (allDraws n) g := by
    intro f g
    unfold average
    rw [← sub_div]
    congr 1
    induction allDraws n with
    | nil => simp
    | cons a l ih => simp only [List.map_cons, List.sum_cons, ih]; ring
  rw [average_congr hread, hsub, sub_mul, pick_mean k v reads n h1 hkn fun i => (((v i).toInt : ℚ) - μ) ^ 2]
  have := pick_error k v reads n h1 hkn fun i => ((v i).toInt : ℚ)
  have hm : gMean (fun i => ((v i).toInt : ℚ)) n = μ := rfl
  rw [hm] at this
  rw [this]
  have hv1 : gVar (fun i => ((v i).toInt : ℚ)) n = fedVariance v n := rfl
  have hv2 : gMean (fun i => (((v i).toInt : ℚ) - μ) ^ 2) n = fedVariance v n := rfl
  rw [hv1, hv2]
  ring

/-- C94: the sum read from a sample is, on average, only the fraction k / n of the sum of all values fed. -/
theorem C94_sum (hv : ∀ i < n, k * |(v i).toInt| < 2 ^ 63) :
    average (allDraws n) (fun d => estimate (fun vs => ((sampleSum vs).toInt : ℚ)) (fed k v reads n d)) = k * fedMean v n := by
  have hk0 : (k : ℚ) ≠ 0 := by exact_mod_cast (by omega : k ≠ 0)
  have hread : ∀ d ∈ allDraws n, estimate (fun vs => ((sampleSum vs).toInt : ℚ)) (fed k v reads n d) =
      k * estimate sampleMean (fed k v reads n d) := by
    intro d hd
    rw [read_mean k n h1 hkn hn v reads hv hd]
    obtain ⟨s, e, hs⟩ := fed_eq k v reads n hn hd
    rw [e]
    simp only [estimate, hs]
    rw [C11_sum_exact _ (fits k n h1 hkn hn v reads hv d),
      ← map_total k n h1 hkn hn v _ (positions_inv k v reads d n).2.1 fun w => (w.toInt : ℚ)]
    field_simp
    simp [total]
    rfl
  rw [average_congr hread, ← C94_mean k n h1 hkn hn v reads hv]
  unfold average
  rw [List.sum_map_mul_left, mul_div_assoc]

private theorem read_share (c : Int64 → Bool) {d : List Nat} (hd : d ∈ allDraws n) :
    estimate (share c) (fed k v reads n d) = (∑ i ∈ (positions k v reads d n).toFinset, if c (v i) = true then (1 : ℚ) else 0) / k := by
  obtain ⟨s, e, hs⟩ := fed_eq k v reads n hn hd
  rw [e]
  simp only [estimate, hs, share, List.length_map, pos_length k n h1 hkn hn v reads d]
  rw [← map_total k n h1 hkn hn v _ (positions_inv k v reads d n).2.1 fun w => if c w = true then (1 : ℚ) else 0]
  congr 1
  generalize (positions k v reads d n).map v = l
  induction l with
  | nil => simp
  | cons a l ih =>
    rw [List.countP_cons, List.map_cons, List.sum_cons, ← ih, Nat.cast_add, add_comm]
    congr 1
    split <;> simp

omit h1 hkn hn in
private theorem fedShare_eq (c : Int64 → Bool) : fedShare c v n = gMean (fun i => if c (v i) = true then 1 else 0) n := by
  unfold fedShare gMean
  rw [sum_boole]

/-- C94: for any condition on values (such as "at most 250 ms"), the share of the values held that meet it is, on average, the share
of all values fed that meet it. -/
theorem C94_share (c : Int64 → Bool) :
    average (allDraws n) (fun d => estimate (share c) (fed k v reads n d)) = fedShare c v n := by
  rw [average_congr fun d hd => read_share k n h1 hkn hn v reads c hd, fedShare_eq]
  exact pick_mean k v reads n h1 hkn _

/-- C94: that share is off by ε or more in at most 1 / (4 k ε²) of the random outcomes, however many values were fed. -/
theorem C94_share_close (c : Int64 → Bool) (ε : ℚ) (hε : 0 < ε) :
    chance (allDraws n) (fun d => decide (ε ≤ |estimate (share c) (fed k v reads n d) - fedShare c v n|)) ≤ 1 / (4 * k * ε ^ 2) := by
  have hk : (0 : ℚ) < k := by exact_mod_cast h1
  have a := chance_le (allDraws n) (fun d => estimate (share c) (fed k v reads n d) - fedShare c v n) ε hε
  have b := pick_error_le k v reads n h1 hkn fun i => if c (v i) = true then (1 : ℚ) else 0
  have b2 := gVar_bool n fun i => c (v i)
  rw [average_congr fun d hd => by rw [read_share k n h1 hkn hn v reads c hd, fedShare_eq]] at a
  rw [le_div_iff₀ (by positivity)]
  have := mul_le_mul_of_nonneg_right a hk.le
  linarith

private theorem read_percentile (p : ℚ) (hp0 : 0 ≤ p) (hp1 : p ≤ 1) {d : List Nat} (hd : d ∈ allDraws n) :
    ∃ s x, fed k v reads n d = .ok s ∧ (s.percentiles [p]).1 = .ok [x] ∧
      (∀ y : ℚ, y < x → share (fun w => decide ((w.toInt : ℚ) ≤ y)) s.values ≤ p + 1 / k) ∧
      (∀ y : ℚ, x < y → share (fun w => decide (y ≤ (w.toInt : ℚ))) s.values ≤ 1 - p + 1 / k) := by
  obtain ⟨s, e, hs⟩ := fed_eq k v reads n hn hd
  have hl : s.values.length = k := by rw [hs, List.length_map, pos_length k n h1 hkn hn v reads d]
  obtain ⟨x, e1, a, b⟩ := percentile_rank s.values (by omega) p hp0 hp1
  have hk : (0 : ℚ) < k := by exact_mod_cast h1
  refine ⟨s, x, e, ?_, fun y hy => ?_, fun y hy => ?_⟩
  · unfold UniformSample.percentiles; simp only [e1]; rfl
  · have := a y hy
    rw [hl] at this
    rw [share, hl, div_le_iff₀ hk, add_mul, div_mul_cancel₀ _ hk.ne']
    linarith
  · have := b y hy
    rw [hl] at this
    rw [share, hl, div_le_iff₀ hk, add_mul, div_mul_cancel₀ _ hk.ne']
    linarith

/-- C94: a percentile is rarely too high. If more than the share p of all values fed (by 1/k + ε) are at most `y`, the sample's
p-percentile exceeds `y` (or the call panics) in at most 1 / (4 k ε²) of the random outcomes. -/
theorem C94_percentile_above (p : ℚ) (hp0 : 0 ≤ p) (hp1 : p ≤ 1) (ε : ℚ) (hε : 0 < ε) (y : ℚ)
    (hy : p + 1 / k + ε ≤ fedShare (fun w => decide ((w.toInt : ℚ) ≤ y)) v n) :
    chance (allDraws n) (fun d => match (fed k v reads n d).bind (fun s => (s.percentiles [p]).1) with
        | .ok [x] => decide (y < x)
        | _ => true) ≤ 1 / (4 * k * ε ^ 2) := by
  refine le_trans (chance_mono fun d hd h => ?_) (C94_share_close k n h1 hkn hn v reads (fun w => decide ((w.toInt : ℚ) ≤ y)) ε hε)
  obtain ⟨s, x, e, ep, a, _⟩ := read_percentile k n h1 hkn hn v reads p hp0 hp1 hd
  rw [e] at h ⊢
  simp only [Except.bind, ep, decide_eq_true_eq] at h
  have := a y h
  refine decide_eq_true ?_
  simp only [estimate]
  rw [abs_sub_comm]
  refine le_trans ?_ (le_abs_self _)
  linarith

/-- C94: a percentile is rarely too low. -/
theorem C94_percentile_below (p : ℚ) (hp0 : 0 ≤ p) (hp1 : p ≤ 1) (ε : ℚ) (hε : 0 < ε) (y : ℚ)
    (hy : 1 - p + 1 / k + ε ≤ fedShare (fun w => decide (y ≤ (w.toInt : ℚ))) v n) :
    chance (allDraws n) (fun d => match (fed k v reads n d).bind (fun s => (s.percentiles [p]).1) with
        | .ok [x] => decide (x < y)
        | _ => true) ≤ 1 / (4 * k * ε ^ 2) := by
  refine le_trans (chance_mono fun d hd h => ?_) (C94_share_close k n h1 hkn hn v reads (fun w => decide (y ≤ (w.toInt : ℚ))) ε hε)
  obtain ⟨s, x, e, ep, _, a⟩ := read_percentile k n h1 hkn hn v reads p hp0 hp1 hd
  rw [e] at h ⊢
  simp only [Except.bind, ep, decide_eq_true_eq] at h
  have := a y h
  refine decide_eq_true ?_
  simp only [estimate]
  rw [abs_sub_comm]
  refine le_trans ?_ (le_abs_self _)
  linarith

end

-- 2 of the 3 values 10, 20, 60 with a percentile read after each update: the mean read is 15, 35 or 40, on average 30
private def three : Nat → Int64 := fun i => if i = 0 then 60 else if i = 1 then 10 else 20

example : (∀ i < 3, 2 * |(three i).toInt| < 2 ^ 63) ∧ fedMean three 3 = 30 ∧ fedVariance three 3 = 1400 / 3 := by
  refine ⟨by decide, ?_, ?_⟩
  · simp [fedMean, sum_range_succ, three]; norm_num
  · simp [fedVariance, fedMean, sum_range_succ, three]; norm_num

example : ((allDraws 3).map fun d => (fed 2 three (fun _ => 1) 3 d).map (·.values)) =
    [.ok [20, 60], .ok [10, 20], .ok [10, 60], .ok [20, 60], .ok [10, 20], .ok [10, 60]] := by decide

-- half of the values are 0: with the default size 1028 the share of zeros read is off by a tenth or more in fewer than 1 of 41 cases
example : fedShare (fun w => decide ((w.toInt : ℚ) ≤ 0)) (fun i => if i % 2 = 0 then 0 else 5) 4 = 1 / 2 ∧
    (1 / (4 * ((1028 : ℕ) : ℚ) * (1 / 10) ^ 2)) < 1 / 41 := by
  refine ⟨?_, by norm_num⟩
  have : ((range 4).filter fun i => (decide ((((if i % 2 = 0 then 0 else 5 : Int64).toInt : ℤ) : ℚ) ≤ 0)) = true).card = 2 := by decide
  simp only [fedShare, this]
  norm_num

-- three values of 4 are 0: a median read from a sample of 100 of 4000 such values exceeds 4 in at most 1 of 23 cases
example : ((1 / 2 : ℚ) + 1 / (100 : ℕ) + 24 / 100 ≤ 3 / 4) ∧ (1 / (4 * ((100 : ℕ) : ℚ) * (24 / 100) ^ 2)) < 1 / 23 ∧
    fedShare (fun w => decide ((w.toInt : ℚ) ≤ 4)) (fun i => if i % 4 = 3 then 5 else 0) 4 = 3 / 4 := by
  refine ⟨by norm_num, by norm_num, ?_⟩
  have : ((range 4).filter fun i => (decide ((((if i % 4 = 3 then 5 else 0 : Int64).toInt : ℤ) : ℚ) ≤ 4)) = true).card = 3 := by decide
  simp only [fedShare, this]
  norm_num

end GoMetrics
