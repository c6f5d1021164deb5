import Verif.Lemmas.Reservoir
import Verif.Lemmas.Percentile
import Verif.Spec.Estimate
import Verif.Spec.Stats
import Mathlib.Data.Finset.Powerset
import Mathlib.Algebra.BigOperators.Field
import Mathlib.Algebra.BigOperators.Ring.Finset
import Mathlib.Algebra.Order.BigOperators.Ring.Finset
import Mathlib.Data.Nat.Choose.Basic
import Mathlib.Tactic.FieldSimp
import Mathlib.Tactic.Linarith

/-! Averages over the random outcomes of a uniform sample. -/

set_option linter.unusedSimpArgs false
set_option linter.unusedSectionVars false

namespace GoMetrics
open Spec Finset

/-! ### sums over all sets of `k` positions -/

section sets
variable {n k : Nat}

/-- The sum of `h` over a set, averaged over all sets of `k` of `n` positions. -/
theorem pick_sum (h1 : 1 ≤ k) (hkn : k ≤ n) (h : Nat → ℚ) :
    (∑ S ∈ powersetCard k (range n), ∑ i ∈ S, h i) = ((n - 1).choose (k - 1) : ℚ) * ∑ i ∈ range n, h i := by
  have : (∑ S ∈ powersetCard k (range n), ∑ i ∈ S, h i) = ∑ i ∈ range n, ∑ S ∈ (powersetCard k (range n)).filter ({i} ⊆ ·), h i := by
    refine sum_comm' fun S i => ?_
    simp only [mem_filter, mem_powersetCard, singleton_subset_iff]
    constructor
    · rintro ⟨⟨a, b⟩, c⟩; exact ⟨⟨⟨a, b⟩, c⟩, a c⟩
    · rintro ⟨⟨⟨a, b⟩, c⟩, d⟩; exact ⟨⟨a, b⟩, c⟩
  rw [this, mul_sum]
  refine sum_congr rfl fun i hi => ?_
  rw [sum_const, card_filter_powersetCard_subset _ _ _ (by simpa using hi) (by simpa using h1)]
  simp

theorem pick_pair (h1 : 2 ≤ k) (hkn : k ≤ n) (h : Nat → ℚ) :
    (∑ S ∈ powersetCard k (range n), ∑ i ∈ S, ∑ j ∈ S.erase i, h i * h j) =
      ((n - 2).choose (k - 2) : ℚ) * ∑ i ∈ range n, ∑ j ∈ (range n).erase i, h i * h j := by
  have : (∑ S ∈ powersetCard k (range n), ∑ i ∈ S, ∑ j ∈ S.erase i, h i * h j)
      = ∑ i ∈ range n, ∑ S ∈ (powersetCard k (range n)).filter (i ∈ ·), ∑ j ∈ S.erase i, h i * h j := by
    refine sum_comm' fun S i => ?_
    simp only [mem_filter, mem_powersetCard]
    constructor
    · rintro ⟨⟨a, b⟩, c⟩; exact ⟨⟨⟨a, b⟩, c⟩, a c⟩
    · rintro ⟨⟨⟨a, b⟩, c⟩, d⟩; exact ⟨⟨a, b⟩, c⟩
  rw [this, mul_sum]
  refine sum_congr rfl fun i hi => ?_
  have : (∑ S ∈ (powersetCard k (range n)).filter (i ∈ ·), ∑ j ∈ S.erase i, h i * h j)
      = ∑ j ∈ (range n).erase i, ∑ S ∈ (powersetCard k (range n)).filter ({i, j} ⊆ ·), h i * h j := by
    refine sum_comm' fun S j => ?_
    simp only [mem_filter, mem_powersetCard, insert_subset_iff, singleton_subset_iff, mem_erase]
    constructor
    · rintro ⟨⟨⟨a, b⟩, c⟩, d, e⟩; exact ⟨⟨⟨a, b⟩, c, e⟩, d, a e⟩
    · rintro ⟨⟨⟨a, b⟩, c, e⟩, d, _⟩; exact ⟨⟨⟨a, b⟩, c⟩, d, e⟩
  rw [this, mul_sum]
  refine sum_congr rfl fun j hj => ?_
  have hij : i ≠ j := fun e => by simp [e] at hj
  have hc : ({i, j} : Finset Nat).card = 2 := card_pair hij
  rw [sum_const, card_filter_powersetCard_subset _ _ _ ?_ (by omega), hc, card_range]
  · simp
  · rw [insert_subset_iff, singleton_subset_iff]; exact ⟨hi, (mem_erase.1 hj).2⟩

theorem sq_sum_split (S : Finset Nat) (h : Nat → ℚ) : (∑ i ∈ S, h i) ^ 2 = ∑ i ∈ S, h i ^ 2 + ∑ i ∈ S, ∑ j ∈ S.erase i, h i * h j := by
  rw [sq, sum_mul_sum, ← sum_add_distrib]
  refine sum_congr rfl fun i hi => ?_
  rw [← add_sum_erase S _ hi, sq]

/-- The square of the sum of centred numbers, over all sets of `k` of `n` positions. -/
theorem pick_sq (h1 : 1 ≤ k) (hkn : k ≤ n) (h : Nat → ℚ) (h0 : ∑ i ∈ range n, h i = 0) :
    (∑ S ∈ powersetCard k (range n), (∑ i ∈ S, h i) ^ 2) * (n * (n - 1)) = n.choose k * (k * (n - k)) * ∑ i ∈ range n, h i ^ 2 := by
  have hoff : ∑ i ∈ range n, ∑ j ∈ (range n).erase i, h i * h j = - ∑ i ∈ range n, h i ^ 2 := by
    have := sq_sum_split (range n) h
    rw [h0] at this
    linarith
  obtain ⟨m, rfl⟩ : ∃ m, n = m + 1 := ⟨n - 1, by omega⟩
  obtain ⟨j, rfl⟩ : ∃ j, k = j + 1 := ⟨k - 1, by omega⟩
  simp only [sq_sum_split, sum_add_distrib]
  rw [pick_sum h1 hkn]
  -- C(m, j) (j+1) ... = C(m+1, j+1) (j+1)
  have e1 : ((m + 1 : ℕ) : ℚ) * (m.choose j : ℚ) = ((m + 1).choose (j + 1) : ℚ) * ((j + 1 : ℕ) : ℚ) := by
    exact_mod_cast Nat.add_one_mul_choose_eq m j
  rcases Nat.lt_or_ge j 1 with hj | hj
  · have : j = 0 := by omega
    subst this
    have : ∑ S ∈ powersetCard 1 (range (m + 1)), ∑ i ∈ S, ∑ l ∈ S.erase i, h i * h l = 0 := by
      refine sum_eq_zero fun S hS => sum_eq_zero fun i hi => ?_
      obtain ⟨a, ha⟩ := card_eq_one.1 (mem_powersetCard.1 hS).2
      subst ha
      rw [mem_singleton.1 hi]; simp
    simp only [Nat.zero_add] at *
    rw [this]
    simp
    ring
  · rw [pick_pair (by omega) hkn, hoff]
    obtain ⟨l, rfl⟩ : ∃ l, j = l + 1 := ⟨j - 1, by omega⟩
    obtain ⟨p, rfl⟩ : ∃ p, m = p + 1 := ⟨m - 1, by omega⟩
    have e2 : ((p + 1 : ℕ) : ℚ) * (p.choose l : ℚ) = ((p + 1).choose (l + 1) : ℚ) * ((l + 1 : ℕ) : ℚ) := by
      exact_mod_cast Nat.add_one_mul_choose_eq p l
    simp only [Nat.add_sub_cancel, show p + 1 + 1 - 2 = p by omega, show l + 1 + 1 - 2 = l by omega]
    push_cast at *
    generalize ((p + 1 + 1).choose (l + 1 + 1) : ℚ) = A at *
    generalize ((p + 1).choose (l + 1) : ℚ) = B at *
    generalize (p.choose l : ℚ) = C at *
    generalize ∑ i ∈ range (p + 1 + 1), h i ^ 2 = Q
    linear_combination (Q * (p + 1 - (l + 1))) * e1 - (Q * (p + 1 + 1)) * e2

end sets

/-! ### the average over the draws -/

section draws
variable (k : Nat) (v : Nat → Int64) (reads : Nat → Nat) (n : Nat)

theorem sum_by_set (T : Finset (Finset Nat)) (Φ : Finset Nat → ℚ) (g : List Nat → Finset Nat) (l : List (List Nat)) (hg : ∀ d ∈ l, g d ∈ T) :
    (l.map fun d => Φ (g d)).sum = ∑ S ∈ T, (l.countP fun d => decide (g d = S) : ℚ) * Φ S := by
  induction l with
  | nil => simp
  | cons d l ih =>
    rw [List.map_cons, List.sum_cons, ih fun d' h => hg d' (List.mem_cons_of_mem _ h)]
    simp only [List.countP_cons, Nat.cast_add, add_mul, sum_add_distrib]
    rw [add_comm]
    congr 1
    rw [sum_eq_single (g d)]
    · simp
    · intro S _ hne; simp [hne.symm]
    · intro h; exact absurd (hg d List.mem_cons_self) h

theorem positions_mem (hkn : k ≤ n) (d : List Nat) : (positions k v reads d n).toFinset ∈ powersetCard k (range n) := by
  obtain ⟨h1, h2, h3⟩ := positions_inv k v reads d n
  rw [mem_powersetCard]
  refine ⟨fun i hi => ?_, by rw [List.toFinset_card_of_nodup h2, h1]; omega⟩
  rw [List.mem_toFinset] at hi; simpa using h3 i hi

theorem average_positions (hkn : k ≤ n) (Φ : Finset Nat → ℚ) :
    average (allDraws n) (fun d => Φ (positions k v reads d n).toFinset) = (∑ S ∈ powersetCard k (range n), Φ S) / n.choose k := by
  unfold average
  rw [sum_by_set (powersetCard k (range n)) Φ _ _ fun d _ => positions_mem k v reads n hkn d, allDraws_length]
  have : ∀ S ∈ powersetCard k (range n), ((allDraws n).countP (fun d => decide ((positions k v reads d n).toFinset = S)) : ℚ) * Φ S
      = (k.factorial * (n - k).factorial : ℕ) * Φ S := by
    intro S hS
    rw [mem_powersetCard] at hS
    rw [← outcomes_eq k v reads n hkn S hS.2 hS.1]; rfl
  rw [sum_congr rfl this, ← mul_sum, ← Nat.choose_mul_factorial_mul_factorial hkn]
  have h1 : (k.factorial : ℚ) ≠ 0 := by exact_mod_cast k.factorial_ne_zero
  have h2 : ((n - k).factorial : ℚ) ≠ 0 := by exact_mod_cast (n - k).factorial_ne_zero
  have h3 : (n.choose k : ℚ) ≠ 0 := by exact_mod_cast (Nat.choose_pos hkn).ne'
  push_cast
  field_simp

theorem fed_eq (hn : n < 2 ^ 63) {d : List Nat} (hd : d ∈ allDraws n) :
    ∃ s, fed k v reads n d = .ok s ∧ s.values = (positions k v reads d n).map v := by
  obtain ⟨s0, h0, hi⟩ := uniform_new_inv k
  obtain ⟨s, h1, h2, _⟩ := model_positions hi v reads d n hn (mem_allDraws.1 hd).2
  exact ⟨s, by unfold fed; rw [h0]; exact h1, h2⟩

theorem average_congr {α : Type} {l : List α} {f g : α → ℚ} (h : ∀ a ∈ l, f a = g a) : average l f = average l g := by
  unfold average; rw [List.map_congr_left h]

theorem chance_congr {α : Type} {l : List α} {p q : α → Bool} (h : ∀ a ∈ l, p a = q a) : chance l p = chance l q := by
  unfold chance; rw [List.countP_congr fun a ha => by rw [h a ha]]

theorem average_mono {α : Type} {l : List α} {f g : α → ℚ} (h : ∀ a ∈ l, f a ≤ g a) : average l f ≤ average l g := by
  unfold average
  exact div_le_div_of_nonneg_right (List.sum_le_sum h) (Nat.cast_nonneg _)

theorem chance_mono {α : Type} {l : List α} {p q : α → Bool} (h : ∀ a ∈ l, p a = true → q a = true) : chance l p ≤ chance l q := by
  unfold chance
  exact div_le_div_of_nonneg_right (by exact_mod_cast List.countP_mono_left h) (Nat.cast_nonneg _)

/-- Chebyshev: large squares are rare. -/
theorem chance_le {α : Type} (l : List α) (f : α → ℚ) (ε : ℚ) (hε : 0 < ε) :
    chance l (fun a => decide (ε ≤ |f a|)) * ε ^ 2 ≤ average l fun a => f a ^ 2 := by
  unfold chance average
  rw [div_mul_eq_mul_div]
  refine div_le_div_of_nonneg_right ?_ (Nat.cast_nonneg _)
  induction l with
  | nil => simp
  | cons a l ih =>
    rw [List.countP_cons, List.map_cons, List.sum_cons, Nat.cast_add, add_mul, add_comm]
    refine add_le_add ?_ ih
    by_cases h : ε ≤ |f a|
    · simp only [h, decide_true, if_true, Nat.cast_one, one_mul]
      rw [← sq_abs (f a)]
      exact pow_le_pow_left₀ hε.le h 2
    · simp only [h, decide_false, Bool.false_eq_true, if_false, Nat.cast_zero, zero_mul]
      exact sq_nonneg _

/-! ### the mean of any quantity over the retained positions -/

/-- Mean over the first `n` positions. -/
def gMean (g : Nat → ℚ) (n : Nat) : ℚ := (∑ i ∈ range n, g i) / n

/-- Variance over the first `n` positions. -/
def gVar (g : Nat → ℚ) (n : Nat) : ℚ := (∑ i ∈ range n, (g i - gMean g n) ^ 2) / n

theorem pick_mean (h1 : 1 ≤ k) (hkn : k ≤ n) (g : Nat → ℚ) :
    average (allDraws n) (fun d => (∑ i ∈ (positions k v reads d n).toFinset, g i) / k) = gMean g n := by
  rw [average_positions k v reads n hkn fun S => (∑ i ∈ S, g i) / k, ← sum_div, pick_sum h1 hkn]
  obtain ⟨m, rfl⟩ : ∃ m, n = m + 1 := ⟨n - 1, by omega⟩
  obtain ⟨j, rfl⟩ : ∃ j, k = j + 1 := ⟨k - 1, by omega⟩
  have e1 : ((m + 1 : ℕ) : ℚ) * (m.choose j : ℚ) = ((m + 1).choose (j + 1) : ℚ) * ((j + 1 : ℕ) : ℚ) := by
    exact_mod_cast Nat.add_one_mul_choose_eq m j
  have h3 : (((m + 1).choose (j + 1) : ℕ) : ℚ) ≠ 0 := by exact_mod_cast (Nat.choose_pos hkn).ne'
  have h4 : ((m + 1 : ℕ) : ℚ) ≠ 0 := by exact_mod_cast Nat.succ_ne_zero m
  have h5 : ((j + 1 : ℕ) : ℚ) ≠ 0 := by exact_mod_cast Nat.succ_ne_zero j
  unfold gMean
  simp only [Nat.add_sub_cancel]
  field_simp
  linear_combination (∑ i ∈ range (m + 1), g i) * e1

theorem pick_error (h1 : 1 ≤ k) (hkn : k ≤ n) (g : Nat → ℚ) :
    average (allDraws n) (fun d => ((∑ i ∈ (positions k v reads d n).toFinset, g i) / k - gMean g n) ^ 2) * (k * (n - 1))
      = gVar g n * (n - k) := by
  have hk0 : (k : ℚ) ≠ 0 := by exact_mod_cast (by omega : k ≠ 0)
  have hn0 : (n : ℚ) ≠ 0 := by exact_mod_cast (by omega : n ≠ 0)
  have hC : (n.choose k : ℚ) ≠ 0 := by exact_mod_cast (Nat.choose_pos hkn).ne'
  have hcent : ∑ i ∈ range n, (g i - gMean g n) = 0 := by
    rw [sum_sub_distrib, sum_const, card_range, gMean, nsmul_eq_mul]
    field_simp
    ring
  rw [average_positions k v reads n hkn fun S => ((∑ i ∈ S, g i) / k - gMean g n) ^ 2]
  have hS : ∀ S ∈ powersetCard k (range n), ((∑ i ∈ S, g i) / k - gMean g n) ^ 2 = (∑ i ∈ S, (g i - gMean g n)) ^ 2 / k ^ 2 := by
    intro S hS
    rw [sum_sub_distrib, sum_const, (mem_powersetCard.1 hS).2, nsmul_eq_mul]
    field_simp
  rw [sum_congr rfl hS, ← sum_div]
  have := pick_sq h1 hkn (fun i => g i - gMean g n) hcent
  unfold gVar
  field_simp
  linear_combination this

theorem gVar_nonneg (g : Nat → ℚ) : 0 ≤ gVar g n := div_nonneg (sum_nonneg fun i _ => sq_nonneg _) (Nat.cast_nonneg _)

theorem pick_error_le (h1 : 1 ≤ k) (hkn : k ≤ n) (g : Nat → ℚ) :
    average (allDraws n) (fun d => ((∑ i ∈ (positions k v reads d n).toFinset, g i) / k - gMean g n) ^ 2) * k ≤ gVar g n := by
  have hk1 : (1 : ℚ) ≤ k := by exact_mod_cast h1
  have hkq : (k : ℚ) ≤ n := by exact_mod_cast hkn
  rcases Nat.lt_or_ge 1 n with h | h
  · have he := pick_error k v reads n h1 hkn g
    have hv := gVar_nonneg n g
    have hnq : (1 : ℚ) < n := by exact_mod_cast h
    refine le_of_mul_le_mul_right ?_ (by linarith : (0 : ℚ) < n - 1)
    rw [mul_assoc, he]
    exact mul_le_mul_of_nonneg_left (by linarith) hv
  · have : n = 1 := by omega
    subst this
    have : k = 1 := by omega
    subst this
    rw [average_positions 1 v reads 1 hkn fun S => ((∑ i ∈ S, g i) / ((1 : ℕ) : ℚ) - gMean g 1) ^ 2]
    have hp : powersetCard 1 (range 1) = {range 1} := by
      have := powersetCard_self (range 1); simpa using this
    rw [hp, sum_singleton]
    simp [gMean, gVar]

/-- The variance of a yes-or-no quantity. -/
theorem gVar_bool (c : Nat → Bool) : gVar (fun i => if c i = true then 1 else 0) n ≤ 1 / 4 := by
  rcases Nat.eq_zero_or_pos n with rfl | hn
  · simp [gVar]
  have hn0 : (n : ℚ) ≠ 0 := by exact_mod_cast hn.ne'
  set f := gMean (fun i => if c i = true then 1 else 0) n with hf
  have hs : ∑ i ∈ range n, (if c i = true then (1 : ℚ) else 0) = f * n := by rw [hf, gMean]; field_simp
  have : gVar (fun i => if c i = true then 1 else 0) n = f - f ^ 2 := by
    unfold gVar
    rw [← hf]
    have : ∀ i ∈ range n, ((if c i = true then (1 : ℚ) else 0) - f) ^ 2 = (if c i = true then (1 : ℚ) else 0) * (1 - 2 * f) + f ^ 2 := by
      intro i _; split <;> ring
    rw [sum_congr rfl this, sum_add_distrib, ← sum_mul, hs, sum_const, card_range, nsmul_eq_mul]
    field_simp
    ring
  rw [this]
  nlinarith [sq_nonneg (f - 1 / 2)]

end draws

/-! ### percentiles and ranks -/

theorem countP_le_of_sorted {xs : List Int64} (hs : xs.Pairwise (· ≤ ·)) (c : Int64 → Bool)
    (hc : ∀ a b : Int64, a ≤ b → c b = true → c a = true) {j : Nat} (hj : j < xs.length) (hx : c xs[j] = false) : xs.countP c ≤ j := by
  rw [← List.take_append_drop j xs, List.countP_append]
  have h1 : (xs.take j).countP c ≤ j := List.countP_le_length.trans (by simp)
  have h2 : (xs.drop j).countP c = 0 := by
    rw [List.countP_eq_zero]
    intro a ha hca
    rw [List.mem_drop_iff_getElem] at ha
    obtain ⟨i, hi, rfl⟩ := ha
    have := hc xs[j] xs[j + i] (i64_le.2 (sorted_get hs (Nat.le_add_right j i) (by omega))) hca
    rw [hx] at this; cases this
  omega

theorem countP_ge_of_sorted {xs : List Int64} (hs : xs.Pairwise (· ≤ ·)) (c : Int64 → Bool)
    (hc : ∀ a b : Int64, a ≤ b → c a = true → c b = true) {j : Nat} (hj : j < xs.length) (hx : c xs[j] = false) :
    xs.countP c + (j + 1) ≤ xs.length := by
  have e : xs.countP c = (xs.take (j + 1)).countP c + (xs.drop (j + 1)).countP c := by
    rw [← List.countP_append, List.take_append_drop]
  have h1 : (xs.drop (j + 1)).countP c ≤ xs.length - (j + 1) := List.countP_le_length.trans (by simp)
  have h2 : (xs.take (j + 1)).countP c = 0 := by
    rw [List.countP_eq_zero]
    intro a ha hca
    rw [List.mem_take_iff_getElem] at ha
    obtain ⟨i, hi, rfl⟩ := ha
    have := hc xs[i] xs[j] (i64_le.2 (sorted_get hs (by omega) hj)) hca
    rw [hx] at this; cases this
  omega

/-- The rank of a percentile: few values lie below a number it exceeds, few above a number it does not reach. -/
theorem percentile_rank (vs : List Int64) (h : 0 < vs.length) (p : ℚ) (hp0 : 0 ≤ p) (hp1 : p ≤ 1) :
    ∃ s, samplePercentiles vs [p] = .ok ([s], sortInts vs) ∧
      (∀ x : ℚ, x < s → (vs.countP (fun w => decide ((w.toInt : ℚ) ≤ x)) : ℚ) ≤ p * (vs.length + 1)) ∧
      (∀ x : ℚ, s < x → (vs.countP (fun w => decide (x ≤ (w.toInt : ℚ))) : ℚ) ≤ (1 - p) * (vs.length + 1)) := by
  have hl := sortInts_length vs
  have hs := sortInts_sorted vs
  have hcnt : ∀ c : Int64 → Bool, vs.countP c = (sortInts vs).countP c := fun c => ((sortInts_perm vs).countP_eq c).symm
  have batch : ∀ s, percentileSorted (sortInts vs) p = .ok s → samplePercentiles vs [p] = .ok ([s], sortInts vs) := by
    intro s e
    unfold samplePercentiles
    rw [if_pos h]
    simp [e, bind, Except.bind, pure, Except.pure]
  generalize hxs : sortInts vs = xs at *
  rw [← hl] at h ⊢
  simp only [hcnt]
  have up : ∀ x : ℚ, ∀ j (hj : j < xs.length), x < ((xs[j].toInt : ℤ) : ℚ) → xs.countP (fun w => decide ((w.toInt : ℚ) ≤ x)) ≤ j := by
    intro x j hj hx
    refine countP_le_of_sorted hs _ (fun a b hab hb => ?_) hj (by simpa using hx)
    have hab' : ((a.toInt : ℤ) : ℚ) ≤ ((b.toInt : ℤ) : ℚ) := by exact_mod_cast i64_le.1 hab
    simp only [decide_eq_true_eq] at hb ⊢; linarith
  have dn : ∀ x : ℚ, ∀ j (hj : j < xs.length), ((xs[j].toInt : ℤ) : ℚ) < x → xs.countP (fun w => decide (x ≤ (w.toInt : ℚ))) + (j + 1) ≤ xs.length := by
    intro x j hj hx
    refine countP_ge_of_sorted hs _ (fun a b hab hb => ?_) hj (by simpa using hx)
    have hab' : ((a.toInt : ℤ) : ℚ) ≤ ((b.toInt : ℤ) : ℚ) := by exact_mod_cast i64_le.1 hab
    simp only [decide_eq_true_eq] at hb ⊢; linarith
  have hmq : (1 : ℚ) ≤ xs.length := by exact_mod_cast h
  rcases rank_cases xs.length h (p * (xs.length + 1)) with c1 | c1 | ⟨k, c1, c2, c3, c4⟩
  · refine ⟨_, batch _ (percentileSorted_exact_lo xs p h c1), fun x hx => ?_, fun x hx => ?_⟩
    · have := up x 0 h hx
      have hz : xs.countP (fun w => decide ((w.toInt : ℚ) ≤ x)) = 0 := by omega
      rw [hz]; push_cast; positivity
    · have := dn x 0 h hx
      have : ((xs.countP (fun w => decide (x ≤ (w.toInt : ℚ))) : ℕ) : ℚ) + 1 ≤ xs.length := by exact_mod_cast (by omega)
      linarith
  · refine ⟨_, batch _ (percentileSorted_exact_hi xs p h c1), fun x hx => ?_, fun x hx => ?_⟩
    · have := up x (xs.length - 1) (by omega) hx
      have : ((xs.countP (fun w => decide ((w.toInt : ℚ) ≤ x)) : ℕ) : ℚ) + 1 ≤ xs.length := by exact_mod_cast (by omega)
      linarith
    · have := dn x (xs.length - 1) (by omega) hx
      have hz : xs.countP (fun w => decide (x ≤ (w.toInt : ℚ))) = 0 := by omega
      rw [hz]; push_cast
      exact mul_nonneg (by linarith) (by linarith)
  · have hlo : ((xs[k - 1].toInt : ℤ) : ℚ) ≤ ((xs[k].toInt : ℤ) : ℚ) := by exact_mod_cast sorted_get hs (by omega) c2
    refine ⟨_, batch _ (percentileSorted_exact_mid xs p k c1 c2 c3 c4), fun x hx => ?_, fun x hx => ?_⟩
    · have := up x k c2 (lt_of_lt_of_le hx (by nlinarith))
      have : ((xs.countP (fun w => decide ((w.toInt : ℚ) ≤ x)) : ℕ) : ℚ) ≤ k := by exact_mod_cast this
      linarith
    · have := dn x (k - 1) (by omega) (lt_of_le_of_lt (by nlinarith) hx)
      have : ((xs.countP (fun w => decide (x ≤ (w.toInt : ℚ))) : ℕ) : ℚ) + k ≤ xs.length := by exact_mod_cast (by omega)
      linarith


end GoMetrics
