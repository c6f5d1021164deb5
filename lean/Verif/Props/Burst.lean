import Verif.Lemmas.Burst
import Verif.Props.Stats

/-!
C118. Updates of equal weight (all at the same time, or alpha = 0) of an exponentially decaying sample: the sample is the newest value and a simple random sample of the earlier ones. Exact real arithmetic.
-/

namespace GoMetrics
open Spec MeasureTheory

section
variable {n : Nat} (k : Nat) (hk : 0 < k) (alpha : ℝ) (now : Instant) (pre : List (ExpOp ℝ)) (hpre : expGiven pre = []) (s0 : ExpDecaySample ℝ)
  (hnew : ExpDecaySample.new k alpha now = .ok s0) (lo : Int) (hnow : lo ≤ now ∧ now ≤ lo + maxInt64)
  (htpre : ∀ o ∈ pre, match o with | .update t _ _ => lo ≤ t ∧ t ≤ lo + maxInt64 | .clear t => lo ≤ t ∧ t ≤ lo + maxInt64)
  (t : Fin (n + 1) → Instant) (ht : ∀ a, lo ≤ t a ∧ t a ≤ lo + maxInt64) (v : Fin (n + 1) → Int64) (heq : alpha = 0 ∨ ∀ a b : Fin n, t a.castSucc = t b.castSucc)
include hk hpre hnew hnow htpre ht heq

private theorem held_ae : ∀ᵐ u ∂uniformDraws (n + 1), ∃ B ∈ Finset.powersetCard (min (k - 1) n) (Finset.univ : Finset (Fin n)), u ∈ smallest B ∧ (heldValues s0 pre t v u : Multiset Int64) = withNewest v B := by
  have hw : ∀ a b : Fin n, wt alpha t a.castSucc = wt alpha t b.castSucc := by
    intro a b
    rcases heq with rfl | h
    · simp [wt]
    · simp [wt, h a b]
  filter_upwards [draws_distinct (n + 1)] with u hu
  obtain ⟨B, hB, hs⟩ := smallest_exists (Nat.min_le_right (k - 1) n) (u := u) fun a b hab => hu.2 _ _ fun h => hab (Fin.castSucc_injective n h)
  exact ⟨B, Finset.mem_powersetCard.2 ⟨Finset.subset_univ _, hB⟩, hs, held_smallest k hk alpha now pre hpre s0 hnew lo hnow htpre t ht v hw u hu hB hs⟩

omit hk hpre hnew hnow htpre ht heq in
private theorem smallest_one {B C : Finset (Fin n)} (hB : B ∈ Finset.powersetCard (min (k - 1) n) (Finset.univ : Finset (Fin n))) (hC : C ∈ Finset.powersetCard (min (k - 1) n) (Finset.univ : Finset (Fin n)))
    {u : Fin (n + 1) → ℝ} (hu : u ∈ smallest B) (hu' : u ∈ smallest C) : B = C :=
  smallest_unique ((Finset.mem_powersetCard.1 hB).2.trans (Finset.mem_powersetCard.1 hC).2.symm) (fun a ha b hb => (hu a ha b hb).le) hu'

/-- **C118, the distribution.** Whatever is asked about the values held (`P`), its probability is the share of the sets of `min (k-1) n` earlier updates for which the newest value and theirs meet it: the sample is the newest
value and a simple random sample, without replacement, of the earlier ones. -/
theorem C118_distribution (P : Multiset Int64 → Prop) [DecidablePred P] :
    uniformDraws (n + 1) {u | P (heldValues s0 pre t v u)} =
      (((Finset.powersetCard (min (k - 1) n) (Finset.univ : Finset (Fin n))).filter fun B => P (withNewest v B)).card : ENNReal) / (n.choose (min (k - 1) n) : ENNReal) := by
  classical
  have hae : {u | P (heldValues s0 pre t v u)} =ᵐ[uniformDraws (n + 1)]
      ⋃ B ∈ (Finset.powersetCard (min (k - 1) n) (Finset.univ : Finset (Fin n))).filter fun B => P (withNewest v B), smallest B := by
    filter_upwards [held_ae k hk alpha now pre hpre s0 hnew lo hnow htpre t ht v heq] with u hu
    obtain ⟨B, hB, hs, hh⟩ := hu
    refine propext ⟨fun h => ?_, fun h => ?_⟩
    · have h : P (heldValues s0 pre t v u) := h
      rw [hh] at h
      exact Set.mem_biUnion (by simpa using ⟨(Finset.mem_powersetCard.1 hB).2, h⟩) hs
    · obtain ⟨C, hC, hs'⟩ := Set.mem_iUnion₂.1 h
      rw [Finset.mem_filter] at hC
      have hBC := smallest_one k hB hC.1 hs hs'
      show P (heldValues s0 pre t v u)
      rw [hh, hBC]
      exact hC.2
  rw [measure_congr hae, measure_biUnion_finset ?_ fun C _ => smallest_measurable C, Finset.sum_congr rfl fun C hC => by
    rw [smallest_prob, (Finset.mem_powersetCard.1 (Finset.mem_filter.1 hC).1).2], Finset.sum_const, nsmul_eq_mul, mul_one_div]
  intro C hC D hD hne
  exact smallest_disjoint (((Finset.mem_powersetCard.1 (Finset.mem_filter.1 hC).1).2).trans (Finset.mem_powersetCard.1 (Finset.mem_filter.1 hD).1).2.symm) hne

/-- **C118, averages.** The expected value of any statistic of the values held is its average over the sets of `min (k-1) n` earlier updates, taken together with the newest. -/
theorem C118_average (Φ : Multiset Int64 → ℝ) :
    ∫ u, Φ (heldValues s0 pre t v u) ∂uniformDraws (n + 1) = (∑ B ∈ Finset.powersetCard (min (k - 1) n) (Finset.univ : Finset (Fin n)), Φ (withNewest v B)) / n.choose (min (k - 1) n) := by
  classical
  have hae : (fun u => Φ (heldValues s0 pre t v u)) =ᵐ[uniformDraws (n + 1)]
      fun u => ∑ B ∈ Finset.powersetCard (min (k - 1) n) (Finset.univ : Finset (Fin n)), (smallest B).indicator (fun _ => Φ (withNewest v B)) u := by
    filter_upwards [held_ae k hk alpha now pre hpre s0 hnew lo hnow htpre t ht v heq] with u hu
    obtain ⟨B, hB, hs, hh⟩ := hu
    rw [hh, Finset.sum_eq_single B]
    · rw [Set.indicator_of_mem hs]
    · intro C hC hne
      exact Set.indicator_of_notMem (fun h => hne (smallest_one k hC hB h hs)) _
    · intro h; exact absurd hB h
  rw [integral_congr_ae hae, integral_finsetSum _ fun B _ => (integrable_const _).indicator (smallest_measurable B), Finset.sum_div]
  refine Finset.sum_congr rfl fun B hB => ?_
  rw [integral_indicator_const _ (smallest_measurable B), measureReal_def, smallest_prob, (Finset.mem_powersetCard.1 hB).2]
  simp [div_eq_inv_mul]

omit hk hpre hnew hnow htpre ht heq in
private theorem share {m : Nat} (hn : 0 < n) (hm : 0 < m) (hmn : m ≤ n) : ((n - 1).choose (m - 1) : ℝ) / n.choose m = m / n := by
  obtain ⟨n, rfl⟩ : ∃ j, n = j + 1 := ⟨n - 1, by omega⟩
  obtain ⟨m, rfl⟩ : ∃ j, m = j + 1 := ⟨m - 1, by omega⟩
  have h := Nat.add_one_mul_choose_eq n m
  have hp : (0 : ℝ) < (n + 1).choose (m + 1) := by exact_mod_cast Nat.choose_pos hmn
  rw [div_eq_div_iff hp.ne' (by positivity)]
  have h' : ((n + 1 : ℕ) : ℝ) * n.choose m = (n + 1).choose (m + 1) * ((m + 1 : ℕ) : ℝ) := by exact_mod_cast h
  simp only [Nat.add_sub_cancel]
  linarith

omit hk hpre hnew hnow htpre ht heq in
private theorem sum_sets (m : Nat) (hn : 0 < n) (hmn : m ≤ n) (h : Fin n → ℝ) :
    (∑ B ∈ Finset.powersetCard m (Finset.univ : Finset (Fin n)), ∑ a ∈ B, h a) / n.choose m = m / n * ∑ a, h a := by
  classical
  rcases Nat.eq_zero_or_pos m with rfl | hm
  · simp
  have : (∑ B ∈ Finset.powersetCard m (Finset.univ : Finset (Fin n)), ∑ a ∈ B, h a) = ∑ a : Fin n, ∑ B ∈ (Finset.powersetCard m Finset.univ).filter ({a} ⊆ ·), h a := by
    refine Finset.sum_comm' fun B a => ?_
    simp
  rw [this, Finset.sum_congr rfl fun a _ => by
    rw [Finset.sum_const, Finset.card_filter_powersetCard_subset _ _ _ (by simp) (by simpa using Nat.succ_le_of_lt hm)], ← share hn hm hmn]
  simp only [Finset.card_singleton, Finset.card_univ, Fintype.card_fin, nsmul_eq_mul]
  rw [← Finset.mul_sum]
  ring

/-- **C118, chances.** Different values: the newest is held for sure, every other one with probability `min (k-1) n / n`. -/
theorem C118_chance (hv : Function.Injective v) : uniformDraws (n + 1) {u | v (Fin.last n) ∈ heldValues s0 pre t v u} = 1 ∧
    ∀ a : Fin n, (uniformDraws (n + 1)).real {u | v a.castSucc ∈ heldValues s0 pre t v u} = min (k - 1) n / n := by
  classical
  have hmem : ∀ x, {u | x ∈ heldValues s0 pre t v u} = {u | x ∈ (heldValues s0 pre t v u : Multiset Int64)} := fun x => by simp
  constructor
  · rw [hmem, C118_distribution k hk alpha now pre hpre s0 hnew lo hnow htpre t ht v heq (fun M => v (Fin.last n) ∈ M)]
    rw [Finset.filter_true_of_mem fun B _ => by simp [withNewest], Finset.card_powersetCard, Finset.card_univ, Fintype.card_fin]
    exact ENNReal.div_self (by exact_mod_cast (Nat.choose_pos (Nat.min_le_right (k - 1) n)).ne') (by simp)
  · intro a
    have hn : 0 < n := Fin.pos a
    have hmn := Nat.min_le_right (k - 1) n
    rw [hmem, measureReal_def, C118_distribution k hk alpha now pre hpre s0 hnew lo hnow htpre t ht v heq (fun M => v a.castSucc ∈ M)]
    have hf : ((Finset.powersetCard (min (k - 1) n) (Finset.univ : Finset (Fin n))).filter fun B => v a.castSucc ∈ withNewest v B) =
        (Finset.powersetCard (min (k - 1) n) (Finset.univ : Finset (Fin n))).filter ({a} ⊆ ·) := by
      refine Finset.filter_congr fun B _ => ?_
      have hne : v a.castSucc ≠ v (Fin.last n) := fun h => (Fin.castSucc_lt_last a).ne (hv h)
      simp only [withNewest, Multiset.mem_cons, hne, false_or, Multiset.mem_map, Finset.mem_val, Finset.singleton_subset_iff]
      exact ⟨fun ⟨b, hb, h⟩ => Fin.castSucc_injective n (hv h) ▸ hb, fun h => ⟨a, h, rfl⟩⟩
    rw [hf]
    rcases Nat.eq_zero_or_pos (min (k - 1) n) with h0 | hm
    · have h1 : k = 1 := by omega
      subst h1
      simp
    · rw [Finset.card_filter_powersetCard_subset _ _ _ (by simp) (by rw [Finset.card_singleton]; exact hm)]
      simp only [Finset.card_singleton, Finset.card_univ, Fintype.card_fin, ENNReal.toReal_div, ENNReal.toReal_natCast]
      rw [share hn hm hmn]

omit hk hpre hnew hnow htpre ht heq in
private theorem mean_of (hk : 0 < k) (hkn : k ≤ n) (hfit : ∀ a, k * |(v a).toInt| < 2 ^ 63) {B : Finset (Fin n)} (hB : B ∈ Finset.powersetCard (min (k - 1) n) (Finset.univ : Finset (Fin n))) {l : List Int64}
    (hl : (l : Multiset Int64) = withNewest v B) : (sampleMean l : ℝ) = ((v (Fin.last n)).toInt + ∑ a ∈ B, ((v a.castSucc).toInt : ℝ)) / k := by
  have hmin : min (k - 1) n = k - 1 := by omega
  have hc : B.card = k - 1 := hmin ▸ (Finset.mem_powersetCard.1 hB).2
  have hlen : l.length = k := by
    have := congrArg Multiset.card hl
    simp only [Multiset.coe_card, withNewest, Multiset.card_cons, Multiset.card_map, Finset.card_val, hc] at this
    omega
  have htot : (total l : ℝ) = (v (Fin.last n)).toInt + ∑ a ∈ B, ((v a.castSucc).toInt : ℝ) := by
    have := congrArg (fun M : Multiset Int64 => (M.map Int64.toInt).sum) hl
    simp only [Multiset.map_coe, Multiset.sum_coe, withNewest, Multiset.map_cons, Multiset.sum_cons, Multiset.map_map] at this
    rw [total, this]
    push_cast
    rw [Multiset.map_map]
    rfl
  have hmem : ∀ x ∈ l, k * |x.toInt| < 2 ^ 63 := by
    intro x hx
    have : x ∈ withNewest v B := hl ▸ Multiset.mem_coe.2 hx
    simp only [withNewest, Multiset.mem_cons, Multiset.mem_map] at this
    rcases this with rfl | ⟨a, -, rfl⟩
    · exact hfit _
    · exact hfit _
  have key : ∀ l : List Int64, (∀ x ∈ l, k * |x.toInt| < 2 ^ 63) → k * |total l| ≤ l.length * (2 ^ 63 - 1) := by
    intro l
    induction l with
    | nil => simp [total]
    | cons x l ih =>
      intro h
      have h1 := ih fun y hy => h y (List.mem_cons_of_mem _ hy)
      have h2 := h x List.mem_cons_self
      have h3 : total (x :: l) = x.toInt + total l := by simp [total]
      have h4 := mul_le_mul_of_nonneg_left (abs_add_le x.toInt (total l)) (Int.natCast_nonneg k)
      rw [h3, List.length_cons]
      push_cast
      nlinarith
  have hfits : SumFits l := by
    have h1 := key l hmem
    rw [hlen] at h1
    have h2 := le_of_mul_le_mul_left h1 (by exact_mod_cast hk)
    rw [abs_le] at h2
    exact ⟨by omega, by omega⟩
  unfold sampleMean
  rw [if_neg (by omega), C11_sum_exact l hfits, ← htot, hlen]
  simp

/-- **C118, the mean.** If more values were given than fit, the expected mean of the sample is off the mean of all values given by (newest - mean of the earlier ones) * (1/k - 1/number of values): the newest counts for too much. -/
theorem C118_mean (hkn : k ≤ n) (hfit : ∀ a, k * |(v a).toInt| < 2 ^ 63) :
    ∫ u, sampleMean (heldValues s0 pre t v u) ∂uniformDraws (n + 1) =
      givenMean v + ((v (Fin.last n)).toInt - givenMean fun a : Fin n => v a.castSucc) * (1 / k - 1 / (n + 1)) := by
  classical
  have hn : 0 < n := by omega
  have hmin : min (k - 1) n = k - 1 := by omega
  have hae : (fun u => (sampleMean (heldValues s0 pre t v u) : ℝ)) =ᵐ[uniformDraws (n + 1)]
      fun u => (fun M : Multiset Int64 => (M.map fun x => (x.toInt : ℝ)).sum / k) (heldValues s0 pre t v u) := by
    filter_upwards [held_ae k hk alpha now pre hpre s0 hnew lo hnow htpre t ht v heq] with u hu
    obtain ⟨B, hB, -, hh⟩ := hu
    rw [mean_of k v hk hkn hfit hB hh]
    simp only [hh, withNewest, Multiset.map_cons, Multiset.sum_cons, Multiset.map_map]
    rfl
  rw [integral_congr_ae hae, C118_average k hk alpha now pre hpre s0 hnew lo hnow htpre t ht v heq fun M : Multiset Int64 => (M.map fun x => (x.toInt : ℝ)).sum / k]
  have hsum : ∀ B : Finset (Fin n), (fun M : Multiset Int64 => (M.map fun x => (x.toInt : ℝ)).sum / k) (withNewest v B) =
      ((v (Fin.last n)).toInt : ℝ) / k + (∑ a ∈ B, ((v a.castSucc).toInt : ℝ)) / k := by
    intro B
    simp only [withNewest, Multiset.map_cons, Multiset.sum_cons, Multiset.map_map, add_div]
    rfl
  have hpos : (0 : ℝ) < n.choose (min (k - 1) n) := by exact_mod_cast Nat.choose_pos (Nat.min_le_right (k - 1) n)
  have hk0 : (0 : ℝ) < k := by exact_mod_cast hk
  have hn0 : (0 : ℝ) < n := by exact_mod_cast hn
  have hs := sum_sets (min (k - 1) n) hn (Nat.min_le_right (k - 1) n) fun a => ((v a.castSucc).toInt : ℝ)
  rw [Finset.sum_congr rfl fun B _ => hsum B, Finset.sum_add_distrib, Finset.sum_const, Finset.card_powersetCard, Finset.card_univ, Fintype.card_fin, nsmul_eq_mul, ← Finset.sum_div, add_div,
    mul_div_cancel_left₀ _ hpos.ne', div_right_comm, hs, hmin, givenMean, givenMean, Fin.sum_univ_castSucc]
  push_cast [Nat.cast_sub (show 1 ≤ k from hk)]
  field_simp
  ring

/-- **C118, against the plain claim** that without decay the sample is a uniform one, in which each of the `n+1` values is held with probability `k/(n+1)`: as soon as one value does not fit, no value is. -/
theorem C118_refuted (hkn : k ≤ n) (hv : Function.Injective v) : ∀ a, (uniformDraws (n + 1)).real {u | v a ∈ heldValues s0 pre t v u} ≠ k / (n + 1) := by
  obtain ⟨h1, h2⟩ := C118_chance k hk alpha now pre hpre s0 hnew lo hnow htpre t ht v heq hv
  have hn0 : (0 : ℝ) < n := by exact_mod_cast lt_of_lt_of_le hk hkn
  have hkn' : (k : ℝ) ≤ n := by exact_mod_cast hkn
  intro a
  rcases Fin.eq_castSucc_or_eq_last a with ⟨a, rfl⟩ | rfl
  · rw [h2, min_eq_left (by omega)]
    push_cast [Nat.cast_sub (show 1 ≤ k from hk)]
    refine ne_of_lt ?_
    rw [div_lt_div_iff₀ hn0 (by linarith)]
    nlinarith
  · rw [measureReal_def, h1, ENNReal.toReal_one]
    refine ne_of_gt ?_
    rw [div_lt_one (by linarith)]
    linarith

end

/-- Three values recorded at once in a reservoir for two: the first two are held with probability 1/2 each, and the mean of the sample is 22.5 on average where the mean of the values is 20. -/
example : ∃ s0 : ExpDecaySample ℝ, ExpDecaySample.new 2 0.015 0 = .ok s0 ∧ uniformDraws 3 {u | 30 ∈ heldValues s0 [] ![5, 5, 5] ![10, 20, 30] u} = 1 ∧
    (uniformDraws 3).real {u | 10 ∈ heldValues s0 [] ![5, 5, 5] ![10, 20, 30] u} = 1 / 2 ∧
    ∫ u, sampleMean (heldValues s0 [] ![5, 5, 5] ![10, 20, 30] u) ∂uniformDraws 3 = (45 / 2 : ℝ) ∧ givenMean ![10, 20, 30] = 20 := by
  obtain ⟨s0, e0, -⟩ := ExpDecaySample.new_shape (F := ℝ) 2 0.015 0
  have heq : (0.015 : ℝ) = 0 ∨ ∀ a b : Fin 2, (![5, 5, 5] : Fin 3 → Instant) a.castSucc = (![5, 5, 5] : Fin 3 → Instant) b.castSucc := .inr (by decide)
  have h10 : Int64.toInt 10 = 10 := by decide
  have h20 : Int64.toInt 20 = 20 := by decide
  have h30 : Int64.toInt 30 = 30 := by decide
  have hg : givenMean ![10, 20, 30] = 20 := by
    simp only [givenMean, Fin.sum_univ_three, Matrix.cons_val_zero, Matrix.cons_val_one, Matrix.cons_val_two]
    norm_num [h10, h20, h30]
  have hg2 : givenMean (fun a : Fin 2 => (![10, 20, 30] : Fin 3 → Int64) a.castSucc) = 15 := by
    simp only [givenMean, Fin.sum_univ_two]
    norm_num [h10, h20]
  have hc := C118_chance (n := 2) 2 (by decide) 0.015 0 [] (by simp [expGiven]) s0 e0 0 (by decide) (by simp) ![5, 5, 5] (by decide) ![10, 20, 30] heq (by decide)
  refine ⟨s0, e0, hc.1, ?_, ?_, hg⟩
  · have := hc.2 0
    norm_num at this
    simpa using this
  · have := C118_mean (n := 2) 2 (by decide) 0.015 0 [] (by simp [expGiven]) s0 e0 0 (by decide) (by simp) ![5, 5, 5] (by decide) ![10, 20, 30] heq (by decide) (by decide)
    rw [hg, hg2] at this
    rw [this]
    have : ((![10, 20, 30] : Fin 3 → Int64) (Fin.last 2)).toInt = 30 := by decide
    rw [this]
    norm_num

end GoMetrics
