import Verif.Lemmas.Recency

/-!
C76. An exponentially decaying sample prefers recent values.

`n+1` updates with different values on a new (or cleared) sample, independent uniform draws. An update that is later and not earlier on the clock is at least as likely to be still in the reservoir,
more likely if it is later on the clock and there is competition; updates at the same time have the same chance. Exact real arithmetic. Rescales may happen at any time in between.
-/

namespace GoMetrics
open Spec MeasureTheory

section
variable {n : Nat} (k : Nat) (hk : 0 < k) (alpha : ℝ) (now : Instant) (pre : List (ExpOp ℝ)) (hpre : expGiven pre = []) (s0 : ExpDecaySample ℝ)
  (hnew : ExpDecaySample.new k alpha now = .ok s0) (lo : Int) (hnow : lo ≤ now ∧ now ≤ lo + maxInt64)
  (htpre : ∀ o ∈ pre, match o with | .update t _ _ => lo ≤ t ∧ t ≤ lo + maxInt64 | .clear t => lo ≤ t ∧ t ≤ lo + maxInt64)
  (t : Fin (n + 1) → Instant) (ht : ∀ a, lo ≤ t a ∧ t a ≤ lo + maxInt64) (v : Fin (n + 1) → Int64) (hv : Function.Injective v)
include hk hpre hnew hnow htpre ht hv

private theorem ae_of_weight {i j : Fin n} (hij : wt alpha t i.castSucc ≤ wt alpha t j.castSucc) :
    retained s0 pre t v (v i.castSucc) ≤ᵐ[uniformDraws (n + 1)] (fun u => u ∘ Equiv.swap i.castSucc j.castSucc) ⁻¹' retained s0 pre t v (v j.castSucc) := by
  have hn := ties_null (w := wt alpha t) (wt_pos alpha t)
  have hn' : uniformDraws (n + 1) ((fun u => u ∘ Equiv.swap i.castSucc j.castSucc) ⁻¹' {u | ¬ ((∀ a, 0 < u a) ∧ ∀ a b, a ≠ b → wt alpha t a / u a ≠ wt alpha t b / u b)}) = 0 := by
    rw [swap_measure]; exact hn
  have a1 : ∀ᵐ u ∂uniformDraws (n + 1), (∀ a, 0 < u a) ∧ ∀ a b, a ≠ b → wt alpha t a / u a ≠ wt alpha t b / u b := hn
  have a2 : ∀ᵐ u ∂uniformDraws (n + 1), u ∉ (fun u => u ∘ Equiv.swap i.castSucc j.castSucc) ⁻¹' {u | ¬ ((∀ a, 0 < u a) ∧ ∀ a b, a ≠ b → wt alpha t a / u a ≠ wt alpha t b / u b)} :=
    measure_eq_zero_iff_ae_notMem.1 hn'
  filter_upwards [a1, a2] with u h1 h2 hi
  simp only [Set.mem_preimage, Set.mem_ofPred_eq, not_not] at h2
  obtain ⟨S, hS, hiff, -, hle⟩ := kept_set k hk alpha now pre hpre s0 hnew lo hnow htpre t ht v hv u
  obtain ⟨S', hS', hiff', -, hle'⟩ := kept_set k hk alpha now pre hpre s0 hnew lo hnow htpre t ht v hv (u ∘ Equiv.swap i.castSucc j.castSucc)
  have hiS : i ∈ S := (hiff i).1 hi
  show _ ∈ retained s0 pre t v (v j.castSucc)
  refine (hiff' j).2 (swap_kept (w := fun a => wt alpha t a.castSucc) (u := fun a => u a.castSucc) (fun a => h1.1 _) hij (swap_castSucc i j u) (fun a b hab => h2.2 _ _ fun h => hab (Fin.castSucc_injective n h)) hS hS' hle hle' hiS)

private theorem le_of_weight {i j : Fin n} (hij : wt alpha t i.castSucc ≤ wt alpha t j.castSucc) :
    uniformDraws (n + 1) (retained s0 pre t v (v i.castSucc)) ≤ uniformDraws (n + 1) (retained s0 pre t v (v j.castSucc)) := by
  rw [← swap_measure i.castSucc j.castSucc (retained s0 pre t v (v j.castSucc))]
  exact measure_mono_ae (ae_of_weight k hk alpha now pre hpre s0 hnew lo hnow htpre t ht v hv hij)

omit hk hpre hnew hnow htpre ht hv in
private theorem lt_of_gain {A B G : Set (Fin (n + 1) → ℝ)} (hA : A ≤ᵐ[uniformDraws (n + 1)] B) (hG : MeasurableSet G) (hpos : 0 < uniformDraws (n + 1) G) (hGB : G ⊆ B) (hd : ∀ u ∈ G, u ∉ A) :
    uniformDraws (n + 1) A < uniformDraws (n + 1) B := by
  have h1 : uniformDraws (n + 1) (A ∪ G) = uniformDraws (n + 1) A + uniformDraws (n + 1) G := measure_union (Set.disjoint_left.2 fun u ha hg => hd u hg ha) hG
  have h2 : uniformDraws (n + 1) (A ∪ G) ≤ uniformDraws (n + 1) B := by
    refine measure_mono_ae ?_
    filter_upwards [hA] with u hu h
    exact h.elim (fun h => hu h) (fun h => hGB h)
  rw [h1] at h2
  exact lt_of_lt_of_le (ENNReal.lt_add_right (measure_ne_top _ _) hpos.ne') h2

/-- **C76, at least as likely.** -/
theorem C76_recent (ha : 0 ≤ alpha) {i j : Fin (n + 1)} (hij : i < j) (htij : t i ≤ t j) :
    uniformDraws (n + 1) (retained s0 pre t v (v i)) ≤ uniformDraws (n + 1) (retained s0 pre t v (v j)) := by
  obtain ⟨i, rfl⟩ := Fin.exists_castSucc_eq.2 (lt_of_lt_of_le hij (Fin.le_last j)).ne
  rcases Fin.eq_castSucc_or_eq_last j with ⟨j, rfl⟩ | rfl
  · refine le_of_weight k hk alpha now pre hpre s0 hnew lo hnow htpre t ht v hv ?_
    refine Real.exp_le_exp.2 (mul_le_mul_of_nonneg_left ?_ ha)
    have : (t i.castSucc : ℝ) ≤ t j.castSucc := by exact_mod_cast htij
    exact div_le_div_of_nonneg_right this (by positivity)
  · refine measure_mono fun u _ => ?_
    obtain ⟨S, -, -, h, -⟩ := kept_set k hk alpha now pre hpre s0 hnew lo hnow htpre t ht v hv u
    exact h

/-- **C76, equal chances.** Of the updates before the newest, those at the same time are equally likely to be kept. -/
theorem C76_equal {i j : Fin (n + 1)} (hi : i ≠ Fin.last n) (hj : j ≠ Fin.last n) (htij : t i = t j) :
    uniformDraws (n + 1) (retained s0 pre t v (v i)) = uniformDraws (n + 1) (retained s0 pre t v (v j)) := by
  obtain ⟨i, rfl⟩ := Fin.exists_castSucc_eq.2 hi
  obtain ⟨j, rfl⟩ := Fin.exists_castSucc_eq.2 hj
  refine le_antisymm (le_of_weight k hk alpha now pre hpre s0 hnew lo hnow htpre t ht v hv ?_) (le_of_weight k hk alpha now pre hpre s0 hnew lo hnow htpre t ht v hv ?_) <;>
    simp [wt, htij]

/-- **C76, more likely.** If there is room for at least two values, but not for all of them, and the later update is later on the clock too, then it is strictly more likely to be kept. -/
theorem C76_strict (ha : 0 < alpha) (hk2 : 2 ≤ k) (hkn : k ≤ n) {i j : Fin (n + 1)} (hij : i < j) (htij : t i < t j) :
    uniformDraws (n + 1) (retained s0 pre t v (v i)) < uniformDraws (n + 1) (retained s0 pre t v (v j)) := by
  obtain ⟨i, rfl⟩ := Fin.exists_castSucc_eq.2 (lt_of_lt_of_le hij (Fin.le_last j)).ne
  have hw : ∀ a : Fin n, 0 < wt alpha t a.castSucc := fun a => wt_pos _ _ _
  have hmin : min (k - 1) n = k - 1 := by omega
  rcases Fin.eq_castSucc_or_eq_last j with ⟨j, rfl⟩ | rfl
  · have hwij : wt alpha t i.castSucc < wt alpha t j.castSucc := by
      refine Real.exp_lt_exp.2 (mul_lt_mul_of_pos_left ?_ ha)
      have : (t i.castSucc : ℝ) < t j.castSucc := by exact_mod_cast htij
      exact div_lt_div_of_pos_right this (by positivity)
    have hij' : i ≠ j := fun h => by simp [h] at hij
    obtain ⟨B, hB, hBc⟩ := Finset.exists_subset_card_eq (s := ({i, j} : Finset (Fin n))ᶜ) (n := k - 2) (by
      rw [Finset.card_compl, Finset.card_pair hij', Fintype.card_fin]; omega)
    have hiB : i ∉ B := fun h => by have := hB h; simp at this
    have hjB : j ∉ B := fun h => by have := hB h; simp at this
    obtain ⟨G, hGo, hGn, hGb, hG⟩ := open_swapped hw hwij hiB hjB
    obtain ⟨G', hGo', hGp', hG'⟩ := open_lift hGo hGn hGb
    rw [← swap_measure i.castSucc j.castSucc (retained s0 pre t v (v j.castSucc))]
    refine lt_of_gain (ae_of_weight k hk alpha now pre hpre s0 hnew lo hnow htpre t ht v hv hwij.le) hGo'.measurableSet hGp' ?_ ?_
    · intro u hu
      obtain ⟨S, hS, hiff, -, hle⟩ := kept_set k hk alpha now pre hpre s0 hnew lo hnow htpre t ht v hv (u ∘ Equiv.swap i.castSucc j.castSucc)
      refine (hiff j).2 (rank_kept (W := fun a => wt alpha t a.castSucc / (u ∘ Equiv.swap i.castSucc j.castSucc) a.castSucc) hS hle ?_)
      have := (hG _ (hG' u hu)).2
      rw [← swap_castSucc] at this
      exact lt_of_le_of_lt this (by omega)
    · intro u hu hi
      obtain ⟨S, hS, hiff, -, hle⟩ := kept_set k hk alpha now pre hpre s0 hnew lo hnow htpre t ht v hv u
      have h1 := kept_rank (W := fun a => wt alpha t a.castSucc / u a.castSucc) hS hle ((hiff i).1 hi)
      have h2 := (hG _ (hG' u hu)).1
      omega
  · obtain ⟨B, hB, hBc⟩ := Finset.exists_subset_card_eq (s := ({i} : Finset (Fin n))ᶜ) (n := k - 1) (by
      rw [Finset.card_compl, Finset.card_singleton, Fintype.card_fin]; omega)
    have hiB : i ∉ B := fun h => by have := hB h; simp at this
    obtain ⟨G, hGo, hGn, hGb, hG⟩ := open_dropped hw hiB
    obtain ⟨G', hGo', hGp', hG'⟩ := open_lift hGo hGn hGb
    have hall : ∀ u, u ∈ retained s0 pre t v (v (Fin.last n)) := fun u => by
      obtain ⟨S, -, -, h, -⟩ := kept_set k hk alpha now pre hpre s0 hnew lo hnow htpre t ht v hv u
      exact h
    refine lt_of_gain (Filter.Eventually.of_forall fun u _ => hall u) hGo'.measurableSet hGp' (fun u _ => hall u) ?_
    intro u hu hi
    obtain ⟨S, hS, hiff, -, hle⟩ := kept_set k hk alpha now pre hpre s0 hnew lo hnow htpre t ht v hv u
    have h1 := kept_rank (W := fun a => wt alpha t a.castSucc / u a.castSucc) hS hle ((hiff i).1 hi)
    have h2 := hG _ (hG' u hu)
    omega

end

/-- Three updates after a `Clear`, at 0 s, 5 s and 2 h (the last one causes a rescale), in a reservoir for two: the second value is more likely to be kept than the first. -/
example : ∃ s0 : ExpDecaySample ℝ, ExpDecaySample.new 2 0.015 0 = .ok s0 ∧
    uniformDraws 3 (retained s0 [.update 0 9 0.5, .clear 0] ![0, 5 * 10 ^ 9, 7200 * 10 ^ 9] ![1, 2, 3] 1) <
      uniformDraws 3 (retained s0 [.update 0 9 0.5, .clear 0] ![0, 5 * 10 ^ 9, 7200 * 10 ^ 9] ![1, 2, 3] 2) := by
  obtain ⟨s0, e0, -⟩ := ExpDecaySample.new_shape (F := ℝ) 2 0.015 0
  refine ⟨s0, e0, ?_⟩
  exact C76_strict (n := 2) 2 (by decide) 0.015 0 [.update 0 9 0.5, .clear 0] (by simp [expGiven]) s0 e0 0 (by decide) (by simp; decide) ![0, 5 * 10 ^ 9, 7200 * 10 ^ 9] (by decide) ![1, 2, 3] (by decide)
    (by norm_num) (by decide) (by decide) (i := 0) (j := 1) (by decide) (by decide)

end GoMetrics
