import Verif.Lemmas.Recency
import Verif.Spec.Burst
import Mathlib.Data.Finset.Powerset
import Mathlib.Data.Fintype.Powerset
import Mathlib.MeasureTheory.Integral.Bochner.Set
import Mathlib.GroupTheory.Perm.Basic

/-! Updates of equal weight: the sample keeps the newest and the updates with the smallest draws; all sets of them are equally likely. -/

namespace GoMetrics
open Spec MeasureTheory

/-- The draws for which the updates in `B` have smaller draws than the other ones before the newest. -/
def smallest {n : Nat} (B : Finset (Fin n)) : Set (Fin (n + 1) → ℝ) := {u | ∀ a ∈ B, ∀ b ∉ B, u a.castSucc < u b.castSucc}

theorem smallest_unique {n : Nat} {S B : Finset (Fin n)} (hc : S.card = B.card) {u : Fin (n + 1) → ℝ} (hS : ∀ a ∈ S, ∀ b ∉ S, u a.castSucc ≤ u b.castSucc) (hB : u ∈ smallest B) : S = B := by
  by_contra hne
  obtain ⟨a, ha, haB⟩ : ∃ a ∈ S, a ∉ B := by
    by_contra h
    push Not at h
    exact hne (Finset.eq_of_subset_of_card_le h hc.ge)
  obtain ⟨b, hb, hbS⟩ : ∃ b ∈ B, b ∉ S := by
    by_contra h
    push Not at h
    exact hne (Finset.eq_of_subset_of_card_le h hc.le).symm
  exact absurd (hS a ha b hbS) (not_le.2 (hB b hb a haB))

theorem smallest_measurable {n : Nat} (B : Finset (Fin n)) : MeasurableSet (smallest B) := by
  have : smallest B = ⋂ a ∈ B, ⋂ b ∈ Bᶜ, {u : Fin (n + 1) → ℝ | u a.castSucc < u b.castSucc} := by
    ext u; simp [smallest]
  rw [this]
  exact Finset.measurableSet_biInter _ fun a _ => Finset.measurableSet_biInter _ fun b _ => measurableSet_lt (measurable_pi_apply _) (measurable_pi_apply _)

theorem smallest_disjoint {n : Nat} {B C : Finset (Fin n)} (hc : B.card = C.card) (hne : B ≠ C) : Disjoint (smallest B) (smallest C) := by
  rw [Set.disjoint_left]
  intro u hB hC
  exact hne (smallest_unique hc (fun a ha b hb => (hB a ha b hb).le) hC)

/-- For different draws some set of each size has the smallest ones. -/
theorem smallest_exists {n m : Nat} (hm : m ≤ n) {u : Fin (n + 1) → ℝ} (hu : ∀ a b : Fin n, a ≠ b → u a.castSucc ≠ u b.castSucc) : ∃ B : Finset (Fin n), B.card = m ∧ u ∈ smallest B := by
  induction m with
  | zero => exact ⟨∅, rfl, fun a ha => by simp at ha⟩
  | succ m ih =>
    obtain ⟨B, hB, hs⟩ := ih (by omega)
    obtain ⟨c, hc, hmin⟩ := Finset.exists_min_image Bᶜ (fun a => u a.castSucc) (by
      rw [← Finset.card_pos, Finset.card_compl, Fintype.card_fin]; omega)
    rw [Finset.mem_compl] at hc
    refine ⟨insert c B, by rw [Finset.card_insert_of_notMem hc, hB], ?_⟩
    intro a ha b hb
    simp only [Finset.mem_insert, not_or] at ha hb
    rcases ha with rfl | ha
    · exact lt_of_le_of_ne (hmin b (by simpa using hb.2)) (hu _ _ (Ne.symm hb.1))
    · exact hs a ha b hb.2

/-- Permuting the draws does not change probabilities. -/
theorem perm_measure {n : Nat} (σ : Equiv.Perm (Fin n)) (A : Set (Fin n → ℝ)) : uniformDraws n ((fun u => u ∘ σ) ⁻¹' A) = uniformDraws n A := by
  have h := measurePreserving_piCongrLeft (fun _ : Fin n => (volume.restrict (Set.Ico (0 : ℝ) 1))) σ.symm
  have h2 := h.measure_preimage_equiv A
  have e : (MeasurableEquiv.piCongrLeft (fun _ : Fin n => ℝ) σ.symm : (Fin n → ℝ) → Fin n → ℝ) = fun u => u ∘ σ := by
    funext u a
    have := Equiv.piCongrLeft_apply_apply (fun _ : Fin n => ℝ) σ.symm u (σ a)
    rw [MeasurableEquiv.coe_piCongrLeft]
    simpa using this
  rw [e] at h2
  exact h2

theorem smallest_same {n : Nat} {B C : Finset (Fin n)} (hc : B.card = C.card) : uniformDraws (n + 1) (smallest B) = uniformDraws (n + 1) (smallest C) := by
  classical
  obtain ⟨σ, hσ⟩ : ∃ σ : Equiv.Perm (Fin n), ∀ a, a ∈ B ↔ σ a ∈ C := by
    have e1 : Fintype.card {a // a ∈ B} = Fintype.card {a // a ∈ C} := by simpa using hc
    let e := Fintype.equivOfCardEq e1
    refine ⟨e.extendSubtype, fun a => ⟨fun h => e.extendSubtype_mem a h, fun h => ?_⟩⟩
    by_contra hn
    exact e.extendSubtype_not_mem a hn h
  let τ : Equiv.Perm (Fin (n + 1)) := σ.extendDomain (finSuccAboveEquiv (Fin.last n))
  have hτ : ∀ a : Fin n, τ a.castSucc = (σ a).castSucc := by
    intro a
    have := Equiv.Perm.extendDomain_apply_image σ (finSuccAboveEquiv (Fin.last n)) a
    simpa [finSuccAboveEquiv_apply, Fin.succAbove_last] using this
  rw [← perm_measure τ (smallest B)]
  congr 1
  ext u
  simp only [smallest, Set.mem_preimage, Set.mem_ofPred_eq, Function.comp_apply, hτ]
  constructor
  · intro h a ha b hb
    obtain ⟨a, rfl⟩ := σ.surjective a
    obtain ⟨b, rfl⟩ := σ.surjective b
    exact h a ((hσ a).2 ha) b (fun h => hb ((hσ b).1 h))
  · intro h a ha b hb
    exact h _ ((hσ a).1 ha) _ (fun h => hb ((hσ b).2 h))

/-- Almost always all draws are positive and different. -/
theorem draws_distinct (n : Nat) : ∀ᵐ u ∂uniformDraws n, (∀ a, 0 < u a) ∧ ∀ a b, a ≠ b → u a ≠ u b := by
  have h : ∀ᵐ u ∂uniformDraws n, (∀ a, 0 < u a) ∧ ∀ a b : Fin n, a ≠ b → (1 : ℝ) / u a ≠ 1 / u b := ties_null (w := fun _ => 1) (fun _ => one_pos)
  filter_upwards [h] with u hu
  exact ⟨hu.1, fun a b hab he => hu.2 a b hab (by rw [he])⟩

theorem smallest_prob {n : Nat} (B : Finset (Fin n)) : uniformDraws (n + 1) (smallest B) = 1 / (n.choose B.card : ENNReal) := by
  classical
  have hle : B.card ≤ n := by simpa using Finset.card_le_univ B
  have h1 : uniformDraws (n + 1) (⋃ C ∈ Finset.powersetCard B.card (Finset.univ : Finset (Fin n)), smallest C) = 1 := by
    rw [prob_compl_eq_zero_iff (Finset.measurableSet_biUnion _ fun C _ => smallest_measurable C) |>.symm]
    rw [measure_eq_zero_iff_ae_notMem]
    filter_upwards [draws_distinct (n + 1)] with u hu
    obtain ⟨C, hC, hs⟩ := smallest_exists hle (u := u) fun a b hab => hu.2 _ _ fun h => hab (Fin.castSucc_injective n h)
    simp only [Set.mem_compl_iff, not_not, Set.mem_iUnion]
    exact ⟨C, Finset.mem_powersetCard.2 ⟨Finset.subset_univ _, hC⟩, hs⟩
  rw [measure_biUnion_finset ?_ fun C _ => smallest_measurable C, Finset.sum_congr rfl fun C hC => smallest_same (C := B) (Finset.mem_powersetCard.1 hC).2, Finset.sum_const,
    Finset.card_powersetCard, Finset.card_univ, Fintype.card_fin, nsmul_eq_mul, mul_comm] at h1
  · exact ENNReal.eq_div_iff (by exact_mod_cast (Nat.choose_pos hle).ne') (by simp) |>.2 (by rw [mul_comm]; exact h1)
  · intro C hC D hD hne
    exact smallest_disjoint (((Finset.mem_powersetCard.1 hC).2).trans (Finset.mem_powersetCard.1 hD).2.symm) hne

/-- What is held when the updates in `B` have the smallest draws. -/
theorem held_smallest {n : Nat} (k : Nat) (hk : 0 < k) (alpha : ℝ) (now : Instant) (pre : List (ExpOp ℝ)) (hpre : expGiven pre = []) (s0 : ExpDecaySample ℝ)
    (hnew : ExpDecaySample.new k alpha now = .ok s0) (lo : Int) (hnow : lo ≤ now ∧ now ≤ lo + maxInt64)
    (htpre : ∀ o ∈ pre, match o with | .update t _ _ => lo ≤ t ∧ t ≤ lo + maxInt64 | .clear t => lo ≤ t ∧ t ≤ lo + maxInt64)
    (t : Fin (n + 1) → Instant) (ht : ∀ a, lo ≤ t a ∧ t a ≤ lo + maxInt64) (v : Fin (n + 1) → Int64) (hw : ∀ a b : Fin n, wt alpha t a.castSucc = wt alpha t b.castSucc)
    (u : Fin (n + 1) → ℝ) (hu : (∀ a, 0 < u a) ∧ ∀ a b, a ≠ b → u a ≠ u b) {B : Finset (Fin n)} (hB : B.card = min (k - 1) n) (hs : u ∈ smallest B) :
    (heldValues s0 pre t v u : Multiset Int64) = withNewest v B := by
  classical
  obtain ⟨s, hrun, htop⟩ := C27_top_weights k hk alpha now (pre ++ updatesAt t v u) s0 hnew lo hnow (by
    intro o ho
    rcases List.mem_append.1 ho with ho | ho
    · exact htpre o ho
    · simp only [updatesAt, List.mem_ofFn] at ho
      obtain ⟨a, rfl⟩ := ho
      exact ht a)
  let g : Fin n → Given ℝ := fun a => ⟨t a.castSucc, v a.castSucc, u a.castSucc⟩
  have hg : Function.Injective g := by
    intro a b h
    have := congrArg Given.u h
    by_contra hab
    exact hu.2 _ _ (fun h => hab (Fin.castSucc_injective n h)) this
  obtain ⟨T, D, hp, hvals, hlen, hle⟩ := htop (List.ofFn g) ⟨t (Fin.last n), v (Fin.last n), u (Fin.last n)⟩ (by
    rw [expGiven_append_updates pre hpre, List.ofFn_succ']; simp [g])
  have hnd : (T ++ D).Nodup := hp.nodup_iff.1 (List.nodup_ofFn.2 hg)
  have hT : T.Nodup := (List.nodup_append.1 hnd).1
  have hmem : ∀ a, g a ∈ T ∨ g a ∈ D := fun a => List.mem_append.1 (hp.mem_iff.1 (List.mem_ofFn.2 ⟨a, rfl⟩))
  have hex : ∀ x ∈ T, ∃ a, g a = x := fun x hx => List.mem_ofFn.1 (hp.mem_iff.2 (List.mem_append_left _ hx))
  have h1 : (Finset.univ.filter fun a => g a ∈ T).map ⟨g, hg⟩ = T.toFinset := by
    ext x
    simp only [Finset.mem_map, Finset.mem_filter, Finset.mem_univ, true_and, Function.Embedding.coeFn_mk, List.mem_toFinset]
    constructor
    · rintro ⟨a, h, rfl⟩; exact h
    · intro h; obtain ⟨a, rfl⟩ := hex x h; exact ⟨a, h, rfl⟩
  have hcard : (Finset.univ.filter fun a => g a ∈ T).card = B.card := by
    rw [← Finset.card_map ⟨g, hg⟩, h1, List.toFinset_card_of_nodup hT, hlen, hB]
    simp
  have hS : (Finset.univ.filter fun a => g a ∈ T) = B := by
    refine smallest_unique hcard (fun a ha b hb => ?_) hs
    simp only [Finset.mem_filter, Finset.mem_univ, true_and] at ha hb
    have h2 : wt alpha t b.castSucc / u b.castSucc ≤ wt alpha t a.castSucc / u a.castSucc := hle (g b) ((hmem b).resolve_left hb) (g a) ha
    rw [hw b a, div_le_div_iff_of_pos_left (wt_pos _ _ _) (hu.1 _) (hu.1 _)] at h2
    exact h2
  rw [hS] at h1
  have hTm : (T : Multiset (Given ℝ)) = B.val.map g := by
    have := congrArg Finset.val h1
    rw [Finset.map_val, List.toFinset_val, hT.dedup] at this
    exact this.symm
  rw [heldValues, hrun]
  show (s.vals : Multiset Int64) = _
  rw [Multiset.coe_eq_coe.2 hvals, ← Multiset.cons_coe, ← Multiset.map_coe, hTm, Multiset.map_map]
  rfl

end GoMetrics
