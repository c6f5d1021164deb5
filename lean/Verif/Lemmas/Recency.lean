import Verif.Spec.Recency
import Verif.Props.Sample
import Mathlib.MeasureTheory.Measure.Lebesgue.EqHaar

/-! Which updates an exponentially decaying sample keeps, as a set of positions; exchanging two draws. -/

namespace GoMetrics
open Spec MeasureTheory

theorem expGiven_append_updates {n : Nat} (pre : List (ExpOp ℝ)) (hpre : expGiven pre = []) (t : Fin n → Instant) (v : Fin n → Int64) (u : Fin n → ℝ) :
    expGiven (pre ++ updatesAt t v u) = List.ofFn fun a => (⟨t a, v a, u a⟩ : Given ℝ) := by
  have snoc : ∀ (l : List (ExpOp ℝ)) t v u, expGiven (l ++ [.update t v u]) = expGiven l ++ [⟨t, v, u⟩] := by
    intro l t v u; simp [expGiven]
  have key : ∀ l : List (Given ℝ), expGiven (pre ++ l.map fun g => ExpOp.update g.t g.v g.u) = l := by
    intro l
    induction l using List.reverseRecOn with
    | nil => simpa using hpre
    | append_singleton l g ih => rw [List.map_append, ← List.append_assoc, List.map_singleton, snoc, ih]
  have h := key (List.ofFn fun a => (⟨t a, v a, u a⟩ : Given ℝ))
  rw [List.map_ofFn] at h
  exact h

/-- The weight of update `a`. -/
noncomputable def wt {n : Nat} (alpha : ℝ) (t : Fin n → Instant) (a : Fin n) : ℝ := Real.exp (alpha * (t a / 10 ^ 9))

theorem wt_pos {n : Nat} (alpha : ℝ) (t : Fin n → Instant) (a : Fin n) : 0 < wt alpha t a := Real.exp_pos _

/-- Positions kept: as many as fit, none of them lighter than a dropped one. -/
theorem kept_set {n : Nat} (k : Nat) (hk : 0 < k) (alpha : ℝ) (now : Instant) (pre : List (ExpOp ℝ)) (hpre : expGiven pre = []) (s0 : ExpDecaySample ℝ)
    (hnew : ExpDecaySample.new k alpha now = .ok s0) (lo : Int) (hnow : lo ≤ now ∧ now ≤ lo + maxInt64)
    (htpre : ∀ o ∈ pre, match o with | .update t _ _ => lo ≤ t ∧ t ≤ lo + maxInt64 | .clear t => lo ≤ t ∧ t ≤ lo + maxInt64)
    (t : Fin (n + 1) → Instant) (ht : ∀ a, lo ≤ t a ∧ t a ≤ lo + maxInt64) (v : Fin (n + 1) → Int64) (hv : Function.Injective v) (u : Fin (n + 1) → ℝ) :
    ∃ S : Finset (Fin n), S.card = min (k - 1) n ∧ (∀ a : Fin n, u ∈ retained s0 pre t v (v a.castSucc) ↔ a ∈ S) ∧ u ∈ retained s0 pre t v (v (Fin.last n)) ∧
      ∀ b ∉ S, ∀ a ∈ S, wt alpha t b.castSucc / u b.castSucc ≤ wt alpha t a.castSucc / u a.castSucc := by
  classical
  obtain ⟨s, hs, htop⟩ := C27_top_weights k hk alpha now (pre ++ updatesAt t v u) s0 hnew lo hnow (by
    intro o ho
    rcases List.mem_append.1 ho with ho | ho
    · exact htpre o ho
    · simp only [updatesAt, List.mem_ofFn] at ho
      obtain ⟨a, rfl⟩ := ho
      exact ht a)
  let g : Fin n → Given ℝ := fun a => ⟨t a.castSucc, v a.castSucc, u a.castSucc⟩
  have hg : Function.Injective g := by
    intro a b h
    have := congrArg Given.v h
    exact Fin.castSucc_injective n (hv this)
  obtain ⟨T, D, hp, hvals, hlen, hle⟩ := htop (List.ofFn g) ⟨t (Fin.last n), v (Fin.last n), u (Fin.last n)⟩ (by
    rw [expGiven_append_updates pre hpre, List.ofFn_succ']; simp [g])
  have hnd : (T ++ D).Nodup := hp.nodup_iff.1 (List.nodup_ofFn.2 hg)
  have hmem : ∀ a, g a ∈ T ∨ g a ∈ D := fun a => List.mem_append.1 (hp.mem_iff.1 (List.mem_ofFn.2 ⟨a, rfl⟩))
  have hex : ∀ x ∈ T, ∃ a, g a = x := fun x hx => List.mem_ofFn.1 (hp.mem_iff.2 (List.mem_append_left _ hx))
  refine ⟨Finset.univ.filter fun a => g a ∈ T, ?_, ?_, ?_, ?_⟩
  · have h1 : (Finset.univ.filter fun a => g a ∈ T).map ⟨g, hg⟩ = T.toFinset := by
      ext x
      simp only [Finset.mem_map, Finset.mem_filter, Finset.mem_univ, true_and, Function.Embedding.coeFn_mk, List.mem_toFinset]
      constructor
      · rintro ⟨a, h, rfl⟩; exact h
      · intro h; obtain ⟨a, rfl⟩ := hex x h; exact ⟨a, h, rfl⟩
    rw [← Finset.card_map ⟨g, hg⟩, h1, List.toFinset_card_of_nodup (List.nodup_append.1 hnd).1, hlen]
    simp
  · intro a
    have hne : v a.castSucc ≠ v (Fin.last n) := fun h => (Fin.castSucc_lt_last a).ne (hv h)
    simp only [retained, Set.mem_ofPred_eq, hs, Except.ok.injEq, exists_eq_left', hvals.mem_iff, List.mem_cons, hne, false_or, List.mem_map, Finset.mem_filter, Finset.mem_univ, true_and]
    constructor
    · rintro ⟨x, hx, hxv⟩
      obtain ⟨b, rfl⟩ := hex x hx
      rwa [Fin.castSucc_injective n (hv hxv)] at hx
    · intro h; exact ⟨_, h, rfl⟩
  · exact ⟨s, hs, hvals.mem_iff.2 (by simp)⟩
  · intro b hb a ha
    simp only [Finset.mem_filter, Finset.mem_univ, true_and] at ha hb
    exact hle (g b) ((hmem b).resolve_left hb) (g a) ha

/-- Kept positions have fewer heavier ones than there is room for. -/
theorem kept_rank {n m : Nat} {S : Finset (Fin n)} {W : Fin n → ℝ} (hS : S.card = m) (h : ∀ b ∉ S, ∀ a ∈ S, W b ≤ W a) {a : Fin n} (ha : a ∈ S) :
    (Finset.univ.filter fun b => W a < W b).card < m := by
  rw [← hS]
  refine Finset.card_lt_card ⟨fun b hb => ?_, fun hsub => ?_⟩
  · simp only [Finset.mem_filter, Finset.mem_univ, true_and] at hb
    by_contra hbS
    exact absurd (h b hbS a ha) (not_le.2 hb)
  · simpa using hsub ha

theorem rank_kept {n m : Nat} {S : Finset (Fin n)} {W : Fin n → ℝ} (hS : S.card = m) (h : ∀ b ∉ S, ∀ a ∈ S, W b ≤ W a) {a : Fin n}
    (ha : (Finset.univ.filter fun b => b ≠ a ∧ W a ≤ W b).card < m) : a ∈ S := by
  by_contra haS
  rw [← hS] at ha
  refine absurd (Finset.card_le_card fun b hb => ?_) (not_le.2 ha)
  simp only [Finset.mem_filter, Finset.mem_univ, true_and]
  exact ⟨fun e => haS (e ▸ hb), h a haS b hb⟩

/-- Exchanging the draws of a kept update and of a heavier one keeps the heavier one, if there are no ties afterwards. -/
theorem swap_kept {n m : Nat} {w : Fin n → ℝ} {u u' : Fin n → ℝ} (hu : ∀ a, 0 < u a) {i j : Fin n} (hij : w i ≤ w j) (hu' : u' = u ∘ Equiv.swap i j)
    (hties : ∀ a b, a ≠ b → w a / u' a ≠ w b / u' b) {S S' : Finset (Fin n)} (hS : S.card = m) (hS' : S'.card = m)
    (h : ∀ b ∉ S, ∀ a ∈ S, w b / u b ≤ w a / u a) (h' : ∀ b ∉ S', ∀ a ∈ S', w b / u' b ≤ w a / u' a) (hi : i ∈ S) : j ∈ S' := by
  refine rank_kept (W := fun a => w a / u' a) hS' h' (lt_of_le_of_lt ?_ (kept_rank (W := fun a => w a / u a) hS h hi))
  refine Finset.card_le_card_of_injOn (Equiv.swap i j) ?_ (Equiv.swap i j).injective.injOn
  intro b hb
  simp only [Finset.coe_filter, Finset.mem_univ, true_and, Set.mem_ofPred_eq] at hb ⊢
  obtain ⟨hbj, hle⟩ := hb
  have hlt : w j / u' j < w b / u' b := lt_of_le_of_ne hle (hties j b (Ne.symm hbj))
  have e1 : u' j = u i := by simp [hu']
  have e2 : u' i = u j := by simp [hu']
  rw [e1] at hlt
  have hji : w i / u i ≤ w j / u i := (div_le_div_iff_of_pos_right (hu i)).2 hij
  by_cases hbi : b = i
  · subst hbi
    rw [e2] at hlt
    rw [Equiv.swap_apply_left]
    exact lt_of_le_of_lt hji (lt_of_lt_of_le hlt ((div_le_div_iff_of_pos_right (hu j)).2 hij))
  · rw [Equiv.swap_apply_of_ne_of_ne hbi hbj]
    have e3 : u' b = u b := by simp [hu', Equiv.swap_apply_of_ne_of_ne hbi hbj]
    rw [e3] at hlt
    exact lt_of_le_of_lt hji hlt

theorem swap_castSucc {n : Nat} (i j : Fin n) (u : Fin (n + 1) → ℝ) :
    (fun a : Fin n => (u ∘ Equiv.swap i.castSucc j.castSucc) a.castSucc) = (fun a : Fin n => u a.castSucc) ∘ Equiv.swap i j := by
  funext a
  simp only [Function.comp_apply, Equiv.swap_apply_def, Fin.castSucc_inj]
  split
  · rfl
  · split <;> rfl

/-! The probability space. -/

theorem uniformDraws_eq (n : Nat) : uniformDraws n = volume.restrict (Set.univ.pi fun _ => Set.Ico 0 1) := by
  rw [uniformDraws, volume_pi, Measure.restrict_pi_pi]

instance (n : Nat) : IsProbabilityMeasure (uniformDraws n) := by
  have : IsProbabilityMeasure (volume.restrict (Set.Ico (0 : ℝ) 1)) := ⟨by simp⟩
  unfold uniformDraws
  infer_instance

/-- Exchanging two draws does not change probabilities. -/
theorem swap_measure {n : Nat} (i j : Fin n) (A : Set (Fin n → ℝ)) : uniformDraws n ((fun u => u ∘ Equiv.swap i j) ⁻¹' A) = uniformDraws n A := by
  have h := measurePreserving_piCongrLeft (fun _ : Fin n => (volume.restrict (Set.Ico (0 : ℝ) 1))) (Equiv.swap i j)
  have h2 := h.measure_preimage_equiv A
  have e : (MeasurableEquiv.piCongrLeft (fun _ : Fin n => ℝ) (Equiv.swap i j) : (Fin n → ℝ) → Fin n → ℝ) = fun u => u ∘ Equiv.swap i j := by
    funext u a
    have := Equiv.piCongrLeft_apply_apply (fun _ : Fin n => ℝ) (Equiv.swap i j) u (Equiv.swap i j a)
    rw [MeasurableEquiv.coe_piCongrLeft]
    simpa using this
  rw [e] at h2
  exact h2

/-- Ties have probability 0. -/
theorem ties_null {n : Nat} {w : Fin n → ℝ} (hw : ∀ a, 0 < w a) : uniformDraws n {u | ¬ ((∀ a, 0 < u a) ∧ ∀ a b, a ≠ b → w a / u a ≠ w b / u b)} = 0 := by
  have hpos : ∀ᵐ u ∂uniformDraws n, ∀ a, 0 < u a := by
    rw [ae_all_iff]
    intro a
    have h0 : ∀ᵐ u ∂(volume : Measure (Fin n → ℝ)), u a ≠ 0 := by
      have h := Measure.addHaar_submodule (volume : Measure (Fin n → ℝ)) (LinearMap.ker (LinearMap.proj a : (Fin n → ℝ) →ₗ[ℝ] ℝ)) (by
        intro h
        have : Pi.single a (1 : ℝ) ∈ LinearMap.ker (LinearMap.proj a : (Fin n → ℝ) →ₗ[ℝ] ℝ) := h ▸ Submodule.mem_top
        simp at this)
      rw [ae_iff]
      convert h using 2
      ext u; simp
    rw [uniformDraws_eq]
    filter_upwards [ae_restrict_of_ae h0, ae_restrict_mem (MeasurableSet.univ_pi fun _ => measurableSet_Ico)] with u h1 h2
    exact lt_of_le_of_ne (h2 a trivial).1 (Ne.symm h1)
  have htie : ∀ᵐ u ∂uniformDraws n, ∀ a b, a ≠ b → w a * u b ≠ w b * u a := by
    rw [ae_all_iff]; intro a
    rw [ae_all_iff]; intro b
    by_cases hab : a = b
    · simp [hab]
    · have h := Measure.addHaar_submodule (volume : Measure (Fin n → ℝ)) (LinearMap.ker ((w a) • (LinearMap.proj b : (Fin n → ℝ) →ₗ[ℝ] ℝ) - (w b) • LinearMap.proj a)) (by
        intro h
        have : Pi.single b (1 : ℝ) ∈ LinearMap.ker ((w a) • (LinearMap.proj b : (Fin n → ℝ) →ₗ[ℝ] ℝ) - (w b) • LinearMap.proj a) := h ▸ Submodule.mem_top
        simp [hab] at this
        exact (hw a).ne' this)
      rw [uniformDraws_eq]
      refine ae_restrict_of_ae ?_
      rw [ae_iff]
      convert h using 2
      ext u; simp [hab, sub_eq_zero]
  have : ∀ᵐ u ∂uniformDraws n, (∀ a, 0 < u a) ∧ ∀ a b, a ≠ b → w a / u a ≠ w b / u b := by
    filter_upwards [hpos, htie] with u h1 h2
    refine ⟨h1, fun a b hab he => h2 a b hab ?_⟩
    rwa [div_eq_div_iff (h1 a).ne' (h1 b).ne'] at he
  exact this

/-! Draws for which an update is dropped, or loses against a heavier one. -/

theorem open_box (n : Nat) : IsOpen {u : Fin n → ℝ | ∀ a, 0 < u a ∧ u a < 1} := by
  have : {u : Fin n → ℝ | ∀ a, 0 < u a ∧ u a < 1} = Set.univ.pi fun _ => Set.Ioo 0 1 := by ext u; simp
  rw [this]
  exact isOpen_set_pi Set.finite_univ fun _ _ => isOpen_Ioo

theorem open_lt {n : Nat} (p q : ℝ) (a b : Fin n) : IsOpen {u : Fin n → ℝ | p * u a < q * u b} :=
  isOpen_lt (continuous_const.mul (continuous_apply a)) (continuous_const.mul (continuous_apply b))

theorem open_forall {n : Nat} (B : Finset (Fin n)) (P : Fin n → (Fin n → ℝ) → Prop) (h : ∀ b, IsOpen {u | P b u}) : IsOpen {u | ∀ b ∈ B, P b u} := by
  have : {u | ∀ b ∈ B, P b u} = ⋂ b ∈ B, {u | P b u} := by ext u; simp
  rw [this]
  exact isOpen_biInter_finset fun b _ => h b

theorem sum_ge {n : Nat} {w : Fin n → ℝ} (hw : ∀ a, 0 < w a) (a : Fin n) : w a ≤ ∑ b, w b := Finset.single_le_sum (f := w) (fun b _ => (hw b).le) (Finset.mem_univ a)

/-- Draws for which the updates `B` are heavier than `i`. -/
theorem open_dropped {n : Nat} {w : Fin n → ℝ} (hw : ∀ a, 0 < w a) {i : Fin n} {B : Finset (Fin n)} (hi : i ∉ B) :
    ∃ G : Set (Fin n → ℝ), IsOpen G ∧ G.Nonempty ∧ (∀ u ∈ G, ∀ a, 0 < u a ∧ u a < 1) ∧ ∀ u ∈ G, B.card ≤ (Finset.univ.filter fun b => w i / u i < w b / u b).card := by
  refine ⟨{u | ∀ a, 0 < u a ∧ u a < 1} ∩ {u | ∀ b ∈ B, w i * u b < w b * u i}, (open_box n).inter (open_forall B _ fun b => open_lt _ _ _ _), ?_, fun u hu => hu.1, ?_⟩
  · have hs : 0 < ∑ b, w b := lt_of_lt_of_le (hw i) (sum_ge hw i)
    refine ⟨fun a => if a ∈ B then w a / (4 * ∑ b, w b) else 1 / 2, fun a => ?_, fun b hb => ?_⟩
    · have := sum_ge hw a
      dsimp only
      split
      · refine ⟨div_pos (hw a) (by positivity), ?_⟩
        rw [div_lt_one (by positivity)]; linarith
      · norm_num
    · have := sum_ge hw i
      simp only [hb, if_true, hi, if_false]
      rw [mul_div_assoc', div_lt_iff₀ (by positivity)]
      nlinarith [hw b, mul_le_mul_of_nonneg_right this (hw b).le, mul_pos (hw b) hs]
  · rintro u ⟨h1, h2⟩
    refine Finset.card_le_card fun b hb => ?_
    simp only [Finset.mem_filter, Finset.mem_univ, true_and]
    rw [div_lt_div_iff₀ (h1 i).1 (h1 b).1]
    exact h2 b hb

/-- Draws for which `i` is dropped, while `j` is kept after exchanging the two draws. -/
theorem open_swapped {n : Nat} {w : Fin n → ℝ} (hw : ∀ a, 0 < w a) {i j : Fin n} (hij : w i < w j) {B : Finset (Fin n)} (hi : i ∉ B) (hj : j ∉ B) :
    ∃ G : Set (Fin n → ℝ), IsOpen G ∧ G.Nonempty ∧ (∀ u ∈ G, ∀ a, 0 < u a ∧ u a < 1) ∧
      ∀ u ∈ G, B.card + 1 ≤ (Finset.univ.filter fun b => w i / u i < w b / u b).card ∧
        (Finset.univ.filter fun b => b ≠ j ∧ w j / (u ∘ Equiv.swap i j) j ≤ w b / (u ∘ Equiv.swap i j) b).card ≤ B.card := by
  have hne : i ≠ j := fun h => by rw [h] at hij; exact lt_irrefl _ hij
  refine ⟨{u | ∀ a, 0 < u a ∧ u a < 1} ∩ ({u | ∀ b ∈ B, w i * u b < w b * u i} ∩ ({u | w i * u j < w j * u i} ∩ ({u | w i * u i < w j * u j} ∩
      {u | ∀ c ∈ (insert i (insert j B))ᶜ, w c * u i < w j * u c}))),
    (open_box n).inter ((open_forall B _ fun b => open_lt _ _ _ _).inter ((open_lt _ _ _ _).inter ((open_lt _ _ _ _).inter (open_forall _ _ fun c => open_lt _ _ _ _)))), ?_, fun u hu => hu.1, ?_⟩
  · have hs : 0 < ∑ b, w b := lt_of_lt_of_le (hw i) (sum_ge hw i)
    generalize hsum : (∑ b, w b) = σ at hs
    have hle : ∀ a, w a ≤ σ := fun a => hsum ▸ sum_ge hw a
    have hd : 0 < w j / (4 * σ) := div_pos (hw j) (by positivity)
    have hd1 : w j / (4 * σ) ≤ 1 / 4 := by rw [div_le_iff₀ (by positivity)]; linarith [hle j]
    have hdσ : w j / (4 * σ) * σ = w j / 4 := by field_simp
    generalize w j / (4 * σ) = δ at hd hd1 hdσ
    refine ⟨fun a => if a = i ∨ a = j then δ else if a ∈ B then δ * (w a / (2 * σ)) else 1 / 2, fun a => ?_, fun b hb => ?_, ?_, ?_, fun c hc => ?_⟩
    · dsimp only
      have h2 : 0 < w a / (2 * σ) := div_pos (hw a) (by positivity)
      have h3 : w a / (2 * σ) ≤ 1 / 2 := by rw [div_le_iff₀ (by positivity)]; linarith [hle a]
      split
      · exact ⟨hd, by linarith⟩
      · split
        · exact ⟨mul_pos hd h2, by nlinarith⟩
        · norm_num
    · have e1 : ¬ (b = i ∨ b = j) := by rintro (rfl | rfl) <;> contradiction
      simp only [e1, if_false, hb, if_true, true_or]
      have h3 : w i / (2 * σ) ≤ 1 / 2 := by rw [div_le_iff₀ (by positivity)]; linarith [hle i]
      have : w i * (δ * (w b / (2 * σ))) = δ * w b * (w i / (2 * σ)) := by ring
      rw [this]
      nlinarith [mul_pos hd (hw b)]
    · simp only [Set.mem_ofPred_eq, or_true, true_or, if_true]
      exact mul_lt_mul_of_pos_right hij hd
    · simp only [Set.mem_ofPred_eq, or_true, true_or, if_true]
      exact mul_lt_mul_of_pos_right hij hd
    · simp only [Finset.mem_compl, Finset.mem_insert, not_or] at hc
      have e1 : ¬ (c = i ∨ c = j) := by simp [hc.1, hc.2.1]
      simp only [e1, if_false, hc.2.2, true_or, if_true]
      nlinarith [hle c, hw j, mul_le_mul_of_nonneg_right (hle c) hd.le]
  · rintro u ⟨h1, h2, h3, h4, h5⟩
    constructor
    · rw [← Finset.card_insert_of_notMem hj]
      refine Finset.card_le_card fun b hb => ?_
      simp only [Finset.mem_filter, Finset.mem_univ, true_and]
      rw [div_lt_div_iff₀ (h1 i).1 (h1 b).1]
      rcases Finset.mem_insert.1 hb with rfl | hb
      · exact h3
      · exact h2 b hb
    · refine Finset.card_le_card fun b hb => ?_
      simp only [Finset.mem_filter, Finset.mem_univ, true_and, Function.comp_apply, Equiv.swap_apply_right] at hb
      obtain ⟨hbj, hb⟩ := hb
      by_contra hbB
      by_cases hbi : b = i
      · subst hbi
        rw [Equiv.swap_apply_left, div_le_div_iff₀ (h1 _).1 (h1 _).1] at hb
        have h4 : w b * u b < w j * u j := h4
        linarith
      · rw [Equiv.swap_apply_of_ne_of_ne hbi hbj, div_le_div_iff₀ (h1 _).1 (h1 _).1] at hb
        have h5 : w b * u i < w j * u b := h5 b (by simp [hbi, hbj, hbB])
        linarith

/-- Open sets of draws have positive probability. -/
theorem open_pos {n : Nat} {G : Set (Fin (n + 1) → ℝ)} (ho : IsOpen G) (hne : G.Nonempty) (hb : ∀ u ∈ G, ∀ a, 0 < u a ∧ u a < 1) : 0 < uniformDraws (n + 1) G := by
  rw [uniformDraws_eq, Measure.restrict_apply ho.measurableSet, Set.inter_eq_left.2]
  · exact ho.measure_pos volume hne
  · intro u hu a _
    exact ⟨(hb u hu a).1.le, (hb u hu a).2⟩

/-- Draws for the earlier updates, together with one more draw. -/
theorem open_lift {n : Nat} {G : Set (Fin n → ℝ)} (ho : IsOpen G) (hne : G.Nonempty) (hb : ∀ u ∈ G, ∀ a, 0 < u a ∧ u a < 1) :
    ∃ G' : Set (Fin (n + 1) → ℝ), IsOpen G' ∧ 0 < uniformDraws (n + 1) G' ∧ ∀ u ∈ G', (fun a : Fin n => u a.castSucc) ∈ G := by
  have hO : IsOpen ({u : Fin (n + 1) → ℝ | (fun a : Fin n => u a.castSucc) ∈ G} ∩ {u | ∀ a, 0 < u a ∧ u a < 1}) :=
    (ho.preimage (continuous_pi fun a => continuous_apply _)).inter (open_box _)
  refine ⟨_, hO, open_pos hO ?_ fun u hu => hu.2, fun u hu => hu.1⟩
  obtain ⟨u, hu⟩ := hne
  refine ⟨Fin.snoc u (1 / 2), ?_, fun a => ?_⟩
  · simpa using hu
  · rcases Fin.eq_castSucc_or_eq_last a with ⟨a, rfl⟩ | rfl
    · simpa using hb u hu a
    · simp; norm_num

end GoMetrics
