import Verif.Lemmas.Uniform
import Mathlib.Data.Nat.Factorial.Basic
import Mathlib.Tactic.Ring
import Mathlib.Data.List.GetD
import Mathlib.Algebra.Group.Action.Defs

/-! The counting argument behind the uniformity of `UniformSample`. -/

set_option linter.unusedSimpArgs false
set_option linter.unnecessarySeqFocus false

namespace GoMetrics
open Spec

/-! ### the draws -/

theorem allDraws_length (n : Nat) : (allDraws n).length = n.factorial := by
  induction n with
  | zero => rfl
  | succ n ih =>
    rw [allDraws, List.length_flatMap]
    simp only [List.length_map, List.length_range, List.map_const', List.sum_replicate, smul_eq_mul, ih]
    rw [Nat.factorial_succ, mul_comm]

theorem mem_allDraws {n : Nat} {d : List Nat} : d ∈ allDraws n ↔ d.length = n ∧ ∀ i < n, d.getD i 0 ≤ i := by
  induction n generalizing d with
  | zero => simp [allDraws]
  | succ n ih =>
    simp only [allDraws, List.mem_flatMap, List.mem_map, List.mem_range]
    constructor
    · rintro ⟨d', hd', r, hr, rfl⟩
      obtain ⟨h1, h2⟩ := ih.1 hd'
      refine ⟨by simp [h1], fun i hi => ?_⟩
      by_cases hin : i < n
      · rw [List.getD_append _ _ _ _ (by omega)]; exact h2 i hin
      · have : i = n := by omega
        subst this
        simp [List.getD_append_right, h1]; omega
    · rintro ⟨h1, h2⟩
      have hne : d ≠ [] := by rintro rfl; simp at h1
      refine ⟨d.dropLast, ih.2 ⟨by simp [h1], fun i hi => ?_⟩, d.getLast hne, ?_, List.dropLast_append_getLast hne⟩
      · have := h2 i (by omega)
        rw [← List.dropLast_append_getLast hne, List.getD_append _ _ _ _ (by simp [h1]; omega)] at this
        exact this
      · have := h2 n (by omega)
        rw [← List.dropLast_append_getLast hne] at this
        simp [List.getD_append_right, h1] at this
        omega

theorem allDraws_nodup (n : Nat) : (allDraws n).Nodup := by
  induction n with
  | zero => simp [allDraws]
  | succ n ih =>
    rw [allDraws, List.nodup_flatMap]
    refine ⟨fun d _ => List.Nodup.map (fun a b h => by simpa using h) List.nodup_range, ?_⟩
    refine ih.imp ?_
    intro a b hab x hx hy
    simp only [List.mem_map] at hx hy
    obtain ⟨_, _, rfl⟩ := hx
    obtain ⟨_, _, h⟩ := hy
    exact hab ((List.append_inj' h rfl).1).symm

/-! ### positions -/

/-- One step of reservoir sampling on the positions of the updates. -/
def posStep (k : Nat) (l : List Nat) (n r : Nat) : List Nat :=
  if l.length < k then l ++ [n] else if r < l.length then l.set r n else l

/-- The positions (update numbers) held after `n` updates. -/
def positions (k : Nat) (v : Nat → Int64) (reads : Nat → Nat) (d : List Nat) : Nat → List Nat
  | 0 => []
  | n + 1 =>
    let l := posStep k (positions k v reads d n) n (d.getD n 0)
    if reads n = 0 then l else l.insertionSort (fun i j => v i ≤ v j)

theorem positions_succ_perm (k : Nat) (v : Nat → Int64) (reads : Nat → Nat) (d : List Nat) (n : Nat) :
    (positions k v reads d (n + 1)).Perm (posStep k (positions k v reads d n) n (d.getD n 0)) := by
  rw [positions]
  split
  · exact List.Perm.refl _
  · exact List.perm_insertionSort _ _

theorem positions_congr (k : Nat) (v : Nat → Int64) (reads : Nat → Nat) (d : List Nat) (r : Nat) {n : Nat} (h : n ≤ d.length) :
    positions k v reads (d ++ [r]) n = positions k v reads d n := by
  induction n with
  | zero => rfl
  | succ n ih =>
    rw [positions, positions, ih (by omega), List.getD_append _ _ _ _ (by omega)]

theorem positions_inv (k : Nat) (v : Nat → Int64) (reads : Nat → Nat) (d : List Nat) (n : Nat) :
    (positions k v reads d n).length = min n k ∧ (positions k v reads d n).Nodup ∧ ∀ i ∈ positions k v reads d n, i < n := by
  induction n with
  | zero => simp [positions]
  | succ n ih =>
    obtain ⟨h1, h2, h3⟩ := ih
    have hp := positions_succ_perm k v reads d n
    generalize hl : positions k v reads d n = l at *
    rw [hp.length_eq, hp.nodup_iff]
    refine ⟨?_, ?_, fun i hi => ?_⟩
    · unfold posStep; split_ifs <;> (try simp only [List.length_append, List.length_set, List.length_singleton]) <;> omega
    · unfold posStep
      have hn : n ∉ l := fun hn => lt_irrefl _ (h3 n hn)
      split_ifs with h h'
      · rw [List.nodup_append]
        refine ⟨h2, by simp, ?_⟩
        rintro a ha b hb rfl
        simp at hb; subst hb
        exact hn ha
      · rw [(List.set_perm_cons_eraseIdx h' n).nodup_iff, List.nodup_cons]
        exact ⟨fun hm => hn (List.mem_of_mem_eraseIdx hm), h2.sublist (List.eraseIdx_sublist _ _)⟩
      · exact h2
    · rw [hp.mem_iff] at hi
      unfold posStep at hi
      split_ifs at hi with h h'
      · rcases List.mem_append.1 hi with hi | hi
        · have := h3 i hi; omega
        · simp at hi; omega
      · rcases List.mem_or_eq_of_mem_set hi with hi | hi
        · have := h3 i hi; omega
        · omega
      · have := h3 i hi; omega

/-- The number of draws that leave exactly the positions `S` in the reservoir. -/
def outcomes (k : Nat) (v : Nat → Int64) (reads : Nat → Nat) (n : Nat) (S : Finset Nat) : Nat :=
  (allDraws n).countP fun d => (positions k v reads d n).toFinset = S

/-- Draws of the last step that lead from the positions `l` to the set `S`. -/
theorem step_count (k n : Nat) (l : List Nat) (hl : l.length = k) (hd : l.Nodup) (hlt : ∀ i ∈ l, i < n) (hkn : k ≤ n)
    (S : Finset Nat) (hS : S.card = k) :
    ((List.range (n + 1)).countP fun r => (posStep k l n r).toFinset = S) =
      if n ∈ S then (if S.erase n ⊆ l.toFinset then 1 else 0) else (if l.toFinset = S then n + 1 - k else 0) := by
  have hn : n ∉ l := fun hn => lt_irrefl _ (hlt n hn)
  have hstep : ∀ r, posStep k l n r = if r < k then l.set r n else l := by
    intro r; unfold posStep; rw [if_neg (by omega), hl]
  have hmem : ∀ r, r < k → n ∈ (l.set r n).toFinset := by
    intro r hr
    rw [List.mem_toFinset, (List.set_perm_cons_eraseIdx (by omega) n).mem_iff]; simp
  by_cases hnS : n ∈ S
  · rw [if_pos hnS]
    have key : ∀ r, r < k → ((l.set r n).toFinset = S ↔ (l.eraseIdx r).toFinset = S.erase n) := by
      intro r hr
      have h1 : (l.set r n).toFinset = insert n (l.eraseIdx r).toFinset := by
        rw [List.toFinset_eq_of_perm _ _ (List.set_perm_cons_eraseIdx (by omega) n), List.toFinset_cons]
      have h2 : n ∉ (l.eraseIdx r).toFinset := fun h => hn (List.mem_of_mem_eraseIdx (List.mem_toFinset.1 h))
      rw [h1]
      constructor
      · intro h; rw [← h, Finset.erase_insert h2]
      · intro h; rw [h, Finset.insert_erase hnS]
    have hk : 0 < k := by rw [← hS]; exact Finset.card_pos.2 ⟨n, hnS⟩
    split_ifs with hsub
    · -- exactly one element of l is missing from S
      have hcl : l.toFinset.card = k := by rw [List.toFinset_card_of_nodup hd, hl]
      have hce : (S.erase n).card = k - 1 := by rw [Finset.card_erase_of_mem hnS, hS]
      have hc1 : (l.toFinset \ S.erase n).card = 1 := by rw [Finset.card_sdiff_of_subset hsub]; omega
      obtain ⟨x, hx⟩ := Finset.card_eq_one.1 hc1
      have hxm : x ∈ l.toFinset ∧ x ∉ S.erase n := by
        rw [← Finset.mem_sdiff, hx]; simp
      have hxl : x ∈ l := List.mem_toFinset.1 hxm.1
      have hidx : l.idxOf x < k := by rw [← hl]; exact List.idxOf_lt_length_iff.2 hxl
      have : ∀ r, r < n + 1 → (((posStep k l n r).toFinset = S) ↔ r = l.idxOf x) := by
        intro r _
        rw [hstep]
        split_ifs with hr
        · rw [key r hr]
          have hperm := List.getElem_cons_eraseIdx_perm (l := l) (n := r) (by omega)
          have hins : l.toFinset = insert l[r] (l.eraseIdx r).toFinset := by
            rw [← List.toFinset_cons]; exact (List.toFinset_eq_of_perm _ _ hperm).symm
          have hnotin : l[r] ∉ (l.eraseIdx r).toFinset := by
            have := (hperm.nodup_iff).2 hd
            rw [List.nodup_cons] at this
            simpa using this.1
          constructor
          · intro h
            have : l[r] ∈ l.toFinset \ S.erase n := by
              rw [Finset.mem_sdiff]; exact ⟨by rw [hins]; simp, by rw [← h]; exact hnotin⟩
            rw [hx, Finset.mem_singleton] at this
            rw [← this, hd.idxOf_getElem]
          · intro h
            have hlr : l[r] = x := by simp only [h]; exact List.getElem_idxOf (by omega)
            rw [hlr] at hins hnotin
            rw [← Finset.erase_insert hnotin, ← hins]
            have : l.toFinset = insert x (S.erase n) := by
              rw [← Finset.sdiff_union_of_subset hsub, hx]; rfl
            rw [this, Finset.erase_insert hxm.2]
        · constructor
          · intro h; rw [← h] at hnS; exact absurd (List.mem_toFinset.1 hnS) hn
          · intro h; omega
      rw [List.countP_congr (q := fun r => r == l.idxOf x)]
      · have := List.nodup_range (n := n + 1)
        change List.count (l.idxOf x) (List.range (n + 1)) = 1
        rw [List.count_eq_one_of_mem this]
        simp; omega
      · intro r hr
        rw [List.mem_range] at hr
        simpa using this r hr
    · rw [List.countP_eq_zero]
      intro r _
      simp only [decide_eq_true_eq]
      rw [hstep]
      intro h
      split_ifs at h with hr
      · rw [key r hr] at h
        apply hsub
        rw [← h]
        intro y hy
        rw [List.mem_toFinset] at hy ⊢
        exact List.mem_of_mem_eraseIdx hy
      · rw [← h] at hnS; exact hn (List.mem_toFinset.1 hnS)
  · rw [if_neg hnS]
    have : ∀ r ∈ List.range (n + 1), (decide ((posStep k l n r).toFinset = S) = true ↔ (decide (k ≤ r ∧ l.toFinset = S)) = true) := by
      intro r _
      simp only [decide_eq_true_eq]
      rw [hstep]
      split_ifs with hr
      · constructor
        · intro h; rw [← h] at hnS; exact absurd (hmem r hr) hnS
        · rintro ⟨h, _⟩; omega
      · exact ⟨fun h => ⟨by omega, h⟩, fun h => h.2⟩
    rw [List.countP_congr this]
    split_ifs with h
    · simp only [h, and_true]
      have : List.range (n + 1) = List.range k ++ (List.range (n + 1 - k)).map (k + ·) := by
        rw [← List.range_add]; congr 1; omega
      rw [this, List.countP_append, List.countP_eq_zero.2, List.countP_map, List.countP_eq_length.2]
      · simp
      · intro a _; simp
      · intro a ha; simp at ha; simp; omega
    · simp [h]

theorem countP_allDraws_succ (n : Nat) (p : List Nat → Bool) :
    (allDraws (n + 1)).countP p = ((allDraws n).map fun d => (List.range (n + 1)).countP fun r => p (d ++ [r])).sum := by
  rw [allDraws, List.countP_flatMap]
  congr 1
  apply List.map_congr_left
  intro d _
  simp [List.countP_map, Function.comp_def]

theorem sum_ite_eq_countP {α : Type} (l : List α) (p : α → Prop) [DecidablePred p] (c : Nat) :
    (l.map fun a => if p a then c else 0).sum = l.countP (fun a => p a) * c := by
  induction l with
  | nil => simp
  | cons a l ih =>
    simp only [List.map_cons, List.sum_cons, ih, List.countP_cons]
    split_ifs <;> simp_all <;> ring

/-- The counting theorem: every `k`-subset of the positions is reached by the same number of draws. -/
theorem outcomes_eq (k : Nat) (v : Nat → Int64) (reads : Nat → Nat) (n : Nat) (hkn : k ≤ n) (S : Finset Nat)
    (hS : S.card = k) (hSn : S ⊆ Finset.range n) :
    outcomes k v reads n S = k.factorial * (n - k).factorial := by
  induction n, hkn using Nat.le_induction generalizing S with
  | base =>
    have hSk : S = Finset.range k := Finset.eq_of_subset_of_card_le hSn (by simp [hS])
    rw [outcomes, List.countP_eq_length.2, allDraws_length]
    · simp
    · intro d _
      obtain ⟨h1, h2, h3⟩ := positions_inv k v reads d k
      rw [decide_eq_true_eq, hSk]
      apply Finset.eq_of_subset_of_card_le
      · intro i hi; rw [List.mem_toFinset] at hi; simpa using h3 i hi
      · rw [List.toFinset_card_of_nodup h2, h1]; simp
  | succ n hkn ih =>
    have hinner : ∀ d ∈ allDraws n, (List.range (n + 1)).countP (fun r => (positions k v reads (d ++ [r]) (n + 1)).toFinset = S)
        = if n ∈ S then (if S.erase n ⊆ (positions k v reads d n).toFinset then 1 else 0)
          else (if (positions k v reads d n).toFinset = S then n + 1 - k else 0) := by
      intro d hd
      have hdl := (mem_allDraws.1 hd).1
      obtain ⟨h1, h2, h3⟩ := positions_inv k v reads d n
      rw [← step_count k n _ (by omega) h2 h3 hkn S hS]
      apply List.countP_congr
      intro r _
      have hp := positions_succ_perm k v reads (d ++ [r]) n
      rw [positions_congr _ _ _ _ _ hdl.ge, List.getD_append_right _ _ _ _ hdl.le] at hp
      simp only [hdl, Nat.sub_self, List.getD_cons_zero] at hp
      rw [List.toFinset_eq_of_perm _ _ hp]
    rw [outcomes, countP_allDraws_succ, List.map_congr_left hinner]
    by_cases hnS : n ∈ S
    · simp only [if_pos hnS]
      rw [sum_ite_eq_countP, mul_one]
      have hk : 0 < k := by rw [← hS]; exact Finset.card_pos.2 ⟨n, hnS⟩
      have hce : (S.erase n).card = k - 1 := by rw [Finset.card_erase_of_mem hnS, hS]
      have hsubn : S.erase n ⊆ Finset.range n := by
        intro y hy
        rw [Finset.mem_erase] at hy
        have := hSn hy.2
        simp at this ⊢; omega
      -- each supersets of S \ {n} of size k is obtained by adding one element
      have hdec : (allDraws n).countP (fun d => S.erase n ⊆ (positions k v reads d n).toFinset)
          = ∑ x ∈ Finset.range n \ S.erase n, outcomes k v reads n (insert x (S.erase n)) := by
        unfold outcomes
        have : ∀ l : List (List Nat), (l.countP (fun d => S.erase n ⊆ (positions k v reads d n).toFinset))
            = ∑ x ∈ Finset.range n \ S.erase n, l.countP (fun d => (positions k v reads d n).toFinset = insert x (S.erase n)) := by
          intro l
          induction l with
          | nil => simp
          | cons d l ihl =>
            simp only [List.countP_cons]
            rw [Finset.sum_add_distrib, ← ihl]
            congr 1
            obtain ⟨h1, h2, h3⟩ := positions_inv k v reads d n
            set P := (positions k v reads d n).toFinset with hP
            have hPc : P.card = k := by rw [hP, List.toFinset_card_of_nodup h2, h1]; omega
            have hPn : P ⊆ Finset.range n := by
              intro i hi; rw [hP, List.mem_toFinset] at hi; simpa using h3 i hi
            by_cases hsub : S.erase n ⊆ P
            · simp only [hsub, decide_true, if_true, decide_eq_true_eq]
              have hc1 : (P \ S.erase n).card = 1 := by rw [Finset.card_sdiff_of_subset hsub]; omega
              obtain ⟨x, hx⟩ := Finset.card_eq_one.1 hc1
              have hPx : P = insert x (S.erase n) := by rw [← Finset.sdiff_union_of_subset hsub, hx]; rfl
              have hxm : x ∈ P \ S.erase n := by rw [hx]; simp
              rw [Finset.mem_sdiff] at hxm
              rw [Finset.sum_eq_single x]
              · simp [hPx]
              · intro y hy hyx
                rw [Finset.mem_sdiff] at hy
                rw [if_neg]
                intro h
                have : x ∈ insert y (S.erase n) := by rw [← h]; exact hxm.1
                rw [Finset.mem_insert] at this
                rcases this with h | h
                · exact hyx h.symm
                · exact hxm.2 h
              · intro h; exact absurd (Finset.mem_sdiff.2 ⟨hPn hxm.1, hxm.2⟩) h
            · simp only [hsub, decide_false, Bool.false_eq_true, if_false, decide_eq_true_eq]
              symm
              apply Finset.sum_eq_zero
              intro y _
              rw [if_neg]
              intro h
              exact hsub (by rw [h]; exact Finset.subset_insert _ _)
        exact this _
      rw [hdec, Finset.sum_congr rfl (g := fun _ => k.factorial * (n - k).factorial)]
      · rw [Finset.sum_const, Finset.card_sdiff_of_subset hsubn, hce, Finset.card_range, smul_eq_mul]
        have : n + 1 - k = (n - k) + 1 := by omega
        rw [this, Nat.factorial_succ]
        have : n - (k - 1) = n - k + 1 := by omega
        rw [this]; ring
      · intro x hx
        rw [Finset.mem_sdiff] at hx
        apply ih
        · rw [Finset.card_insert_of_notMem hx.2, hce]; omega
        · exact Finset.insert_subset hx.1 hsubn
    · simp only [if_neg hnS]
      rw [sum_ite_eq_countP]
      have hSn' : S ⊆ Finset.range n := by
        intro y hy
        have := hSn hy
        have hne : y ≠ n := fun h => hnS (h ▸ hy)
        simp at this ⊢; omega
      have := ih S hS hSn'
      rw [outcomes] at this
      rw [this]
      have h' : n + 1 - k = (n - k) + 1 := by omega
      rw [h', Nat.factorial_succ]; ring

/-- The number of draws that keep position `i`. -/
theorem retained_eq (k : Nat) (v : Nat → Int64) (reads : Nat → Nat) (n : Nat) (hkn : k ≤ n) (i : Nat) (hi : i < n) :
    ((allDraws n).countP fun d => decide (i ∈ positions k v reads d n)) * n = k * n.factorial := by
  -- the same number of draws keeps any two positions; the total over all positions is k * n!
  have hcount : (allDraws n).countP (fun d => decide (i ∈ positions k v reads d n))
      = ∑ S ∈ (Finset.powersetCard k (Finset.range n)).filter (i ∈ ·), outcomes k v reads n S := by
    unfold outcomes
    have : ∀ l : List (List Nat), l.countP (fun d => decide (i ∈ positions k v reads d n))
        = ∑ S ∈ (Finset.powersetCard k (Finset.range n)).filter (i ∈ ·),
          l.countP (fun d => (positions k v reads d n).toFinset = S) := by
      intro l
      induction l with
      | nil => simp
      | cons d l ihl =>
        simp only [List.countP_cons]
        rw [Finset.sum_add_distrib, ← ihl]
        congr 1
        obtain ⟨h1, h2, h3⟩ := positions_inv k v reads d n
        set P := (positions k v reads d n).toFinset with hP
        have hPc : P.card = k := by rw [hP, List.toFinset_card_of_nodup h2, h1]; omega
        have hPn : P ⊆ Finset.range n := by
          intro i hi; rw [hP, List.mem_toFinset] at hi; simpa using h3 i hi
        have hmem : i ∈ positions k v reads d n ↔ i ∈ P := by rw [hP, List.mem_toFinset]
        simp only [hmem, decide_eq_true_eq]
        by_cases hiP : i ∈ P
        · rw [if_pos hiP, Finset.sum_eq_single P]
          · simp
          · intro S _ hne; rw [if_neg (fun h => hne h.symm)]
          · intro h
            exact absurd (Finset.mem_filter.2 ⟨Finset.mem_powersetCard.2 ⟨hPn, hPc⟩, hiP⟩) h
        · rw [if_neg hiP]
          symm; apply Finset.sum_eq_zero
          intro S hS
          rw [if_neg]
          rintro rfl
          exact hiP (Finset.mem_filter.1 hS).2
    exact this _
  rw [hcount, Finset.sum_congr rfl (g := fun _ => k.factorial * (n - k).factorial)]
  · rw [Finset.sum_const, smul_eq_mul]
    -- number of k-subsets containing i
    rcases Nat.eq_zero_or_pos k with rfl | hk
    · simp
    have hcard : ((Finset.powersetCard k (Finset.range n)).filter (i ∈ ·)).card = (n - 1).choose (k - 1) := by
      have : ((Finset.powersetCard k (Finset.range n)).filter (i ∈ ·))
          = (Finset.powersetCard (k - 1) ((Finset.range n).erase i)).image (insert i) := by
        ext S
        simp only [Finset.mem_filter, Finset.mem_powersetCard, Finset.mem_image]
        constructor
        · rintro ⟨⟨h1, h2⟩, h3⟩
          exact ⟨S.erase i, ⟨Finset.erase_subset_erase _ h1, by rw [Finset.card_erase_of_mem h3, h2]⟩, Finset.insert_erase h3⟩
        · rintro ⟨T, ⟨h1, h2⟩, rfl⟩
          have hiT : i ∉ T := fun h => by have := h1 h; simp at this
          refine ⟨⟨?_, by rw [Finset.card_insert_of_notMem hiT, h2]; omega⟩, Finset.mem_insert_self _ _⟩
          exact Finset.insert_subset (by simpa using hi) (h1.trans (Finset.erase_subset _ _))
      rw [this, Finset.card_image_of_injOn, Finset.card_powersetCard, Finset.card_erase_of_mem (by simpa using hi), Finset.card_range]
      intro A hA B hB hAB
      have hA' : i ∉ A := fun h => by
        have := (Finset.mem_powersetCard.1 hA).1 h; simp at this
      have hB' : i ∉ B := fun h => by
        have := (Finset.mem_powersetCard.1 hB).1 h; simp at this
      have := congrArg (Finset.erase · i) hAB
      simpa [Finset.erase_insert hA', Finset.erase_insert hB'] using this
    rw [hcard]
    obtain ⟨m, rfl⟩ : ∃ m, n = m + 1 := ⟨n - 1, by omega⟩
    obtain ⟨j, rfl⟩ : ∃ j, k = j + 1 := ⟨k - 1, by omega⟩
    simp only [Nat.add_sub_cancel]
    have h := Nat.choose_mul_factorial_mul_factorial (n := m) (k := j) (by omega)
    have h2 : m + 1 - (j + 1) = m - j := by omega
    rw [h2, Nat.factorial_succ m, Nat.factorial_succ j, ← h]; ring
  · intro S hS
    rw [Finset.mem_filter, Finset.mem_powersetCard] at hS
    exact outcomes_eq k v reads n hkn S hS.1.2 hS.1.1

/-! ### the model follows the positions -/

theorem run_append (s : UniformSample) (a b : List UniformOp) : s.run (a ++ b) = (s.run a).bind fun s' => s'.run b := by
  unfold UniformSample.run; rw [List.foldlM_append]; rfl

theorem run_reads (s : UniformSample) (m : Nat) :
    s.run (List.replicate m .percentiles) = .ok (if m = 0 then s else { s with values := sortInts s.values }) := by
  induction m generalizing s with
  | zero => rfl
  | succ m ih =>
    rw [List.replicate_succ, ← List.singleton_append, run_append]
    have : s.run [UniformOp.percentiles] = .ok { s with values := sortInts s.values } := rfl
    rw [this]
    simp only [Except.bind]
    rw [ih]
    simp [sortInts_of_sorted (sortInts_sorted s.values)]

theorem map_sortPos (v : Nat → Int64) (l : List Nat) :
    (l.insertionSort (fun i j => v i ≤ v j)).map v = sortInts (l.map v) := by
  refine sorted_unique (((List.perm_insertionSort _ l).map v).trans (sortInts_perm _).symm) ?_ (sortInts_sorted _)
  rw [List.pairwise_map]
  have : Std.Total (fun i j => v i ≤ v j) := ⟨fun i j => by simp only [i64_le]; omega⟩
  have : IsTrans Nat (fun i j => v i ≤ v j) := ⟨fun i j k => by simp only [i64_le]; omega⟩
  exact List.pairwise_insertionSort _ _

theorem updatesAndReads_succ (v : Nat → Int64) (reads : Nat → Nat) (d : List Nat) (n : Nat) :
    updatesAndReads v reads d (n + 1) = updatesAndReads v reads d n
      ++ (.update (v n) (d.getD n 0) :: List.replicate (reads n) .percentiles) := by
  simp [updatesAndReads, List.range_succ]

theorem model_positions {k : Nat} {s0 : UniformSample} (h0 : UInv k [] s0) (v : Nat → Int64) (reads : Nat → Nat) (d : List Nat)
    (n : Nat) (hn : n < 2 ^ 63) (hd : ∀ i < n, d.getD i 0 ≤ i) :
    ∃ s, s0.run (updatesAndReads v reads d n) = .ok s ∧ s.values = (positions k v reads d n).map v ∧
      s.count.toInt = n ∧ s.reservoirSize = k := by
  induction n with
  | zero =>
    have hv : s0.values = [] := List.eq_nil_of_length_eq_zero (by rw [h0.len]; simp)
    exact ⟨s0, rfl, by simp [positions, hv], h0.count, h0.size⟩
  | succ n ih =>
    obtain ⟨s, hs, hv, hc, hk⟩ := ih (by omega) (fun i hi => hd i (by omega))
    rw [updatesAndReads_succ, run_append, hs]
    simp only [Except.bind]
    rw [← List.singleton_append, run_append]
    have hlen : s.values.length = (positions k v reads d n).length := by rw [hv]; simp
    have hc' : (s.count + 1).toInt = n + 1 := by
      have : (s.count + 1).toInt = wrap64 (n + 1 : Nat) := count_succ (by rw [hc, bmod_small] <;> omega)
      rw [this, bmod_small] <;> omega
    have hu : s.run [.update (v n) (d.getD n 0)] = .ok { s with
        count := s.count + 1, values := (posStep k (positions k v reads d n) n (d.getD n 0)).map v } := by
      unfold UniformSample.run
      simp only [List.foldlM_cons, List.foldlM_nil, bind_pure, UniformSample.apply]
      unfold UniformSample.update posStep
      simp only [hk, hlen]
      by_cases h1 : (positions k v reads d n).length < k
      · rw [if_pos (by omega), if_pos h1]
        simp [hv]
      · rw [if_neg (by omega), if_neg h1]
        unfold int63n
        rw [if_neg (by rw [hc']; omega)]
        have hr := hd n (by omega)
        have : d.getD n 0 % (s.count + 1).toInt.toNat = d.getD n 0 := by
          rw [hc']; apply Nat.mod_eq_of_lt; omega
        simp only [bind, Except.bind, this]
        by_cases h2 : d.getD n 0 < (positions k v reads d n).length
        · rw [if_pos (by omega), if_pos h2]
          simp [hv, List.map_set, pure, Except.pure]
        · rw [if_neg (by omega), if_neg h2]
          simp [hv, pure, Except.pure]
    rw [hu]
    simp only [Except.bind]
    rw [run_reads]
    refine ⟨_, rfl, ?_, ?_, ?_⟩
    · rw [positions]
      dsimp only
      split
      · rfl
      · rw [map_sortPos]
    · split <;> simpa using hc'
    · split <;> exact hk

end GoMetrics
