import Verif.Model.Stats
import Mathlib.Data.List.Sort
import Mathlib.Order.Basic
import Mathlib.Data.List.Perm.Basic
import Mathlib.Algebra.BigOperators.Group.List.Basic
import Mathlib.Algebra.Order.BigOperators.Group.List
import Mathlib.Algebra.BigOperators.Ring.List
import Mathlib.Tactic.Linarith

/-! Lemmas about the statistics functions. -/

set_option linter.unusedSimpArgs false

namespace GoMetrics

/-! ### int64 order -/

theorem i64_le {a b : Int64} : a ≤ b ↔ a.toInt ≤ b.toInt := Int64.le_iff_toInt_le
theorem i64_lt {a b : Int64} : a < b ↔ a.toInt < b.toInt := Int64.lt_iff_toInt_lt

theorem i64_range (a : Int64) : -2 ^ 63 ≤ a.toInt ∧ a.toInt < 2 ^ 63 := ⟨Int64.le_toInt a, Int64.toInt_lt a⟩

theorem bmod_small {z : Int} (h1 : -2 ^ 63 ≤ z) (h2 : z < 2 ^ 63) : wrap64 z = z := by
  rw [wrap64, Int.bmod_eq_of_le] <;> omega

/-! ### max / min / sum -/

theorem foldl_max (values : List Int64) (m : Int64) :
    let r := values.foldl (fun max v => if max < v then v else max) m
    (r = m ∨ r ∈ values) ∧ m ≤ r ∧ ∀ v ∈ values, v ≤ r := by
  induction values generalizing m with
  | nil => simp [i64_le]
  | cons v vs ih =>
    simp only [List.foldl_cons]
    obtain ⟨h1, h2, h3⟩ := ih (if m < v then v else m)
    refine ⟨?_, ?_, ?_⟩
    · rcases h1 with h1 | h1
      · rw [h1]; split_ifs <;> simp
      · exact .inr (List.mem_cons_of_mem _ h1)
    · refine i64_le.2 (le_trans ?_ (i64_le.1 h2))
      split_ifs with h
      · exact le_of_lt (i64_lt.1 h)
      · exact le_refl _
    · intro w hw
      rcases List.mem_cons.1 hw with rfl | hw
      · refine i64_le.2 (le_trans ?_ (i64_le.1 h2))
        split_ifs with h
        · exact le_refl _
        · rw [i64_lt] at h; omega
      · exact h3 w hw

theorem foldl_min (values : List Int64) (m : Int64) :
    let r := values.foldl (fun min v => if min > v then v else min) m
    (r = m ∨ r ∈ values) ∧ r ≤ m ∧ ∀ v ∈ values, r ≤ v := by
  induction values generalizing m with
  | nil => simp [i64_le]
  | cons v vs ih =>
    simp only [List.foldl_cons]
    obtain ⟨h1, h2, h3⟩ := ih (if m > v then v else m)
    refine ⟨?_, ?_, ?_⟩
    · rcases h1 with h1 | h1
      · rw [h1]; split_ifs <;> simp
      · exact .inr (List.mem_cons_of_mem _ h1)
    · refine i64_le.2 (le_trans (i64_le.1 h2) ?_)
      split_ifs with h
      · exact le_of_lt (i64_lt.1 h)
      · exact le_refl _
    · intro w hw
      rcases List.mem_cons.1 hw with rfl | hw
      · refine i64_le.2 (le_trans (i64_le.1 h2) ?_)
        split_ifs with h
        · exact le_refl _
        · rw [gt_iff_lt, i64_lt] at h; omega
      · exact h3 w hw

theorem sampleSum_toInt (values : List Int64) : (sampleSum values).toInt = wrap64 (values.map Int64.toInt).sum := by
  have : ∀ (s : Int64), (values.foldl (fun sum v => sum + v) s).toInt = wrap64 (s.toInt + (values.map Int64.toInt).sum) := by
    induction values with
    | nil => intro s; simp [wrap64]
    | cons v vs ih =>
      intro s
      rw [List.foldl_cons, ih]
      simp [wrap64, add_assoc]
  simpa [sampleSum] using this 0

/-! ### sorting -/

theorem sortInts_perm (values : List Int64) : (sortInts values).Perm values := List.perm_insertionSort _ _

theorem sortInts_length (values : List Int64) : (sortInts values).length = values.length := (sortInts_perm values).length_eq

instance : Std.Total (fun a b : Int64 => a ≤ b) := ⟨fun a b => by simp only [i64_le]; omega⟩
instance : IsTrans Int64 (fun a b : Int64 => a ≤ b) := ⟨fun a b c => by simp only [i64_le]; omega⟩

theorem sortInts_sorted (values : List Int64) : (sortInts values).Pairwise (· ≤ ·) := List.pairwise_insertionSort _ _

theorem sorted_unique {a b : List Int64} (hp : a.Perm b) (ha : a.Pairwise (· ≤ ·)) (hb : b.Pairwise (· ≤ ·)) : a = b := by
  refine hp.eq_of_pairwise ?_ ha hb
  intro x y _ _ h1 h2
  rw [i64_le] at h1 h2
  exact Int64.toInt_inj.1 (by omega)

theorem sortInts_eq_of_perm {a b : List Int64} (h : a.Perm b) : sortInts a = sortInts b :=
  sorted_unique ((sortInts_perm a).trans (h.trans (sortInts_perm b).symm)) (sortInts_sorted a) (sortInts_sorted b)

theorem sortInts_of_sorted {a : List Int64} (h : a.Pairwise (· ≤ ·)) : sortInts a = a :=
  sorted_unique (sortInts_perm a) (sortInts_sorted a) h

theorem sorted_get {a : List Int64} (h : a.Pairwise (· ≤ ·)) {i j : Nat} (hij : i ≤ j) (hj : j < a.length) :
    a[i].toInt ≤ a[j].toInt := by
  rcases Nat.lt_or_eq_of_le hij with hlt | rfl
  · exact i64_le.1 (List.pairwise_iff_getElem.1 h i j (by omega) hj hlt)
  · exact le_refl _

theorem index_ok {α : Type} {a : List α} {i : Int} (h0 : 0 ≤ i) (h1 : i < a.length) :
    ∃ h : i.toNat < a.length, index a i = .ok a[i.toNat] := by
  have h : i.toNat < a.length := by omega
  refine ⟨h, ?_⟩
  unfold index
  rw [if_pos h0, List.getElem?_eq_getElem h]

end GoMetrics
