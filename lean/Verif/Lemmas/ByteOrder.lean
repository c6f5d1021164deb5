import Verif.Spec.Export

/-! The order of byte strings. -/

set_option linter.unusedSimpArgs false

namespace GoMetrics
open Spec

theorem before_iff (a b : Str) : a < b ↔ Before a b := by
  induction a generalizing b with
  | nil =>
    cases b with
    | nil =>
      refine iff_of_false (by simp) ?_
      rintro ⟨c, ⟨y, t, h1, h2⟩ | ⟨x, s, y, t, h1, h2, -⟩⟩ <;> simp at h2
    | cons y t => exact iff_of_true (List.nil_lt_cons _ _) ⟨[], .inl ⟨y, t, rfl, rfl⟩⟩
  | cons x a ih =>
    cases b with
    | nil =>
      refine iff_of_false (by simp) ?_
      rintro ⟨c, ⟨y, t, h1, h2⟩ | ⟨x, s, y, t, h1, h2, -⟩⟩ <;> simp at h2
    | cons y b =>
      rw [List.cons_lt_cons_iff, ih]
      constructor
      · rintro (h | ⟨rfl, c, ⟨y', t, h1, h2⟩ | ⟨x', s, y', t, h1, h2, h3⟩⟩)
        · exact ⟨[], .inr ⟨x, a, y, b, rfl, rfl, UInt8.lt_iff_toNat_lt.1 h⟩⟩
        · exact ⟨x :: c, .inl ⟨y', t, by rw [h1], by rw [h2]; rfl⟩⟩
        · exact ⟨x :: c, .inr ⟨x', s, y', t, by rw [h1]; rfl, by rw [h2]; rfl, h3⟩⟩
      · rintro ⟨c, ⟨y', t, h1, h2⟩ | ⟨x', s, y', t, h1, h2, h3⟩⟩
        · subst h1
          simp only [List.cons_append, List.cons.injEq] at h2
          exact .inr ⟨h2.1.symm, a, .inl ⟨y', t, rfl, h2.2⟩⟩
        · cases c with
          | nil =>
            simp only [List.nil_append, List.cons.injEq] at h1 h2
            obtain ⟨rfl, rfl⟩ := h1
            obtain ⟨rfl, rfl⟩ := h2
            exact .inl (UInt8.lt_iff_toNat_lt.2 h3)
          | cons z c =>
            simp only [List.cons_append, List.cons.injEq] at h1 h2
            exact .inr ⟨h1.1.trans h2.1.symm, c, .inr ⟨x', s, y', t, h1.2, h2.2, h3⟩⟩

theorem lt_tri (a b : Str) : a < b ∨ a = b ∨ b < a := by
  induction a generalizing b with
  | nil => cases b <;> simp
  | cons x a ih =>
    cases b with
    | nil => simp
    | cons y b =>
      simp only [List.cons_lt_cons_iff, List.cons.injEq]
      have : x < y ∨ x = y ∨ y < x := by
        rw [UInt8.lt_iff_toNat_lt, UInt8.lt_iff_toNat_lt, ← UInt8.toNat_inj]; omega
      rcases this with h | h | h
      · exact .inl (.inl h)
      · rcases ih b with h' | h' | h'
        · exact .inl (.inr ⟨h, h'⟩)
        · exact .inr (.inl ⟨h, h'⟩)
        · exact .inr (.inr (.inr ⟨h.symm, h'⟩))
      · exact .inr (.inr (.inl h))

theorem lt_asym {a b : Str} (h : a < b) : ¬ b < a := by
  induction a generalizing b with
  | nil => simp
  | cons x a ih =>
    cases b with
    | nil => simp at h
    | cons y b =>
      rw [List.cons_lt_cons_iff] at h ⊢
      rintro (h' | ⟨rfl, h'⟩)
      · rcases h with h | ⟨rfl, h⟩
        · exact UInt8.lt_asymm h h'
        · exact UInt8.lt_irrefl _ h'
      · rcases h with h | ⟨-, h⟩
        · exact UInt8.lt_irrefl _ h
        · exact ih h h'

theorem lt_trans' {a b c : Str} (h : a < b) (h' : b < c) : a < c := by
  induction a generalizing b c with
  | nil => cases c <;> simp at h' ⊢
  | cons x a ih =>
    cases b with
    | nil => simp at h
    | cons y b =>
      cases c with
      | nil => simp at h'
      | cons z c =>
        rw [List.cons_lt_cons_iff] at h h' ⊢
        rcases h with h | ⟨rfl, h⟩ <;> rcases h' with h' | ⟨rfl, h'⟩
        · exact .inl (UInt8.lt_trans h h')
        · exact .inl h
        · exact .inl h'
        · exact .inr ⟨rfl, ih h h'⟩

theorem pairwise_lt_of_sorted {α : Type} {l : List (Str × α)} (hs : l.Pairwise fun a b => ¬ b.1 < a.1) (hk : (l.map Prod.fst).Nodup) : (l.map Prod.fst).Pairwise (· < ·) := by
  rw [List.pairwise_map]
  rw [List.Nodup, List.pairwise_map] at hk
  refine (hs.and hk).imp ?_
  rintro a b ⟨h1, h2⟩
  rcases lt_tri a.1 b.1 with h | h | h
  · exact h
  · exact absurd h h2
  · exact absurd h h1

end GoMetrics
