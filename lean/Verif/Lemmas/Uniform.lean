import Verif.Spec.Sample
import Verif.Lemmas.Stats
import Mathlib.Data.List.Perm.Subperm
import Mathlib.Data.List.Induction
import Mathlib.Data.Nat.Choose.Basic
import Mathlib.Data.Finset.Powerset
import Mathlib.Algebra.BigOperators.Group.Finset.Basic
import Mathlib.Algebra.BigOperators.Ring.Finset

/-! Invariants of `UniformSample`. -/

set_option linter.unusedSimpArgs false

namespace GoMetrics
open Spec

theorem uniformGiven_snoc (ops : List UniformOp) (o : UniformOp) :
    uniformGiven (ops ++ [o]) = match o with
      | .update v _ => uniformGiven ops ++ [v]
      | .clear => []
      | .percentiles => uniformGiven ops := by
  unfold uniformGiven
  rw [List.foldl_append]
  cases o <;> rfl

/-- What holds of a uniform sample of size `k` after the values `g` were given. -/
structure UInv (k : Nat) (g : List Int64) (s : UniformSample) : Prop where
  size : s.reservoirSize = k
  count : s.count.toInt = wrap64 g.length
  len : s.values.length = min g.length k
  sub : s.values.Subperm g

theorem UInv.perm {k g s} (h : UInv k g s) (hk : g.length ≤ k) : s.values.Perm g := by
  refine h.sub.perm_of_length_le ?_
  rw [h.len]; omega

theorem uniform_new_inv (k : Nat) : ∃ s, UniformSample.new (k : Int) = .ok s ∧ UInv k [] s := by
  refine ⟨{ count := 0, reservoirSize := k, values := [] }, ?_, ?_⟩
  · unfold UniformSample.new; rw [if_neg (by omega)]
  · exact ⟨rfl, (by decide : (0 : Int64).toInt = wrap64 0), by simp, by simp⟩

theorem count_succ {c : Int64} {n : Nat} (h : c.toInt = wrap64 n) : (c + 1).toInt = wrap64 (n + 1 : Nat) := by
  rw [Int64.toInt_add, h]
  simp [wrap64]

theorem update_inv {k g s s'} (h : UInv k g s) (v : Int64) (r : Nat) (hu : s.update v r = .ok s') : UInv k (g ++ [v]) s' := by
  have hc := count_succ h.count
  unfold UniformSample.update at hu
  simp only at hu
  split at hu
  · rename_i hl
    cases hu
    refine ⟨h.size, by simpa using hc, ?_, ?_⟩
    · have := h.len; have := h.size; simp; omega
    · exact h.sub.append (List.Subperm.refl _)
  · rename_i hl
    have hlen := h.len
    have hsz := h.size
    have hg : g.Subperm (g ++ [v]) := (List.sublist_append_left g [v]).subperm
    unfold int63n at hu
    split at hu
    · cases hu
    · simp only [bind, Except.bind] at hu
      split at hu
      · rename_i hr
        cases hu
        refine ⟨h.size, by simpa using hc, by simp; omega, ?_⟩
        refine (List.set_perm_cons_eraseIdx (by omega) v).subperm.trans ?_
        refine List.Subperm.trans ?_ (List.perm_append_singleton v g).symm.subperm
        exact (List.subperm_cons v).2 ((List.eraseIdx_sublist _ _).subperm.trans h.sub)
      · cases hu
        exact ⟨h.size, by simpa using hc, by simp; omega, h.sub.trans hg⟩

theorem update_ok {k g s} (h : UInv k g s) (v : Int64) (r : Nat) (hn : g.length + 1 < 2 ^ 63) : ∃ s', s.update v r = .ok s' := by
  have hc := count_succ h.count
  rw [bmod_small (by omega) (by omega)] at hc
  unfold UniformSample.update
  simp only
  split
  · exact ⟨_, rfl⟩
  · unfold int63n
    rw [if_neg (by rw [hc]; omega)]
    simp only [bind, Except.bind]
    split <;> exact ⟨_, rfl⟩

theorem clear_inv {k g s} (h : UInv k g s) : UInv k [] s.clear :=
  ⟨h.size, (by decide : (0 : Int64).toInt = wrap64 0), by simp [UniformSample.clear], by simp [UniformSample.clear]⟩

theorem percentiles_inv {F : Type} [GoFloat F] {k g s} (h : UInv k g s) (ps : List F) : UInv k g (s.percentiles ps).2 :=
  ⟨h.size, h.count, by simp [UniformSample.percentiles, sortInts_length, h.len],
    (sortInts_perm _).subperm.trans h.sub⟩

theorem uniform_run_inv {k : Nat} {s0 : UniformSample} (h0 : UInv k [] s0) (ops : List UniformOp) (s : UniformSample)
    (h : s0.run ops = .ok s) : UInv k (uniformGiven ops) s := by
  induction ops using List.reverseRecOn generalizing s with
  | nil => cases h; exact h0
  | append_singleton ops o ih =>
    unfold UniformSample.run at h ih
    rw [List.foldlM_append] at h
    match hr : ops.foldlM UniformSample.apply s0 with
    | .error e => rw [hr] at h; cases h
    | .ok s1 =>
      rw [hr] at h
      have hi := ih s1 hr
      simp only [List.foldlM_cons, List.foldlM_nil, bind, Except.bind, pure, Except.pure] at h
      rw [uniformGiven_snoc]
      cases o with
      | update v r =>
        simp only [UniformSample.apply] at h
        match hu : s1.update v r with
        | .error e => rw [hu] at h; cases h
        | .ok s2 => rw [hu] at h; cases h; exact update_inv hi v r hu
      | clear => cases h; exact clear_inv hi
      | percentiles => cases h; exact percentiles_inv hi _

theorem uniformGiven_length_le (ops : List UniformOp) : (uniformGiven ops).length ≤ nUpdates ops := by
  induction ops using List.reverseRecOn with
  | nil => simp [uniformGiven]
  | append_singleton ops o ih =>
    rw [uniformGiven_snoc, nUpdates, List.countP_append]
    unfold nUpdates at ih
    cases o <;> simp <;> omega

theorem uniform_run_ok {k : Nat} {s0 : UniformSample} (h0 : UInv k [] s0) (ops : List UniformOp)
    (hn : nUpdates ops < 2 ^ 63) : ∃ s, s0.run ops = .ok s := by
  induction ops using List.reverseRecOn with
  | nil => exact ⟨s0, rfl⟩
  | append_singleton ops o ih =>
    have hle : nUpdates ops ≤ nUpdates (ops ++ [o]) := by unfold nUpdates; rw [List.countP_append]; omega
    obtain ⟨s1, hs1⟩ := ih (by omega)
    have hi := uniform_run_inv h0 ops s1 hs1
    unfold UniformSample.run at hs1 ⊢
    rw [List.foldlM_append, hs1]
    simp only [List.foldlM_cons, List.foldlM_nil, bind, Except.bind, pure, Except.pure]
    cases o with
    | clear => exact ⟨_, rfl⟩
    | percentiles => exact ⟨_, rfl⟩
    | update v r =>
      have : nUpdates (ops ++ [.update v r]) = nUpdates ops + 1 := by simp [nUpdates]
      have := uniformGiven_length_le ops
      obtain ⟨s2, h2⟩ := update_ok hi v r (by omega)
      exact ⟨s2, by simp [UniformSample.apply, h2]⟩

end GoMetrics
