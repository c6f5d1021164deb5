import Verif.Lemmas.Meter
import Verif.Lemmas.Ewma
import Verif.Spec.Shards
import Mathlib.Algebra.BigOperators.Group.Finset.Basic
import Mathlib.Algebra.BigOperators.Ring.Finset
import Mathlib.Algebra.Order.BigOperators.Group.Finset
import Mathlib.Tactic.Linarith

/-! Moving averages are linear; their response to a change of traffic. -/

set_option linter.unusedSimpArgs false

namespace GoMetrics
open Spec Finset

section
variable {K : Type} [Field K]

/-- One step of a moving average that may not have started. -/
def avgStep (alpha : K) (st : Option K) (x : K) : Option K := some (match st with | none => x | some r => r + alpha * (x - r))

theorem movingAvg_eq (alpha : K) (xs : List K) : movingAvg alpha xs = (xs.foldl (avgStep alpha) none).getD 0 := by
  cases xs with
  | nil => rfl
  | cons x xs =>
    have : ∀ (l : List K) (r : K), l.foldl (avgStep alpha) (some r) = some (l.foldl (fun r x => r + alpha * (x - r)) r) := by
      intro l
      induction l with
      | nil => intro r; rfl
      | cons y l ih => intro r; exact ih _
    simp only [List.foldl_cons]
    show _ = (List.foldl (avgStep alpha) (some x) xs).getD 0
    rw [this]; rfl

/-- States of the parts and of the whole. -/
def Sums (s : Nat) (st : Nat → Option K) (t : Option K) : Prop :=
  ((∀ i, st i = none) ∧ t = none) ∨ ∃ r : Nat → K, (∀ i, st i = some (r i)) ∧ t = some (∑ i ∈ range s, r i)

theorem sums_step {s : Nat} {st : Nat → Option K} {t : Option K} (h : Sums s st t) (alpha : K) (x : Nat → K) :
    Sums s (fun i => avgStep alpha (st i) (x i)) (avgStep alpha t (∑ i ∈ range s, x i)) := by
  rcases h with ⟨h1, rfl⟩ | ⟨r, h1, rfl⟩
  · exact .inr ⟨x, fun i => by simp only [h1]; rfl, rfl⟩
  · refine .inr ⟨fun i => r i + alpha * (x i - r i), fun i => by simp only [h1]; rfl, ?_⟩
    simp only [avgStep]
    rw [sum_add_distrib, ← mul_sum, sum_sub_distrib]

theorem sums_val {s : Nat} {st : Nat → Option K} {t : Option K} (h : Sums s st t) : t.getD 0 = ∑ i ∈ range s, (st i).getD 0 := by
  rcases h with ⟨h1, rfl⟩ | ⟨r, h1, rfl⟩
  · simp [h1]
  · simp [h1]

variable (alpha : K) (g : Int → K)

def avgOf (st : Option K) (cur : Int) (ops : List EwmaOp) : Option K := ((intervalsFrom cur ops).map g).foldl (avgStep alpha) st

theorem avgOf_update (st : Option K) (cur : Int) (n : Int64) (ops : List EwmaOp) :
    avgOf alpha g st cur (.update n :: ops) = avgOf alpha g st (cur + n.toInt) ops := rfl

theorem avgOf_tick (st : Option K) (cur : Int) (ops : List EwmaOp) :
    avgOf alpha g st cur (.tick :: ops) = avgOf alpha g (avgStep alpha st (g cur)) 0 ops := rfl

theorem shard_mark_same (i : Nat) (n : Int64) (now : Instant) (ops : List (MeterOp × Nat)) :
    shard i ((.mark n now, i) :: ops) = .mark n now :: shard i ops := by simp [shard]
theorem shard_mark_other {i l : Nat} (h : l ≠ i) (n : Int64) (now : Instant) (ops : List (MeterOp × Nat)) :
    shard i ((.mark n now, l) :: ops) = shard i ops := by simp [shard, h]
theorem shard_tick (i l : Nat) (now : Instant) (ops : List (MeterOp × Nat)) : shard i ((.tick now, l) :: ops) = .tick now :: shard i ops := by
  simp [shard]
theorem shard_stop (i l : Nat) (ops : List (MeterOp × Nat)) : shard i ((.stop, l) :: ops) = .stop :: shard i ops := by
  simp [shard]

theorem ticksOf_shard (i : Nat) (ops : List (MeterOp × Nat)) : ticksOf (shard i ops) = ticksOf (whole ops) := by
  induction ops with
  | nil => rfl
  | cons o ops ih =>
    obtain ⟨o, l⟩ := o
    cases o with
    | mark n now =>
      by_cases h : l = i
      · subst h; rw [shard_mark_same, ticksOf_mark, ih]; exact (ticksOf_mark _ _ _).symm
      · rw [shard_mark_other h, ih]; exact (ticksOf_mark _ _ _).symm
    | tick now => rw [shard_tick, ticksOf_tick, ih]; exact (ticksOf_tick _ _).symm
    | stop => rw [shard_stop, ticksOf_stop, ih]; exact (ticksOf_stop _).symm

variable (hg : ∀ (s : Nat) (c : Nat → Int), g (∑ i ∈ range s, c i) = ∑ i ∈ range s, g (c i))
include hg

theorem avg_ticks (s : Nat) (ops : List (MeterOp × Nat)) : ∀ (cur : Nat → Int) (st : Nat → Option K) (t : Option K), Sums s st t →
    Sums s (fun i => avgOf alpha g (st i) (cur i) (ticksOf (shard i ops))) (avgOf alpha g t (∑ i ∈ range s, cur i) (ticksOf (whole ops))) := by
  simp only [ticksOf_shard]
  induction whole ops with
  | nil => intro cur st t h; exact h
  | cons o l ih =>
    intro cur st t h
    cases o with
    | mark n now => exact ih cur st t h
    | stop => exact ih cur st t h
    | tick now =>
      simp only [ticksOf_tick, avgOf_tick, hg]
      have := ih (fun _ => 0) _ _ (sums_step h alpha fun i => g (cur i))
      simpa using this

/-- The averages of the meters that share a stream add up to the average of the whole stream. -/
theorem avg_shards (s : Nat) (ops : List (MeterOp × Nat)) (hl : ∀ o ∈ ops, o.2 < s) :
    ∀ (cur : Nat → Int) (st : Nat → Option K) (t : Option K), Sums s st t →
    Sums s (fun i => avgOf alpha g (st i) (cur i) (marksAndTicks (shard i ops)))
      (avgOf alpha g t (∑ i ∈ range s, cur i) (marksAndTicks (whole ops))) := by
  induction ops with
  | nil => intro cur st t h; exact h
  | cons o ops ih =>
    intro cur st t h
    have ih' := ih fun o ho => hl o (List.mem_cons_of_mem _ ho)
    have hlt := hl o List.mem_cons_self
    obtain ⟨o, l⟩ := o
    cases o with
    | mark n now =>
      have := ih' (fun i => if i = l then cur i + n.toInt else cur i) st t h
      have e : ∑ i ∈ range s, (if i = l then cur i + n.toInt else cur i) = ∑ i ∈ range s, cur i + n.toInt := by
        have : ∀ i ∈ range s, (if i = l then cur i + n.toInt else cur i) = cur i + if i = l then n.toInt else 0 := by
          intro i _; split <;> simp
        rw [sum_congr rfl this, sum_add_distrib, sum_ite_eq' (range s) l, if_pos (by simpa using hlt)]
      rw [e] at this
      convert this using 1
      · funext i
        by_cases hi : i = l
        · subst hi; rw [shard_mark_same, if_pos rfl]; rfl
        · rw [shard_mark_other (fun e => hi e.symm), if_neg hi]
      · rfl
    | tick now =>
      have := ih' (fun _ => 0) _ _ (sums_step h alpha fun i => g (cur i))
      simp only [shard_tick]
      show Sums s (fun i => avgOf alpha g (avgStep alpha (st i) (g (cur i))) 0 (marksAndTicks (shard i ops)))
        (avgOf alpha g (avgStep alpha t (g (∑ i ∈ range s, cur i))) 0 (marksAndTicks (whole ops)))
      rw [hg]
      simpa using this
    | stop =>
      simp only [shard_stop]
      exact avg_ticks alpha g hg s ops cur st t h

theorem movingAvg_shards (s : Nat) (ops : List (MeterOp × Nat)) (hl : ∀ o ∈ ops, o.2 < s) :
    movingAvg alpha ((intervals (marksAndTicks (whole ops))).map g) = ∑ i ∈ range s, movingAvg alpha ((intervals (marksAndTicks (shard i ops))).map g) := by
  have h := avg_shards alpha g hg s ops hl (fun _ => 0) (fun _ => none) none (.inl ⟨fun _ => rfl, rfl⟩)
  have := sums_val h
  simp only [sum_const_zero] at this
  simp only [movingAvg_eq]
  exact this

omit hg in
/-- The response to steady traffic. -/
theorem movingAvg_steady (before : List K) (n : Nat) (x : K) (h : before ≠ []) :
    movingAvg alpha (before ++ List.replicate n x) = x + (1 - alpha) ^ n * (movingAvg alpha before - x) := by
  cases before with
  | nil => exact absurd rfl h
  | cons y ys =>
    induction n with
    | zero => simp
    | succ n ih =>
      rw [List.replicate_succ', ← List.append_assoc]
      simp only [movingAvg, List.cons_append, List.foldl_append, List.foldl_cons, List.foldl_nil] at ih ⊢
      rw [ih, pow_succ]
      ring

end

end GoMetrics
