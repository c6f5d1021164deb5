import Verif.Model.Cost
import Verif.Spec.Cost
import Verif.Lemmas.ExpDecay
import Mathlib.Data.Nat.Log

set_option linter.unusedSectionVars false

/-! Lemmas for C110: the counting version computes the same, and how far the counter gets. -/

namespace GoMetrics
variable {F : Type} [GoFloat F]
variable {α β : Type}

/-- Apart from the counter, `m` is `r`. -/
def Erases (m : Counting α) (r : Res α) : Prop := ∀ n, (m n).map Prod.fst = r

theorem Erases.pure (a : α) : Erases (Pure.pure a : Counting α) (.ok a) := fun _ => rfl
theorem Erases.lift (r : Res α) : Erases (liftM r : Counting α) r := by intro n; cases r <;> rfl
theorem Erases.less (a b : F) : Erases (lessC a b) (.ok (GoFloat.lt a b)) := fun _ => rfl
theorem Erases.throw (e : Panic) : Erases (MonadExcept.throw e : Counting α) (.error e) := fun _ => rfl

theorem Erases.bind {m : Counting α} {r : Res α} {f : α → Counting β} {g : α → Res β} (h : Erases m r) (hf : ∀ a, Erases (f a) (g a)) :
    Erases (m >>= f) (r >>= g) := by
  intro n
  rw [← h n]
  change Except.map Prod.fst (Except.bind (m n) fun p => f p.1 p.2) = Except.bind (Except.map Prod.fst (m n)) g
  cases hm : m n with
  | error e => rfl
  | ok p => exact hf p.1 p.2

theorem Erases.lessBind {a b : F} {f : Bool → Counting β} {r : Res β} (h : Erases (f (GoFloat.lt a b)) r) : Erases (lessC a b >>= f) r := fun n => h (n + 1)

theorem heapUpC_erases (s : List (Item F)) (j : Nat) : Erases (heapUpC s j) (heapUp s j) := by
  induction j using Nat.strong_induction_on generalizing s with
  | _ j ih =>
    rw [heapUpC, heapUp]
    split
    · exact .pure s
    · rename_i h
      refine .bind (.lift _) fun a => .bind (.lift _) fun b => ?_
      refine .lessBind ?_
      split
      · exact .pure s
      · exact .bind (.lift _) fun s' => ih _ (by omega) s'

theorem heapDownC_erases (s : List (Item F)) (i n : Nat) : Erases (heapDownC s i n) (heapDown s i n) := by
  induction hk : n - i using Nat.strong_induction_on generalizing s i with
  | _ k ih =>
    rw [heapDownC, heapDown]
    split
    · exact .pure s
    · rename_i h
      refine .bind (.lift _) fun a1 => .bind ?_ fun j => .bind (.lift _) fun b => .bind (.lift _) fun a => ?_
      · split
        · refine .bind (.lift _) fun a2 => ?_
          exact .lessBind (.pure _)
        · exact .pure _
      · refine .lessBind ?_
        split
        · exact .pure s
        · exact .bind (.lift _) fun s' => ih _ (by have := j.2; omega) s' _ rfl

theorem pushC_erases (h : Heap F) (x : Item F) : Erases (h.pushC x) (h.push x) := by
  unfold Heap.pushC Heap.push
  generalize h.rest = r
  cases r
  · exact .throw _
  · exact .bind (heapUpC_erases _ _) fun _ => .pure _

theorem popC_erases (h : Heap F) : Erases h.popC h.pop := by
  unfold Heap.popC Heap.pop
  generalize h.s.length = n
  cases n
  · exact .throw _
  · exact .bind (.lift _) fun _ => .bind (heapDownC_erases _ _ _) fun _ => .bind (.lift _) fun _ => .pure _

/-- `m` adds at most `c` to the counter, and what it returns satisfies `P`. -/
def Costs (m : Counting α) (c : Nat) (P : α → Prop := fun _ => True) : Prop := ∀ n a n', m n = .ok (a, n') → n' ≤ n + c ∧ P a

theorem Costs.pure {P : α → Prop} (a : α) (h : P a) : Costs (Pure.pure a : Counting α) 0 P := by
  intro n x n' e; cases e; exact ⟨by omega, h⟩
theorem Costs.lift (r : Res α) : Costs (liftM r : Counting α) 0 := by
  intro n x n' e
  cases r with
  | error => cases e
  | ok => cases e; exact ⟨by omega, trivial⟩
theorem Costs.less (a b : F) : Costs (lessC a b) 1 := by
  intro n x n' e; cases e; exact ⟨by omega, trivial⟩
theorem Costs.throw {P : α → Prop} (e : Panic) : Costs (MonadExcept.throw e : Counting α) 0 P := by
  intro n x n' e; cases e

theorem Costs.bind {m : Counting α} {f : α → Counting β} {c d : Nat} {P : α → Prop} {Q : β → Prop} (h : Costs m c P) (hf : ∀ a, P a → Costs (f a) d Q) :
    Costs (m >>= f) (c + d) Q := by
  intro n b n' e
  change Except.bind (m n) (fun p => f p.1 p.2) = .ok (b, n') at e
  cases hm : m n with
  | error x => rw [hm] at e; cases e
  | ok p =>
    obtain ⟨a, n1⟩ := p
    rw [hm] at e
    obtain ⟨h1, hp⟩ := h n a n1 hm
    obtain ⟨h2, hq⟩ := hf a hp n1 b n' e
    exact ⟨by omega, hq⟩

theorem Costs.mono {m : Counting α} {c d : Nat} {P : α → Prop} (h : Costs m c P) (hd : c ≤ d) : Costs m d P := fun n a n' e => by
  obtain ⟨h1, h2⟩ := h n a n' e
  exact ⟨by omega, h2⟩

/-- What holds of the result of the version without counter. -/
theorem Costs.erased {m : Counting α} {c : Nat} {r : Res α} (h : Costs m c) (he : Erases m r) : Costs m c fun a => r = .ok a := fun n a n' e => by
  refine ⟨(h n a n' e).1, ?_⟩
  rw [← he n, e]; rfl

theorem heapUpC_costs (s : List (Item F)) (j : Nat) : Costs (heapUpC s j) (Nat.log 2 (j + 1)) := by
  induction j using Nat.strong_induction_on generalizing s with
  | _ j ih =>
    rw [heapUpC]
    split
    · exact (Costs.pure s trivial).mono (by omega)
    · rename_i h
      have hlog : Nat.log 2 (j + 1) = Nat.log 2 ((j - 1) / 2 + 1) + 1 := by
        rw [Nat.log_of_one_lt_of_le (by omega) (by omega)]
        congr 2
        omega
      refine ((Costs.lift _).bind fun a _ => (Costs.lift _).bind (d := 1 + Nat.log 2 ((j - 1) / 2 + 1)) fun b _ => (Costs.less _ _).bind (d := Nat.log 2 ((j - 1) / 2 + 1)) fun c _ => ?_).mono (by omega)
      cases c
      · exact (Costs.pure s trivial).mono (by omega)
      · exact ((Costs.lift _).bind fun s' _ => ih _ (by omega) s').mono (by omega)

theorem heapDownC_costs (s : List (Item F)) (i n : Nat) : Costs (heapDownC s i n) (2 * Nat.log 2 (n / (i + 1))) := by
  induction hk : n - i using Nat.strong_induction_on generalizing s i with
  | _ k ih =>
    rw [heapDownC]
    split
    · exact (Costs.pure s trivial).mono (by omega)
    · rename_i h
      have hlog : Nat.log 2 (n / (i + 1)) = Nat.log 2 (n / (2 * (i + 1))) + 1 := by
        rw [Nat.log_of_one_lt_of_le (by omega) (by rw [Nat.le_div_iff_mul_le (by omega)]; omega), Nat.div_div_eq_div_mul, Nat.mul_comm]
      refine ((Costs.lift _).bind fun a1 _ => Costs.bind (c := 1) (d := 1 + 2 * Nat.log 2 (n / (2 * (i + 1)))) (P := fun j => 2 * i + 1 ≤ j.1) ?_ fun j hj =>
        ((Costs.lift _).bind fun b _ => (Costs.lift _).bind fun a _ => (Costs.less _ _).bind (d := 2 * Nat.log 2 (n / (2 * (i + 1)))) fun c _ => ?_).mono (by omega)).mono (by omega)
      · split
        · refine ((Costs.lift _).bind fun a2 _ => (Costs.less _ _).bind fun c _ => Costs.pure _ ?_).mono (by omega)
          cases c <;> simp
        · exact (Costs.pure _ (by simp)).mono (by omega)
      · cases c
        · exact (Costs.pure s trivial).mono (by omega)
        · refine ((Costs.lift _).bind fun s' _ => ih _ (by have := j.2; omega) s' _ rfl).mono ?_
          have := Nat.log_mono_right (b := 2) (Nat.div_le_div_left (show 2 * (i + 1) ≤ j.1 + 1 by omega) (by omega) (a := n))
          omega

theorem pushC_costs (h : Heap F) (x : Item F) : Costs (h.pushC x) (Nat.log 2 (h.s.length + 1)) fun h' => h'.s.length = h.s.length + 1 := by
  have : Costs (h.pushC x) (Nat.log 2 (h.s.length + 1)) := by
    unfold Heap.pushC
    split
    · exact (Costs.throw _).mono (by omega)
    · exact ((heapUpC_costs _ _).bind fun _ _ => Costs.pure _ trivial).mono (by omega)
  intro n a n' e
  obtain ⟨h1, h2⟩ := (this.erased (pushC_erases h x)) n a n' e
  refine ⟨h1, ?_⟩
  cases hr : h.rest with
  | nil => rw [Heap.push, hr] at h2; cases h2
  | cons y rest =>
    obtain ⟨h', e', p, _⟩ := push_spec h x y rest hr
    rw [e'] at h2
    cases h2
    simpa using p.length_eq

theorem popC_costs (h : Heap F) : Costs h.popC (2 * Nat.log 2 (h.s.length - 1)) fun p => p.2.s.length = h.s.length - 1 := by
  have : Costs h.popC (2 * Nat.log 2 (h.s.length - 1)) := by
    unfold Heap.popC
    split
    · exact (Costs.throw _).mono (by omega)
    · rename_i n hn
      refine ((Costs.lift _).bind fun _ _ => (heapDownC_costs _ 0 n).bind fun _ _ => (Costs.lift _).bind fun _ _ => Costs.pure _ trivial).mono ?_
      simp [hn]
  intro n a n' e
  obtain ⟨h1, h2⟩ := (this.erased (popC_erases h)) n a n' e
  refine ⟨h1, ?_⟩
  by_cases hne : h.s = []
  · rw [Heap.pop, hne] at h2; cases h2
  · obtain ⟨x, h', e', p, _⟩ := pop_spec h hne
    rw [e'] at h2
    cases h2
    have := p.length_eq
    simp at this
    simp; omega

variable [GoExp F]
open ExpDecaySample

theorem rescaleLoopC_erases (f : F) (n i : Nat) (h : Heap F) : Erases (rescaleLoopC f n i h) (rescaleLoop f n i h) := by
  induction hk : n - i using Nat.strong_induction_on generalizing h i with
  | _ k ih =>
    rw [rescaleLoopC, rescaleLoop]
    split
    · exact .bind (.lift _) fun x => .bind (pushC_erases _ _) fun h' => ih _ (by omega) _ _ rfl
    · exact .pure h

theorem rescaleLoopC_costs (f : F) (n i : Nat) (h : Heap F) (hi : h.s.length = i) : Costs (rescaleLoopC f n i h) ((n - i) * Nat.log 2 n) := by
  induction hk : n - i using Nat.strong_induction_on generalizing h i with
  | _ k ih =>
    rw [rescaleLoopC]
    split
    · have h1 : Nat.log 2 (h.s.length + 1) ≤ Nat.log 2 n := Nat.log_mono_right (by omega)
      refine ((Costs.lift _).bind fun x _ => (pushC_costs _ _).bind (d := (n - (i + 1)) * Nat.log 2 n) fun h' hl => ?_).mono ?_
      · exact ih _ (by omega) (i + 1) h' (by omega) rfl
      · have : k * Nat.log 2 n = (n - (i + 1)) * Nat.log 2 n + Nat.log 2 n := by
          rw [show k = (n - (i + 1)) + 1 by omega, Nat.succ_mul]
        omega
    · exact (Costs.pure h trivial).mono (by omega)

theorem updateC_erases (s : ExpDecaySample F) (t : Instant) (v : Int64) (u : F) : Erases (s.updateC t v u) (s.update t v u) := by
  unfold updateC update
  dsimp only
  refine .bind ?_ fun h => .bind (pushC_erases _ _) fun h => ?_
  · split
    · exact .bind (popC_erases _) fun _ => .pure _
    · exact .pure _
  · split
    · exact .bind (rescaleLoopC_erases _ _ _ _) fun _ => .pure _
    · exact .pure _

theorem runC_erases (ops : List (ExpOp F)) (s : ExpDecaySample F) : Erases (s.runC ops) (s.run ops) := by
  unfold runC ExpDecaySample.run
  induction ops generalizing s with
  | nil => exact .pure s
  | cons o ops ih =>
    rw [List.foldlM_cons, List.foldlM_cons]
    refine .bind ?_ fun s' => ih s'
    cases o
    · exact updateC_erases s _ _ _
    · exact .pure _

/-- The comparisons of one update. -/
theorem updateC_costs {k : Nat} (hk : 0 < k) {s : ExpDecaySample F} (hs : Shape k s) (t : Instant) (v : Int64) (u : F) :
    Costs (s.updateC t v u) (3 * Nat.log 2 k + if t > s.t1 then k * Nat.log 2 k else 0) := by
  have hsz := hs.size
  have hcap := hs.cap
  unfold updateC
  dsimp only
  refine (Costs.bind (c := 2 * Nat.log 2 k) (d := Nat.log 2 k + if t > s.t1 then k * Nat.log 2 k else 0) (P := fun h => h.s.length + 1 ≤ k) ?_ fun h hl => ?_).mono (by omega)
  · split
    · rename_i hf
      rw [hsz, Heap.size] at hf
      refine ((popC_costs _).bind fun p hp => Costs.pure p.2 ?_).mono ?_
      · change p.2.s.length = s.values.s.length - 1 at hp
        omega
      · have := Nat.log_mono_right (b := 2) (show s.values.s.length - 1 ≤ k by omega)
        omega
    · rename_i hf
      rw [hsz, Heap.size] at hf
      exact (Costs.pure _ (by omega)).mono (by omega)
  · refine ((pushC_costs _ _).bind (d := if t > s.t1 then k * Nat.log 2 k else 0) fun h' hl' => ?_).mono ?_
    · split
      · refine ((rescaleLoopC_costs (factor s.alpha s.t0 t) h'.s.length 0 h'.clear rfl).bind (Q := fun _ => True) fun _ _ => Costs.pure _ trivial).mono ?_
        simp only [Nat.sub_zero, Nat.add_zero]
        exact Nat.mul_le_mul (by omega) (Nat.log_mono_right (by omega))
      · exact Costs.pure _ trivial
    · have := Nat.log_mono_right (b := 2) hl
      omega

open Spec in
/-- The comparisons of a history of calls. -/
theorem runC_costs {k : Nat} (hk : 0 < k) (T : Instant) (ops : List (ExpOp F)) (s : ExpDecaySample F) (hs : Shape k s) (h1 : s.t1 = s.t0 + hour) (hT : InOrder s.t0 T ops) :
    Costs (s.runC ops) (3 * Nat.log 2 k * updateCalls ops + k * Nat.log 2 k * hoursBetween s.t0 T) := by
  induction ops generalizing s with
  | nil => exact (Costs.pure s trivial).mono (by omega)
  | cons o ops ih =>
    obtain ⟨hp, hr⟩ := hT
    rw [List.map_cons, List.pairwise_cons] at hp
    have ho := hr o (List.mem_cons_self ..)
    have hrest : InOrder (opTime o) T ops :=
      ⟨hp.2, fun x hx => ⟨hp.1 _ (List.mem_map_of_mem hx), (hr x (List.mem_cons_of_mem _ hx)).2⟩⟩
    have hrest' : InOrder s.t0 T ops := ⟨hp.2, fun x hx => hr x (List.mem_cons_of_mem _ hx)⟩
    unfold runC
    rw [List.foldlM_cons]
    cases o with
    | clear now =>
      have := ih (s.clear now) ⟨hs.size, by have := hs.cap; simp [ExpDecaySample.clear, Heap.clear]; omega⟩ rfl hrest
      refine ((Costs.pure (P := fun x => x = s.clear now) (s.clear now) rfl).bind (d := 3 * Nat.log 2 k * updateCalls ops + k * Nat.log 2 k * hoursBetween now T) fun s' e => by subst e; exact this).mono ?_
      have hh : hoursBetween now T ≤ hoursBetween s.t0 T := by
        unfold hoursBetween
        simp only [opTime] at ho
        omega
      have := Nat.mul_le_mul_left (k * Nat.log 2 k) hh
      simp only [updateCalls, List.countP_cons, ExpDecaySample.clear] at this ⊢
      simpa using this
    | update t v u =>
      obtain ⟨s1, _, _, e1, hs1, _, _, et0, et1, _⟩ := update_spec k hk s hs t v u
      have hc := (updateC_costs hk hs t v u).erased (updateC_erases s t v u)
      have hcalls : updateCalls (ExpOp.update t v u :: ops) = updateCalls ops + 1 := by simp [updateCalls]
      rw [hcalls, Nat.mul_add, Nat.mul_one]
      by_cases ht : t > s.t1
      · rw [if_pos ht] at et0 et1 hc
        have := ih s1 hs1 (by rw [et0, et1]) (by rw [et0]; exact hrest)
        refine (hc.bind (d := 3 * Nat.log 2 k * updateCalls ops + k * Nat.log 2 k * hoursBetween s1.t0 T) fun s' e => ?_).mono ?_
        · rw [e1] at e; cases e; exact this
        · rw [et0]
          have hh : hoursBetween t T + 1 ≤ hoursBetween s.t0 T := by
            rw [h1] at ht
            unfold hoursBetween
            simp only [opTime, hour] at ho ht
            omega
          have := Nat.mul_le_mul_left (k * Nat.log 2 k) hh
          rw [Nat.mul_add, Nat.mul_one] at this
          omega
      · rw [if_neg ht] at et0 et1 hc
        have := ih s1 hs1 (by rw [et0, et1, h1]) (by rw [et0]; exact hrest')
        refine (hc.bind (d := 3 * Nat.log 2 k * updateCalls ops + k * Nat.log 2 k * hoursBetween s1.t0 T) fun s' e => ?_).mono ?_
        · rw [e1] at e; cases e; exact this
        · rw [et0]; omega

end GoMetrics
