import Verif.Spec.Scale
import Verif.Spec.Stats
import Verif.Lemmas.Stale
import Verif.Lemmas.Percentile

/-! Lemmas for C111. -/

set_option linter.unusedSectionVars false

namespace GoMetrics
open Spec Stale
variable {F : Type} [GoFloat F]
variable {α β γ : Type}

theorem res_map_bind (x : Res α) (g : α → β) (k : β → Res γ) : (x.map g >>= k) = (x >>= fun a => k (g a)) := by cases x <;> rfl
theorem res_bind_map (x : Res α) (k : α → Res β) (g : β → γ) : (x >>= k).map g = (x >>= fun a => (k a).map g) := by cases x <;> rfl
theorem res_bind_congr {x : Res α} {k l : α → Res β} (h : ∀ a, k a = l a) : (x >>= k) = (x >>= l) := by cases x <;> simp [bind, Except.bind, h]

theorem index_map (l : List α) (i : Int) (g : α → β) : index (l.map g) i = (index l i).map g := by
  unfold index
  split
  · rw [List.getElem?_map]
    cases l[i.toNat]? <;> rfl
  · rfl

/-! ### Exponentially decaying samples -/

/-- The same priority, another value. -/
def mapItem (f : Int64 → Int64) (x : Item F) : Item F := { x with v := f x.v }

def mapHeap (f : Int64 → Int64) (h : Heap F) : Heap F := ⟨h.s.map (mapItem f), h.rest.map (mapItem f)⟩

theorem swapItems_map (f : Int64 → Int64) (s : List (Item F)) (i j : Nat) : swapItems (s.map (mapItem f)) i j = (swapItems s i j).map (List.map (mapItem f)) := by
  unfold swapItems
  rw [index_map, index_map, res_map_bind, res_bind_map]
  refine res_bind_congr fun a => ?_
  rw [res_map_bind, res_bind_map]
  refine res_bind_congr fun b => ?_
  simp [pure, Except.pure, Except.map, List.map_set]

theorem heapUp_map (f : Int64 → Int64) (s : List (Item F)) (j : Nat) : heapUp (s.map (mapItem f)) j = (heapUp s j).map (List.map (mapItem f)) := by
  induction j using Nat.strong_induction_on generalizing s with
  | _ j ih =>
    rw [heapUp, heapUp.eq_def s j]
    dsimp only
    split
    · rfl
    · rename_i h
      rw [index_map, index_map, res_map_bind, res_bind_map]
      refine res_bind_congr fun a => ?_
      rw [res_map_bind, res_bind_map]
      refine res_bind_congr fun b => ?_
      change (if (!GoFloat.lt a.k b.k) = true then _ else _) = _
      split
      · rfl
      · rw [swapItems_map, res_map_bind, res_bind_map]
        exact res_bind_congr fun s' => ih _ (by omega) s'

theorem heapDown_map (f : Int64 → Int64) (s : List (Item F)) (i n : Nat) : heapDown (s.map (mapItem f)) i n = (heapDown s i n).map (List.map (mapItem f)) := by
  induction hk : n - i using Nat.strong_induction_on generalizing s i with
  | _ k ih =>
    rw [heapDown, heapDown.eq_def s i n]
    split
    · rfl
    · rename_i h
      rw [index_map, res_map_bind, res_bind_map]
      refine res_bind_congr fun a1 => ?_
      have e : ∀ (k : {j : Nat // i < j ∧ j < n} → Res (List (Item F))) (l : {j : Nat // i < j ∧ j < n} → Res (List (Item F))), (∀ j, k j = (l j).map (List.map (mapItem f))) →
          ((if h2 : 2 * i + 2 < n then do
              let a2 ← index (s.map (mapItem f)) (2 * i + 2 : Nat)
              return (if !(GoFloat.lt (mapItem f a1).k a2.k) then (⟨2 * i + 2, by omega⟩ : {j : Nat // i < j ∧ j < n}) else ⟨2 * i + 1, by omega⟩)
            else return ⟨2 * i + 1, by omega⟩ : Res {j : Nat // i < j ∧ j < n}) >>= k) =
          ((if h2 : 2 * i + 2 < n then do
              let a2 ← index s (2 * i + 2 : Nat)
              return (if !(GoFloat.lt a1.k a2.k) then (⟨2 * i + 2, by omega⟩ : {j : Nat // i < j ∧ j < n}) else ⟨2 * i + 1, by omega⟩)
            else return ⟨2 * i + 1, by omega⟩ : Res {j : Nat // i < j ∧ j < n}) >>= l).map (List.map (mapItem f)) := by
        intro k l hkl
        split
        · rw [index_map, res_map_bind]
          change Except.bind (Except.bind _ _) _ = Except.map _ (Except.bind (Except.bind _ _) _)
          cases index s ((2 * i + 2 : Nat) : Int) with
          | error _ => rfl
          | ok a2 => exact hkl _
        · exact hkl _
      refine e _ _ fun j => ?_
      rw [index_map, index_map, res_map_bind, res_bind_map]
      refine res_bind_congr fun b => ?_
      rw [res_map_bind, res_bind_map]
      refine res_bind_congr fun a => ?_
      change (if (!GoFloat.lt b.k a.k) = true then _ else _) = _
      split
      · rfl
      · rw [swapItems_map, res_map_bind, res_bind_map]
        exact res_bind_congr fun s' => ih _ (by have := j.2; omega) s' _ rfl

theorem push_map (f : Int64 → Int64) (h : Heap F) (x : Item F) : (mapHeap f h).push (mapItem f x) = (h.push x).map (mapHeap f) := by
  obtain ⟨s, rest⟩ := h
  cases rest with
  | nil => rfl
  | cons y rest =>
    simp only [Heap.push, mapHeap, List.map_cons, List.length_map]
    rw [show s.map (mapItem f) ++ [mapItem f x] = (s ++ [x]).map (mapItem f) by simp, heapUp_map, res_map_bind, res_bind_map]
    exact res_bind_congr fun s' => rfl

theorem pop_map (f : Int64 → Int64) (h : Heap F) : (mapHeap f h).pop = (h.pop).map fun p => (mapItem f p.1, mapHeap f p.2) := by
  obtain ⟨s, rest⟩ := h
  simp only [Heap.pop, mapHeap, List.length_map]
  cases s.length with
  | zero => rfl
  | succ n =>
    dsimp only
    rw [swapItems_map, res_map_bind, res_bind_map]
    refine res_bind_congr fun s1 => ?_
    rw [heapDown_map, res_map_bind, res_bind_map]
    refine res_bind_congr fun s2 => ?_
    rw [index_map, res_map_bind, res_bind_map]
    refine res_bind_congr fun x => ?_
    simp [pure, Except.pure, Except.map, mapHeap]

theorem rescaleLoop_map (f : Int64 → Int64) (c : F) (n i : Nat) (h : Heap F) :
    ExpDecaySample.rescaleLoop c n i (mapHeap f h) = (ExpDecaySample.rescaleLoop c n i h).map (mapHeap f) := by
  induction hk : n - i using Nat.strong_induction_on generalizing i h with
  | _ k ih =>
    rw [ExpDecaySample.rescaleLoop, ExpDecaySample.rescaleLoop.eq_def c n i h]
    split
    · rw [show (mapHeap f h).s ++ (mapHeap f h).rest = (h.s ++ h.rest).map (mapItem f) by simp [mapHeap], index_map, res_map_bind, res_bind_map]
      refine res_bind_congr fun x => ?_
      rw [show ({ k := GoFloat.mul (mapItem f x).k c, v := (mapItem f x).v } : Item F) = mapItem f { k := GoFloat.mul x.k c, v := x.v } from rfl, push_map, res_map_bind, res_bind_map]
      exact res_bind_congr fun h' => ih _ (by omega) _ _ rfl
    · rfl

variable [GoSqrt F] [GoExp F]

def mapExp (f : Int64 → Int64) (s : ExpDecaySample F) : ExpDecaySample F := { s with values := mapHeap f s.values }

theorem update_map (f : Int64 → Int64) (s : ExpDecaySample F) (t : Instant) (v : Int64) (u : F) : (mapExp f s).update t (f v) u = (s.update t v u).map (mapExp f) := by
  unfold ExpDecaySample.update
  dsimp only [mapExp]
  have e : ∀ (k l : Heap F → Res (ExpDecaySample F)), (∀ h, k (mapHeap f h) = (l h).map (mapExp f)) →
      ((if ((mapHeap f s.values).size : Int) = s.reservoirSize then do
          let (_, h) ← (mapHeap f s.values).pop
          return h
        else return mapHeap f s.values : Res (Heap F)) >>= k) =
      ((if (s.values.size : Int) = s.reservoirSize then do
          let (_, h) ← s.values.pop
          return h
        else return s.values : Res (Heap F)) >>= l).map (mapExp f) := by
    intro k l hkl
    rw [show (mapHeap f s.values).size = s.values.size by simp [Heap.size, mapHeap]]
    split
    · rw [pop_map]
      cases s.values.pop with
      | error _ => rfl
      | ok p => exact hkl p.2
    · exact hkl _
  refine e _ _ fun h => ?_
  rw [show ({ k := ExpDecaySample.key s.alpha s.t0 t u, v := f v } : Item F) = mapItem f { k := ExpDecaySample.key s.alpha s.t0 t u, v := v } from rfl, push_map, res_map_bind, res_bind_map]
  refine res_bind_congr fun h' => ?_
  split
  · rw [show (mapHeap f h').s.length = h'.s.length by simp [mapHeap], show (mapHeap f h').clear = mapHeap f h'.clear by simp [mapHeap, Heap.clear], rescaleLoop_map, res_map_bind, res_bind_map]
    exact res_bind_congr fun _ => rfl
  · rfl

theorem expRun_map (f : Int64 → Int64) (ops : List (ExpOp F)) (s : ExpDecaySample F) : (mapExp f s).run (ops.map (withValueE f)) = (s.run ops).map (mapExp f) := by
  unfold ExpDecaySample.run
  induction ops generalizing s with
  | nil => rfl
  | cons o ops ih =>
    rw [List.map_cons, List.foldlM_cons, List.foldlM_cons]
    have e : (mapExp f s).apply (withValueE f o) = (s.apply o).map (mapExp f) := by
      cases o with
      | update t v u => exact update_map f s t v u
      | clear now => simp [withValueE, ExpDecaySample.apply, ExpDecaySample.clear, mapExp, mapHeap, Heap.clear, Except.map]
    rw [e, res_map_bind, res_bind_map]
    exact res_bind_congr fun s' => ih s'

theorem es_run {s s' : ExpDecaySample F} (h : ES s s') (ops : List (ExpOp F)) : RelRes ES (s.run ops) (s'.run ops) := by
  unfold ExpDecaySample.run
  induction ops generalizing s s' with
  | nil => exact .ok h
  | cons o ops ih =>
    rw [List.foldlM_cons, List.foldlM_cons]
    have e : RelRes ES (s.apply o) (s'.apply o) := by
      cases o with
      | update t v u => exact es_update h t v u
      | clear now => exact .ok (es_clear h now)
    generalize s.apply o = x at e ⊢
    generalize s'.apply o = y at e ⊢
    cases e with
    | error p => exact .error p
    | ok h' => exact ih h'

/-! ### Uniform samples -/

theorem sortInts_map {f : Int64 → Int64} (hf : Increasing f) (l : List Int64) : sortInts (l.map f) = (sortInts l).map f := by
  refine sorted_unique ((sortInts_perm _).trans ((sortInts_perm l).symm.map f)) (sortInts_sorted _) ?_
  rw [List.pairwise_map]
  exact (sortInts_sorted l).imp fun h => i64_le.2 (hf _ _ (i64_le.1 h))

def mapUniform (f : Int64 → Int64) (s : UniformSample) : UniformSample := { s with values := s.values.map f }

theorem uniformUpdate_map (f : Int64 → Int64) (s : UniformSample) (v : Int64) (d : Nat) : (mapUniform f s).update (f v) d = (s.update v d).map (mapUniform f) := by
  unfold UniformSample.update
  dsimp only [mapUniform]
  rw [List.length_map]
  split
  · simp [Except.map, mapUniform]
  · rw [res_bind_map]
    refine res_bind_congr fun r => ?_
    split
    · simp [pure, Except.pure, Except.map, mapUniform, List.map_set]
    · rfl

theorem uniformRun_map {f : Int64 → Int64} {ops : List UniformOp} (h : Increasing f ∨ .percentiles ∉ ops) (s : UniformSample) :
    (mapUniform f s).run (ops.map (withValue f)) = (s.run ops).map (mapUniform f) := by
  unfold UniformSample.run
  induction ops generalizing s with
  | nil => rfl
  | cons o ops ih =>
    rw [List.map_cons, List.foldlM_cons, List.foldlM_cons]
    have e : (mapUniform f s).apply (withValue f o) = (s.apply o).map (mapUniform f) := by
      cases o with
      | update v d => exact uniformUpdate_map f s v d
      | clear => rfl
      | percentiles =>
        rcases h with h | h
        · simp [withValue, UniformSample.apply, UniformSample.percentiles, mapUniform, Except.map, sortInts_map h]
        · simp at h
    rw [e, res_map_bind, res_bind_map]
    exact res_bind_congr fun s' => ih (h.imp_right fun h hm => h (.tail _ hm)) s'

end GoMetrics
