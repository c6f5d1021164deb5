import Verif.Lemmas.Scale
import Verif.Props.Stats

/-! Property theorems C111: which values a sample keeps does not depend on the values, and a change of unit and origin of the values
is the same change of the statistics. -/

set_option linter.unusedSectionVars false

namespace GoMetrics
open Spec Stale

/-! ### What is kept -/

/-- C111: a uniform sample whose percentiles are not read between the updates. Replace every value `v` by `f v`, for any `f`, with the
same random draws: the same calls panic, `Count` is the same, and where `v` was kept `f v` is kept, in the same place. -/
theorem C111_uniform (k : Int) (s0 : UniformSample) (h0 : UniformSample.new k = .ok s0) (ops : List UniformOp) (hr : .percentiles ∉ ops) (f : Int64 → Int64) :
    s0.run (ops.map (withValue f)) = (s0.run ops).map fun s => { s with values := s.values.map f } := by
  have e : mapUniform f s0 = s0 := by
    unfold UniformSample.new at h0
    split at h0
    · cases h0
    · cases h0; rfl
  have := uniformRun_map (f := f) (.inr hr) s0
  rwa [e] at this

/-- C111: with percentile reads, which sort the reservoir in place, the same for every `f` that keeps the order. -/
theorem C111_uniform_increasing (k : Int) (s0 : UniformSample) (h0 : UniformSample.new k = .ok s0) (ops : List UniformOp) (f : Int64 → Int64) (hf : Increasing f) :
    s0.run (ops.map (withValue f)) = (s0.run ops).map fun s => { s with values := s.values.map f } := by
  have e : mapUniform f s0 = s0 := by
    unfold UniformSample.new at h0
    split at h0
    · cases h0
    · cases h0; rfl
  have := uniformRun_map (f := f) (ops := ops) (.inl hf) s0
  rwa [e] at this

/-- C111 (code violates it): with percentile reads and an `f` that does not keep the order, other values are kept. Updates with 1 and 2,
a read, and an update with 3 that replaces the first value of the slice: 2 and 3 are kept. With the values negated -1 and -3 are kept. -/
theorem C111_uniform_reads_refuted : ∃ (k : Int) (s0 s s' : UniformSample) (ops : List UniformOp) (f : Int64 → Int64), UniformSample.new k = .ok s0 ∧
    s0.run ops = .ok s ∧ s0.run (ops.map (withValue f)) = .ok s' ∧ ¬ s'.values.Perm (s.values.map f) :=
  ⟨2, ⟨0, 2, []⟩, ⟨3, 2, [3, 2]⟩, ⟨3, 2, [-3, -1]⟩, [.update 1 0, .update 2 0, .percentiles, .update 3 0], fun v => -v, rfl, by decide, by decide, by decide⟩

example : UniformSample.new 2 = .ok ⟨0, 2, []⟩ ∧ UniformOp.percentiles ∉ [UniformOp.update 1 0, .update 2 0, .update 3 0] ∧
    (⟨0, 2, []⟩ : UniformSample).run [.update 1 0, .update 2 0, .update 3 0] = .ok ⟨3, 2, [3, 2]⟩ := ⟨rfl, by decide, by decide⟩

example : Increasing fun v => if v < 0 then 0 else v := by
  intro a b h
  dsimp only
  have h0 : (0 : Int64).toInt = 0 := rfl
  by_cases ha : a < 0 <;> by_cases hb : b < 0 <;> simp only [ha, hb, if_true, if_false] <;> rw [i64_lt, h0] at ha hb <;> omega

/-- C111: an exponentially decaying sample, any `f`, any history, in any float arithmetic. With the same times and random draws the same
calls panic, and otherwise `Count` is the same and `Values` gives `f v` where it gave `v`, in the same place. -/
theorem C111_exp {F : Type} [GoFloat F] [GoSqrt F] [GoExp F] (k : Int) (alpha : F) (now : Instant) (s0 : ExpDecaySample F)
    (h0 : ExpDecaySample.new k alpha now = .ok s0) (ops : List (ExpOp F)) (f : Int64 → Int64) :
    match s0.run ops, s0.run (ops.map (withValueE f)) with
    | .error p, .error p' => p = p'
    | .ok s, .ok s' => s'.count = s.count ∧ s'.vals = s.vals.map f
    | _, _ => False := by
  have hs : ES s0 (mapExp f s0) := by
    have h := es_new h0
    have hn : s0.values.s = [] := by
      unfold ExpDecaySample.new Heap.new at h0
      split at h0
      · cases h0
      · cases h0; rfl
    refine ⟨rfl, rfl, rfl, rfl, rfl, ⟨?_, h.heap.cap, ?_⟩, h.pos⟩
    · simp [mapExp, mapHeap, hn]
    · have := h.heap.cap
      simpa [mapExp, mapHeap] using this
  have h := es_run hs (ops.map (withValueE f))
  rw [expRun_map] at h
  generalize s0.run ops = x at h ⊢
  generalize s0.run (ops.map (withValueE f)) = y at h ⊢
  cases x with
  | error p =>
    cases h
    rfl
  | ok s =>
    cases y with
    | error p => cases h
    | ok s' =>
      cases h with
      | ok h =>
        refine ⟨h.count.symm, ?_⟩
        simp [ExpDecaySample.vals, ← h.heap.s, mapExp, mapHeap, mapItem, Function.comp_def]

example : ∃ s0 : ExpDecaySample ℝ, ExpDecaySample.new 2 (1 / 100 : ℝ) 0 = .ok s0 := ⟨_, rfl⟩

/-! ### The statistics -/

section exact
variable {K : Type} [_root_.Field K] [LinearOrder K] [IsStrictOrderedRing K] [FloorRing K]

private theorem mean_eq (vs : List Int64) (h : vs ≠ []) (hs : SumFits vs) : (sampleMean vs : K) = (total vs : K) / vs.length := by
  have hl : vs.length ≠ 0 := by simpa using h
  unfold sampleMean
  rw [if_neg hl, C11_sum_exact vs hs]
  simp

private theorem total_map {a b : Int} {f : Int64 → Int64} (vs : List Int64) (h : ChangesUnit a b f vs) :
    total (vs.map f) = a * total vs + b * vs.length ∧ totalSq (vs.map f) = a * a * totalSq vs + 2 * a * b * total vs + b * b * vs.length := by
  induction vs with
  | nil => simp [total, totalSq]
  | cons v vs ih =>
    obtain ⟨h1, h2⟩ := ih fun w hw => h w (.tail _ hw)
    have hv := h v List.mem_cons_self
    simp only [total, totalSq, List.map_cons, List.sum_cons, List.length_cons] at h1 h2 ⊢
    rw [hv, h1, h2]
    push_cast
    constructor <;> ring

/-- C111, maximum and minimum: under every `f` that keeps the order. -/
theorem C111_extremes (vs : List Int64) (h : vs ≠ []) (f : Int64 → Int64) (hf : Increasing f) :
    sampleMax (vs.map f) = f (sampleMax vs) ∧ sampleMin (vs.map f) = f (sampleMin vs) := by
  have hm : vs.map f ≠ [] := by simpa using h
  constructor
  · obtain ⟨a1, a2⟩ := C10_max vs h
    obtain ⟨b1, b2⟩ := C10_max _ hm
    obtain ⟨w, hw, e⟩ := List.mem_map.1 b1
    have := hf _ _ (a2 w hw)
    have := b2 _ (List.mem_map_of_mem a1)
    rw [← e] at this ⊢
    exact Int64.toInt_inj.1 (by omega)
  · obtain ⟨a1, a2⟩ := C10_min vs h
    obtain ⟨b1, b2⟩ := C10_min _ hm
    obtain ⟨w, hw, e⟩ := List.mem_map.1 b1
    have := hf _ _ (a2 w hw)
    have := b2 _ (List.mem_map_of_mem a1)
    rw [← e] at this ⊢
    exact Int64.toInt_inj.1 (by omega)

/-- C111, mean and variance in exact arithmetic: if every value `x` becomes `a·x + b` and both sums fit in int64, the mean becomes
`a·mean + b` and the variance is multiplied by `a²`; `a` may be negative. -/
theorem C111_mean_variance (vs : List Int64) (h : vs ≠ []) (a b : Int) (f : Int64 → Int64) (hf : ChangesUnit a b f vs)
    (hs : SumFits vs) (hs' : SumFits (vs.map f)) :
    (sampleMean (vs.map f) : K) = a * sampleMean vs + b ∧ (sampleVariance (vs.map f) : K) = a ^ 2 * sampleVariance vs := by
  have hm : vs.map f ≠ [] := by simpa using h
  have hl : (vs.length : K) ≠ 0 := by
    have : vs.length ≠ 0 := by simpa using h
    exact_mod_cast this
  obtain ⟨h1, h2⟩ := total_map vs hf
  rw [mean_eq _ h hs, mean_eq _ hm hs', C13_variance_formula _ h hs, C13_variance_formula _ hm hs', h1, h2, List.length_map]
  push_cast
  constructor <;> field_simp <;> ring

/-- C111, percentiles in exact arithmetic: if every value `x` becomes `a·x + b` with `a` not negative, every percentile `y` becomes
`a·y + b`. -/
theorem C111_percentile (vs : List Int64) (h : vs ≠ []) (a b : Int) (ha : 0 ≤ a) (f : Int64 → Int64) (hf : ChangesUnit a b f vs) (p : K) :
    ∃ (y : K) (ws ws' : List Int64), samplePercentile vs p = .ok (y, ws) ∧ samplePercentile (vs.map f) p = .ok (a * y + b, ws') := by
  have hl := sortInts_length vs
  have hn : 0 < (sortInts vs).length := by rw [hl]; exact List.length_pos_of_ne_nil h
  have hx : SortedOf (sortInts vs) vs := ⟨sortInts_perm vs, (sortInts_sorted vs).imp i64_le.1⟩
  have hmem : ∀ v ∈ sortInts vs, (f v).toInt = a * v.toInt + b := fun v hv => hf v ((sortInts_perm vs).subset hv)
  have hy : SortedOf ((sortInts vs).map f) (vs.map f) := by
    refine ⟨(sortInts_perm vs).map f, ?_⟩
    rw [List.pairwise_map]
    refine hx.2.imp_of_mem fun {x y} hx hy hxy => ?_
    rw [hmem x hx, hmem y hy]
    have := mul_le_mul_of_nonneg_left hxy ha
    omega
  have e : ∀ (i : Nat) (hi : i < ((sortInts vs).map f).length), ((((sortInts vs).map f)[i]'hi).toInt : K) = a * ((sortInts vs)[i]'(by simpa using hi)).toInt + b := by
    intro i hi
    rw [List.getElem_map, hmem _ (List.getElem_mem _)]
    push_cast
    rfl
  obtain ⟨x1, x2, x3⟩ := C16_rank_interpolation vs _ hx hn p
  obtain ⟨y1, y2, y3⟩ := C16_rank_interpolation (vs.map f) _ hy (by simpa using hn) p
  simp only [List.length_map, e] at y1 y2 y3
  rcases C16_cases _ hn (p * ((sortInts vs).length + 1)) with hc | hc | ⟨k, k1, k2, k3, k4⟩
  · obtain ⟨ws, hw⟩ := x1 hc
    obtain ⟨ws', hw'⟩ := y1 hc
    exact ⟨_, ws, ws', hw, hw'⟩
  · obtain ⟨ws, hw⟩ := x2 hc
    obtain ⟨ws', hw'⟩ := y2 hc
    exact ⟨_, ws, ws', hw, hw'⟩
  · obtain ⟨ws, hw⟩ := x3 k k1 k2 k3 k4
    obtain ⟨ws', hw'⟩ := y3 k k1 k2 k3 k4
    refine ⟨_, ws, ws', hw, ?_⟩
    rw [hw']
    congr 2
    ring

end exact

/-- C111, standard deviation over the reals: multiplied by |a|. -/
theorem C111_stdDev (vs : List Int64) (h : vs ≠ []) (a b : Int) (f : Int64 → Int64) (hf : ChangesUnit a b f vs) (hs : SumFits vs) (hs' : SumFits (vs.map f)) :
    (sampleStdDev (vs.map f) : ℝ) = |(a : ℝ)| * sampleStdDev vs := by
  obtain ⟨h1, h2⟩ := C13_stddev_sq vs
  obtain ⟨h3, h4⟩ := C13_stddev_sq (vs.map f)
  rw [(C111_mean_variance (K := ℝ) vs h a b f hf hs hs').2, ← h1, ← sq_abs (a : ℝ), ← mul_pow] at h3
  exact (sq_eq_sq₀ h4 (mul_nonneg (abs_nonneg _) h2)).1 h3

/-- C111 (the limit of the claim): a change of origin under which the sum leaves int64 does not change the mean by that much. -/
theorem C111_overflow_refuted : ∃ (vs : List Int64) (f : Int64 → Int64) (b : Int), vs ≠ [] ∧ ChangesUnit 1 b f vs ∧ SumFits vs ∧ (sampleMean (vs.map f) : ℚ) ≠ sampleMean vs + b := by
  refine ⟨[0, 0], fun v => v + Int64.maxValue, 2 ^ 63 - 1, by decide, ?_, by decide, ?_⟩
  · intro v hv
    simp at hv
    subst hv
    decide
  · have e : sampleSum ([0, 0].map fun v => v + Int64.maxValue) = -2 := by decide
    have e' : sampleSum [0, 0] = 0 := by decide
    simp only [sampleMean, e, e', List.length_map, show (-2 : Int64).toInt = -2 by decide, show (0 : Int64).toInt = 0 by decide]
    norm_num

example : ([1, 2, 6] : List Int64) ≠ [] ∧ ChangesUnit 1000 5 (fun v => 1000 * v + 5) [1, 2, 6] ∧ SumFits [1, 2, 6] ∧
    SumFits (([1, 2, 6] : List Int64).map fun v => 1000 * v + 5) := by
  refine ⟨by decide, ?_, by decide, by decide⟩
  intro v hv
  simp at hv
  rcases hv with rfl | rfl | rfl <;> decide

end GoMetrics
