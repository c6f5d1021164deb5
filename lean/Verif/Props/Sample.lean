import Verif.Lemmas.Reservoir
import Verif.Lemmas.ExpKeys

/-! Property theorems C19–C29: the two reservoir samples. -/

set_option linter.unusedSimpArgs false
set_option linter.unusedSectionVars false

namespace GoMetrics
open Spec

private theorem new_inv {k : Nat} {s0 : UniformSample} (h : UniformSample.new (k : Int) = .ok s0) : UInv k [] s0 := by
  obtain ⟨s, h1, h2⟩ := uniform_new_inv k
  rw [h] at h1; cases h1; exact h2

/-! ### C19 -/

/-- C19: the size is min(updates since the last Clear, k), for every random outcome. -/
theorem C19_size (k : Nat) (ops : List UniformOp) (s0 s : UniformSample) (hnew : UniformSample.new k = .ok s0)
    (hrun : s0.run ops = .ok s) : s.size = min (uniformGiven ops).length k :=
  (uniform_run_inv (new_inv hnew) ops s hrun).len

/-- C19: until the reservoir is full it holds exactly the values given. -/
theorem C19_keeps_all (k : Nat) (ops : List UniformOp) (s0 s : UniformSample) (hnew : UniformSample.new k = .ok s0)
    (hrun : s0.run ops = .ok s) (hle : (uniformGiven ops).length ≤ k) : s.values.Perm (uniformGiven ops) :=
  (uniform_run_inv (new_inv hnew) ops s hrun).perm hle

example : ∃ s0 s, UniformSample.new 2 = .ok s0 ∧
    s0.run [.update 9 0, .clear, .update 5 0, .update 3 7, .percentiles, .update 8 4] = .ok s ∧ s.values = [3, 8] :=
  ⟨{ count := 0, reservoirSize := 2, values := [] }, { count := 3, reservoirSize := 2, values := [3, 8] }, by decide, by decide, by decide⟩

/-! ### C20 -/

/-- C20: the values held are a sub-multiset of the values given since the last Clear. -/
theorem C20_only_given (k : Nat) (ops : List UniformOp) (s0 s : UniformSample) (hnew : UniformSample.new k = .ok s0)
    (hrun : s0.run ops = .ok s) : s.values.Subperm (uniformGiven ops) :=
  (uniform_run_inv (new_inv hnew) ops s hrun).sub

example : uniformGiven [.update 9 0, .clear, .update 5 0, .update 3 7, .percentiles, .update 8 4] = [5, 3, 8] := by decide

/-! ### C21 -/

private theorem values_toFinset {v : Nat → Int64} {n : Nat} (hinj : ∀ i < n, ∀ j < n, v i = v j → i = j) {p : List Nat}
    (hp : ∀ i ∈ p, i < n) {S : Finset Nat} (hS : S ⊆ Finset.range n) : (p.map v).toFinset = S.image v ↔ p.toFinset = S := by
  constructor
  · intro h
    ext i
    constructor
    · intro hi
      rw [List.mem_toFinset] at hi
      have : v i ∈ S.image v := by rw [← h, List.mem_toFinset]; exact List.mem_map_of_mem hi
      obtain ⟨j, hj, hji⟩ := Finset.mem_image.1 this
      have := hinj j (by simpa using hS hj) i (hp i hi) hji
      rwa [← this]
    · intro hi
      have : v i ∈ (p.map v).toFinset := by rw [h]; exact Finset.mem_image_of_mem v hi
      rw [List.mem_toFinset, List.mem_map] at this
      obtain ⟨j, hj, hji⟩ := this
      have := hinj j (hp j hj) i (by simpa using hS hi) hji
      rw [List.mem_toFinset, ← this]; exact hj
  · rintro rfl
    ext x
    simp

private theorem result_positions (k : Nat) (v : Nat → Int64) (reads : Nat → Nat) (n : Nat) (hn : n < 2 ^ 63) {d : List Nat}
    (hd : d ∈ allDraws n) : ∃ s, (UniformSample.new k).bind (fun s0 => s0.run (updatesAndReads v reads d n)) = .ok s ∧
      s.values = (positions k v reads d n).map v := by
  obtain ⟨s0, h0, hi⟩ := uniform_new_inv k
  obtain ⟨s, h1, h2, _⟩ := model_positions hi v reads d n hn (mem_allDraws.1 hd).2
  exact ⟨s, by rw [h0]; exact h1, h2⟩

/-- C21: feed `n ≥ k` different values to a new sample of size `k`, with any number of percentile reads in between. Every set of `k` of
these values is the final content for the same number of the `n!` equally likely random outcomes: `n! / C(n,k)`. -/
theorem C21_uniform (k n : Nat) (hkn : k ≤ n) (hn : n < 2 ^ 63) (v : Nat → Int64) (reads : Nat → Nat)
    (hinj : ∀ i < n, ∀ j < n, v i = v j → i = j) (S : Finset Nat) (hS : S ⊆ Finset.range n) (hc : S.card = k) :
    ((allDraws n).countP fun d => match (UniformSample.new k).bind (fun s0 => s0.run (updatesAndReads v reads d n)) with
        | .ok s => decide (s.values.toFinset = S.image v)
        | .error _ => false) * n.choose k = (allDraws n).length := by
  rw [List.countP_congr (q := fun d => (positions k v reads d n).toFinset = S)]
  · have h1 : (allDraws n).countP (fun d => (positions k v reads d n).toFinset = S) = k.factorial * (n - k).factorial :=
      outcomes_eq k v reads n hkn S hc hS
    rw [h1, allDraws_length, ← Nat.choose_mul_factorial_mul_factorial hkn]
    ring
  · intro d hd
    obtain ⟨s, e, hv⟩ := result_positions k v reads n hn hd
    rw [e]
    simp only [decide_eq_true_eq, hv]
    exact values_toFinset hinj (positions_inv k v reads d n).2.2 hS

/-- C21: every update is retained with probability exactly k/n. -/
theorem C21_retained (k n : Nat) (hkn : k ≤ n) (hn : n < 2 ^ 63) (v : Nat → Int64) (reads : Nat → Nat)
    (hinj : ∀ i < n, ∀ j < n, v i = v j → i = j) (i : Nat) (hi : i < n) :
    ((allDraws n).countP fun d => match (UniformSample.new k).bind (fun s0 => s0.run (updatesAndReads v reads d n)) with
        | .ok s => decide (v i ∈ s.values)
        | .error _ => false) * n = k * (allDraws n).length := by
  rw [List.countP_congr (q := fun d => decide (i ∈ positions k v reads d n))]
  · rw [retained_eq k v reads n hkn i hi, allDraws_length]
  · intro d hd
    obtain ⟨s, e, hv⟩ := result_positions k v reads n hn hd
    rw [e]
    simp only [decide_eq_true_eq, hv, List.mem_map]
    constructor
    · rintro ⟨j, hj, hji⟩
      have := hinj j ((positions_inv k v reads d n).2.2 j hj) i hi hji
      rwa [← this]
    · intro h; exact ⟨i, h, rfl⟩

/-- C21 when values repeat: the reservoir is the image of a set of update positions, and every `k`-set of positions is equally
frequent among the random outcomes. -/
theorem C21_uniform_positions (k n : Nat) (hkn : k ≤ n) (hn : n < 2 ^ 63) (v : Nat → Int64) (reads : Nat → Nat) :
    ∃ pos : List Nat → List Nat,
      (∀ d ∈ allDraws n, (pos d).Nodup ∧ (∀ i ∈ pos d, i < n) ∧ ∃ s, (UniformSample.new k).bind (fun s0 => s0.run (updatesAndReads v reads d n)) = .ok s ∧
        s.values = (pos d).map v) ∧
      ∀ S : Finset Nat, S ⊆ Finset.range n → S.card = k →
        ((allDraws n).countP fun d => decide ((pos d).toFinset = S)) * n.choose k = (allDraws n).length := by
  refine ⟨fun d => positions k v reads d n, fun d hd => ⟨(positions_inv k v reads d n).2.1, (positions_inv k v reads d n).2.2,
    result_positions k v reads n hn hd⟩, fun S hS hc => ?_⟩
  have h1 : (allDraws n).countP (fun d => (positions k v reads d n).toFinset = S) = k.factorial * (n - k).factorial :=
      outcomes_eq k v reads n hkn S hc hS
  rw [h1, allDraws_length, ← Nat.choose_mul_factorial_mul_factorial hkn]
  ring

/-- The draws enumerated are all the outcomes, each once. -/
theorem C21_all_draws (n : Nat) : (allDraws n).Nodup ∧ ∀ d : List Nat, d ∈ allDraws n ↔ d.length = n ∧ ∀ i < n, d.getD i 0 < i + 1 :=
  ⟨allDraws_nodup n, fun d => by rw [mem_allDraws]; simp only [Nat.lt_succ_iff]⟩

/-- C21: a cleared sample starts again from the state of a new one. -/
theorem C21_after_clear (k : Nat) (ops : List UniformOp) (s0 s : UniformSample) (hnew : UniformSample.new k = .ok s0)
    (hrun : s0.run ops = .ok s) : UniformSample.new k = .ok s.clear := by
  have h := (uniform_run_inv (new_inv hnew) ops s hrun).size
  unfold UniformSample.new UniformSample.clear
  rw [if_neg (by omega), h]

-- 2 of 3 values, a percentile read after each update: each pair survives in 2 of the 6 outcomes
example : ((allDraws 3).countP fun d => match (UniformSample.new 2).bind (fun s0 => s0.run (updatesAndReads (fun i => Int64.ofNat (10 - i)) (fun _ => 1) d 3)) with
        | .ok s => decide (s.values.toFinset = ({0, 2} : Finset Nat).image (fun i => Int64.ofNat (10 - i)))
        | .error _ => false) = 2 := by decide

/-! ### C22 -/

/-- C22: the count of a uniform sample is the number of updates since the last Clear (as int64). -/
theorem C22_uniform_count (k : Nat) (ops : List UniformOp) (s0 s : UniformSample) (hnew : UniformSample.new k = .ok s0)
    (hrun : s0.run ops = .ok s) : s.count.toInt = wrap64 (uniformGiven ops).length :=
  (uniform_run_inv (new_inv hnew) ops s hrun).count

/-- C22: the count of an exponentially decaying sample is the number of updates since the last Clear (as int64), whatever the float
arithmetic does. -/
theorem C22_expdecay_count {F : Type} [GoFloat F] [GoExp F] (k : Nat) (hk : 0 < k) (alpha : F) (now : Instant) (ops : List (ExpOp F))
    (s0 : ExpDecaySample F) (hnew : ExpDecaySample.new k alpha now = .ok s0) :
    ∃ s, s0.run ops = .ok s ∧ s.count.toInt = wrap64 (expGiven ops).length := by
  obtain ⟨s0', e0, hsh, _, hc, _⟩ := ExpDecaySample.new_shape k alpha now
  rw [hnew] at e0; cases e0
  obtain ⟨s, h1, _, h2⟩ := exp_run_induct k hk s0 hsh (fun g s => s.count.toInt = wrap64 g.length)
    (by rw [hc]; exact (by decide : (0 : Int64).toInt = wrap64 0)) (fun g s now _ _ => (by decide : (0 : Int64).toInt = wrap64 0)) (by
      intro g s s' t v u hs hi he
      obtain ⟨s'', _, _, e, _, hcnt, _⟩ := ExpDecaySample.update_spec k hk s hs t v u
      rw [he] at e; cases e
      rw [hcnt, count_succ hi]; simp) ops
  exact ⟨s, h1, h2⟩

/-! ### C23 -/

/-- C23: no update panics in a history of fewer than 2^63 updates. -/
theorem C23_no_panic (k : Nat) (ops : List UniformOp) (hn : nUpdates ops < 2 ^ 63) :
    ∃ s0 s, UniformSample.new k = .ok s0 ∧ s0.run ops = .ok s := by
  obtain ⟨s0, h0, hi⟩ := uniform_new_inv k
  obtain ⟨s, hs⟩ := uniform_run_ok hi ops hn
  exact ⟨s0, s, h0, hs⟩

/-- C23: a negative size panics at construction. -/
theorem C23_negative_panics (k : Int) (hk : k < 0) : UniformSample.new k = .error .makeslice := by
  unfold UniformSample.new; rw [if_pos hk]

example : nUpdates [.update 9 0, .clear, .update 5 0, .percentiles] < 2 ^ 63 := by decide
example : (-3 : Int) < 0 := by decide

/-! ### C24 -/

section
variable {F : Type} [GoFloat F] [GoExp F]

/-- C24 for reservoir sizes ≥ 1 (any float arithmetic, so also with NaN and infinite priorities): no call panics and the size is
min(updates since the last Clear, k). Missing from the full statement: size 0, where it is false (see `C24_refuted_zero_reservoir`). -/
theorem C24_size_partial (k : Nat) (hk : 0 < k) (alpha : F) (now : Instant) (ops : List (ExpOp F)) :
    ∃ s0 s, ExpDecaySample.new k alpha now = .ok s0 ∧ s0.run ops = .ok s ∧ s.size = min (expGiven ops).length k := by
  obtain ⟨s0, e0, hsh, hv, _⟩ := ExpDecaySample.new_shape k alpha now
  obtain ⟨s, h1, _, h2⟩ := exp_run_induct k hk s0 hsh (fun g s => s.values.s.length = min g.length k)
    (by simp [hv]) (fun g s now _ _ => by simp [ExpDecaySample.clear, Heap.clear]) (by
      intro g s s' t v u hs hi he
      obtain ⟨s'', dropped, kept, e, _, _, _, _, _, p1, l1, p2, _⟩ := ExpDecaySample.update_spec k hk s hs t v u
      rw [he] at e; cases e
      have h3 := p1.length_eq
      have h4 := p2.length_eq
      simp at h3 h4
      rw [h4, List.length_append, List.length_singleton]
      split at l1 <;> omega) ops
  exact ⟨s0, s, e0, h1, h2⟩

/-- C24 is false for a reservoir of size 0: it can be constructed, and then every first update panics. -/
theorem C24_refuted_zero_reservoir (alpha : F) (now t : Instant) (v : Int64) (u : F) :
    ∃ s0 : ExpDecaySample F, ExpDecaySample.new 0 alpha now = .ok s0 ∧ s0.update t v u = .error .index := by
  obtain ⟨s0, e0, hsh, hv, _⟩ := ExpDecaySample.new_shape 0 alpha now
  refine ⟨s0, e0, ?_⟩
  unfold ExpDecaySample.update
  have hs := hsh.size
  simp only [Heap.size, hv, hs]
  simp [Heap.pop, hv, bind, Except.bind]

/-- C24: a negative size panics at construction. -/
theorem C24_negative_panics (k : Int) (hk : k < 0) (alpha : F) (now : Instant) :
    ExpDecaySample.new k alpha now = .error .makeslice := by
  unfold ExpDecaySample.new Heap.new; rw [if_pos hk]; rfl

/-! ### C25 -/

/-- C25: the values held are the newest one together with a sub-multiset of the earlier ones (since the last Clear), and all of
them while the reservoir is not full. Any float arithmetic. -/
theorem C25_newest_and_given (k : Nat) (hk : 0 < k) (alpha : F) (now : Instant) (ops : List (ExpOp F)) (s0 : ExpDecaySample F)
    (hnew : ExpDecaySample.new k alpha now = .ok s0) :
    ∃ s, s0.run ops = .ok s ∧
      (expGiven ops = [] → s.vals = []) ∧
      (∀ earlier newest, expGiven ops = earlier ++ [newest] →
        ∃ T, s.vals.Perm (newest.v :: T) ∧ T.Subperm (earlier.map Given.v)) ∧
      ((expGiven ops).length ≤ k → s.vals.Perm ((expGiven ops).map Given.v)) := by
  obtain ⟨s0', e0, hsh, hv, _⟩ := ExpDecaySample.new_shape k alpha now
  rw [hnew] at e0; cases e0
  obtain ⟨s, h1, _, h2⟩ := exp_run_induct k hk s0 hsh (fun g s => s.vals.Subperm (g.map Given.v) ∧ s.vals.length = min g.length k ∧
      (g = [] → s.vals = []) ∧
      (∀ earlier newest, g = earlier ++ [newest] → ∃ T, s.vals.Perm (newest.v :: T) ∧ T.Subperm (earlier.map Given.v)))
    (by simp [ExpDecaySample.vals, hv]) (fun g s now _ _ => by simp [ExpDecaySample.clear, Heap.clear, ExpDecaySample.vals]) (by
      intro g s s' t v u hs ⟨hi1, hi2, hi3, hi4⟩ he
      obtain ⟨s'', dropped, kept, e, _, _, _, _, _, p1, l1, p2, _⟩ := ExpDecaySample.update_spec k hk s hs t v u
      rw [he] at e; cases e
      have hvals : s'.vals.Perm (v :: kept.map Item.v) := by
        have := p2.map Item.v
        rw [List.map_map] at this
        have hf : (Item.v ∘ s.rescaled t) = Item.v := by funext x; exact ExpDecaySample.rescaled_v s t x
        rw [hf] at this
        exact this
      have hkept : (kept.map Item.v).Subperm (g.map Given.v) := by
        refine List.Subperm.trans ?_ hi1
        have : (kept.map Item.v).Subperm ((dropped ++ kept).map Item.v) := by
          rw [List.map_append]; exact (List.sublist_append_right _ _).subperm
        exact this.trans (p1.map _).subperm
      refine ⟨?_, ?_, by simp, ?_⟩
      · refine hvals.subperm.trans ?_
        rw [List.map_append]
        refine List.Subperm.trans ((List.subperm_cons v).2 hkept) ?_
        exact (List.perm_append_singleton v _).symm.subperm
      · have h3 := p1.length_eq
        have h4 := hvals.length_eq
        have h5 : s.vals.length = s.values.s.length := by simp [ExpDecaySample.vals]
        simp at h3 h4
        rw [h4, List.length_append, List.length_singleton]
        split at l1 <;> omega
      · intro earlier newest hg
        obtain ⟨rfl, hn⟩ := List.append_inj' hg rfl
        simp at hn
        subst hn
        exact ⟨kept.map Item.v, hvals, hkept⟩) ops
  refine ⟨s, h1, h2.2.2.1, h2.2.2.2, fun hle => h2.1.perm_of_length_le ?_⟩
  rw [h2.2.1]; simp; omega

/-! ### C28 -/

/-- C28: the rescale loop over a heap with content `h.s` (run as in `update`: the slice is cut to length zero and the old elements are
read from the same memory while they are pushed back) ends normally with the same values, each priority multiplied by the factor. -/
theorem C28_rescale_in_place (f : F) (h : Heap F) :
    ∃ h', ExpDecaySample.rescaleLoop f h.s.length 0 h.clear = .ok h' ∧
      h'.s.Perm (h.s.map fun x => { k := GoFloat.mul x.k f, v := x.v }) ∧
      (h'.s.map Item.v).Perm (h.s.map Item.v) ∧ h'.rest = h.rest := by
  obtain ⟨h', e, p, r, _⟩ := ExpDecaySample.rescaleLoop_spec f h.s.length 0 h.clear rfl (by omega) (by simp [Heap.clear])
  have p' : h'.s.Perm (h.s.map (ExpDecaySample.scaleItem f)) := by simpa [Heap.clear] using p
  refine ⟨h', e, p', ?_, by simp [r, Heap.clear]⟩
  have := p'.map Item.v
  rw [List.map_map] at this
  exact this

end

example : (Heap.mk [⟨1, 4⟩, ⟨3, 5⟩, ⟨2, 6⟩] [⟨0, 0⟩] : Heap ℚ).s.length = 3 := rfl
example : ∃ h', ExpDecaySample.rescaleLoop (1 / 2 : ℚ) 3 0 (Heap.mk [⟨1, 4⟩, ⟨3, 5⟩, ⟨2, 6⟩] [⟨0, 0⟩] : Heap ℚ).clear = .ok h' ∧
    h'.s.map Item.v = [4, 5, 6] := ⟨Heap.mk [⟨1/2, 4⟩, ⟨3/2, 5⟩, ⟨1, 6⟩] [⟨0, 0⟩], by decide +kernel, by decide +kernel⟩

/-! ### C26 -/

/-- C26 (float64): take any history in which no stored priority was ever NaN. If the reservoir is then full, the next update drops one
item of minimal priority and keeps all the others, next to the new value. -/
theorem C26_evicts_min (k : Nat) (hk : 0 < k) (alpha : F64) (now : Instant) (ops : List (ExpOp F64)) (s0 s : ExpDecaySample F64)
    (hnew : ExpDecaySample.new k alpha now = .ok s0) (hrun : s0.run ops = .ok s)
    (hnan : ∀ p, p <+: ops → ∀ s1, s0.run p = .ok s1 → ∀ x ∈ s1.values.s, x.k ≠ .nan)
    (hfull : s.size = k) (t : Instant) (v : Int64) (u : F64) :
    ∃ s' x kept, s.update t v u = .ok s' ∧ s.values.s.Perm (x :: kept) ∧
      (∀ y ∈ s.values.s, F64.le x.k y.k = true) ∧ s'.vals.Perm (v :: kept.map Item.v) := by
  obtain ⟨s0', e0, hsh, hv, _⟩ := ExpDecaySample.new_shape k alpha now
  rw [hnew] at e0; cases e0
  have key : ∀ p, p <+: ops → ∃ s1, s0.run p = .ok s1 ∧ ExpDecaySample.Shape k s1 ∧
      ∀ d, IsHeap d s1.values.s s1.values.s.length := by
    intro p
    induction p using List.reverseRecOn with
    | nil => exact fun _ => ⟨s0, rfl, hsh, fun d m _ hm => by simp [hv] at hm⟩
    | append_singleton p o ih =>
      intro hp
      have hp' : p <+: ops := (List.prefix_append p [o]).trans hp
      obtain ⟨s1, e1, hs1, hh1⟩ := ih hp'
      have hstep := exp_run_snoc s0 s1 p o e1
      cases o with
      | clear now =>
        refine ⟨_, hstep.trans rfl, ⟨hs1.size, ?_⟩, fun d m _ hm => ?_⟩
        · have := hs1.cap
          simp [ExpDecaySample.clear, Heap.clear]; omega
        · simp [ExpDecaySample.clear, Heap.clear] at hm
      | update t v u =>
        obtain ⟨s2, dropped, kept, e2, hs2, _, _, _, _, p1, _, p2, o2⟩ := ExpDecaySample.update_spec k hk s1 hs1 t v u
        have e2' := hstep.trans e2
        refine ⟨s2, e2', hs2, fun d => ?_⟩
        have hP1 : AllP (· ≠ F64.nan) s1.values.s := hnan p hp' s1 e1
        have hP2 : AllP (· ≠ F64.nan) s2.values.s := hnan _ hp s2 e2'
        refine (o2 _ d keyOrder_f64 hP1 (hh1 d)).2 ?_ hP2
        -- the key of the new item is not NaN, since its (possibly rescaled) copy in s2 is not
        intro hk'
        have hmem : s1.rescaled t { k := ExpDecaySample.key s1.alpha s1.t0 t u, v := v } ∈ s2.values.s :=
          p2.mem_iff.2 (List.mem_map_of_mem List.mem_cons_self)
        have := hP2 _ hmem
        apply this
        rw [hk']
        unfold ExpDecaySample.rescaled ExpDecaySample.scaleItem
        split
        · rfl
        · rfl
  obtain ⟨s1, e1, hs1, hh1⟩ := key ops (List.prefix_refl _)
  rw [hrun] at e1; cases e1
  obtain ⟨s', dropped, kept, e2, _, _, _, _, _, p1, l1, p2, o2⟩ := ExpDecaySample.update_spec k hk s hs1 t v u
  have hP : AllP (· ≠ F64.nan) s.values.s := hnan ops (List.prefix_refl _) s hrun
  have hd := (o2 _ ⟨.nan, 0⟩ keyOrder_f64 hP (hh1 _)).1
  rw [if_pos (show s.values.s.length = k from hfull)] at l1
  obtain ⟨x, rfl⟩ := List.length_eq_one_iff.1 l1
  refine ⟨s', x, kept, e2, p1.symm, fun y hy => ?_, ?_⟩
  · have hx : x ∈ s.values.s := p1.mem_iff.1 (by simp)
    rw [← F64.not_lt_of_ne_nan (hP y hy) (hP x hx)]
    exact hd x (by simp) y hy
  · have := p2.map Item.v
    rw [List.map_map] at this
    have hf : (Item.v ∘ s.rescaled t) = Item.v := by funext x; exact ExpDecaySample.rescaled_v s t x
    rw [hf] at this
    exact this

/-! ### C29 -/

private theorem steady_append {G : Int} {last : Instant} {p q : List (ExpOp F64)} (h : Steady G last (p ++ q)) : Steady G last p := by
  induction p generalizing last with
  | nil => trivial
  | cons o p ih =>
    cases o <;> exact ⟨h.1, h.2.1, ih h.2.2⟩

/-- The time of the last call. -/
private def lastTime (start : Instant) (ops : List (ExpOp F64)) : Instant :=
  ops.foldl (fun _ o => match o with | .update t _ _ => t | .clear t => t) start

private theorem steady_snoc {G : Int} {start : Instant} {p : List (ExpOp F64)} {o : ExpOp F64} (h : Steady G start (p ++ [o])) :
    lastTime start p ≤ lastTime start (p ++ [o]) ∧ lastTime start (p ++ [o]) - lastTime start p ≤ G := by
  induction p generalizing start with
  | nil => cases o <;> exact ⟨h.1, h.2.1⟩
  | cons a p ih =>
    cases a <;> exact ih h.2.2

/-- C29 as far as it holds: binary64 arithmetic, alpha ≥ 0, random draws ≥ 0, calls in time order with at most `gap` ns between two calls,
and alpha * (gap + 1 h + 1 s) ≤ 700. Then no stored priority is ever NaN. (For alpha = 0.015 this allows idle periods of almost 12 hours.)
Missing from the full statement: longer idle periods, for which it is false (`C29_refuted_idle`). -/
theorem C29_no_nan_partial (k : Nat) (hk : 0 < k) (a : ℚ) (ha : 0 ≤ a) (now : Instant) (ops : List (ExpOp F64)) (gap : Int)
    (hgap : 0 ≤ gap) (hG : gap + hour ≤ maxInt64) (hsafe : a * ((gap + hour : ℤ) / 10 ^ 9 + 1) ≤ 700) (hsteady : Steady gap now ops)
    (hdraws : ∀ t v u, ExpOp.update t v u ∈ ops → ∃ q : ℚ, u = .fin q ∧ 0 ≤ q)
    (s0 : ExpDecaySample F64) (hnew : ExpDecaySample.new k (.fin a) now = .ok s0) :
    ∃ s, s0.run ops = .ok s ∧ ∀ x ∈ s.values.s, x.k ≠ .nan := by
  obtain ⟨s0', e0, hsh, hv, _, halpha, ht0, ht1⟩ := ExpDecaySample.new_shape (F := F64) k (.fin a) now
  rw [hnew] at e0; cases e0
  have hhour : (0 : Int) ≤ hour := by decide
  suffices h : ∃ s, s0.run ops = .ok s ∧ ExpDecaySample.Shape k s ∧ (∀ x ∈ s.values.s, GoodKey x.k) ∧ s.alpha = .fin a ∧
      s.t0 ≤ lastTime now ops ∧ lastTime now ops ≤ s.t1 ∧ s.t1 = s.t0 + hour by
    obtain ⟨s, h1, _, h2, _⟩ := h
    exact ⟨s, h1, fun x hx => (h2 x hx).ne_nan⟩
  induction ops using List.reverseRecOn with
  | nil => exact ⟨s0, rfl, hsh, by simp [hv], halpha, by rw [ht0]; exact le_refl _, by rw [ht1]; show now ≤ now + hour; omega, by rw [ht1, ht0]⟩
  | append_singleton p o ih =>
    obtain ⟨s1, e1, hs1, hg1, ha1, hb1, hb2, hb3⟩ := ih (steady_append hsteady) (fun t v u hm => hdraws t v u (List.mem_append_left _ hm))
    have hstep := exp_run_snoc s0 s1 p o e1
    obtain ⟨hl1, hl2⟩ := steady_snoc hsteady
    cases o with
    | clear t =>
      have hlt : lastTime now (p ++ [.clear t]) = t := by simp [lastTime]
      refine ⟨_, hstep.trans rfl, ⟨hs1.size, ?_⟩, by simp [ExpDecaySample.clear, Heap.clear], ha1, ?_, ?_, rfl⟩
      · have := hs1.cap
        simp [ExpDecaySample.clear, Heap.clear]; omega
      · rw [hlt]; exact le_refl _
      · rw [hlt]; show t ≤ t + hour; omega
    | update t v u =>
      have hlt : lastTime now (p ++ [.update t v u]) = t := by simp [lastTime]
      rw [hlt] at hl1 hl2 ⊢
      obtain ⟨q, rfl, hq⟩ := hdraws t v u (by simp)
      have hle : (s1.t0 : Int) ≤ t := le_trans hb1 hl1
      have hdiff : t - s1.t0 ≤ gap + hour := by
        have h1 : (lastTime now p : Int) ≤ s1.t0 + hour := by rw [← hb3]; exact hb2
        have h2 : (t : Int) - lastTime now p ≤ gap := hl2
        show (t : Int) - s1.t0 ≤ gap + hour
        generalize lastTime now p = L at h1 h2
        omega
      have hs' : a * ((t - s1.t0 : ℤ) / 10 ^ 9 + 1) ≤ 700 := by
        refine le_trans (mul_le_mul_of_nonneg_left ?_ ha) hsafe
        have : ((t - s1.t0 : ℤ) : ℚ) ≤ ((gap + hour : ℤ) : ℚ) := by exact_mod_cast hdiff
        have h9 : (0 : ℚ) < 10 ^ 9 := by norm_num
        have := (div_le_div_iff_of_pos_right h9).2 this
        linarith
      obtain ⟨hkey, f, hf, hf0⟩ := key_good ha hle (le_trans hdiff hG) hs' hq
      obtain ⟨s2, dropped, kept, e2, hs2, _, hal, hn0, hn1, p1, _, p2, _⟩ := ExpDecaySample.update_spec k hk s1 hs1 t v (.fin q)
      refine ⟨s2, hstep.trans e2, hs2, fun x hx => ?_, hal.trans ha1, ?_, ?_, ?_⟩
      · rw [p2.mem_iff, List.mem_map] at hx
        obtain ⟨y, hy, rfl⟩ := hx
        have hyg : GoodKey y.k := by
          rcases List.mem_cons.1 hy with rfl | hy
          · rw [ha1]; exact hkey
          · exact hg1 y (p1.mem_iff.1 (List.mem_append_right _ hy))
        unfold ExpDecaySample.rescaled
        split
        · rw [ha1, hf]; exact hyg.mul hf0
        · exact hyg
      · rw [hn0]; split
        · exact le_refl _
        · exact hle
      · rw [hn1]; split
        · show (t : Int) ≤ t + hour; omega
        · rename_i h; exact not_lt.1 h
      · rw [hn0, hn1]; split
        · rfl
        · exact hb3

/-- C29 is false: a sample (alpha 0.015, any size) that is first updated 100000 s (28 hours) after its creation stores NaN as priority. -/
theorem C29_refuted_idle (k : Nat) (hk : 0 < k) : ∃ s0 s : ExpDecaySample F64,
    ExpDecaySample.new k (GoFloat.lit (15 / 1000)) 0 = .ok s0 ∧
    s0.run [.update (100000 * 10 ^ 9) 1 (.fin (1 / 2))] = .ok s ∧ ∃ x ∈ s.values.s, x.k = .nan := by
  obtain ⟨s0, e0, hsh, hv, _, halpha, ht0, ht1⟩ := ExpDecaySample.new_shape (F := F64) k (GoFloat.lit (15 / 1000)) 0
  obtain ⟨s1, dropped, kept, e1, _, _, _, _, _, p1, _, p2, _⟩ := ExpDecaySample.update_spec k hk s0 hsh (100000 * 10 ^ 9) 1 (F64.fin (1 / 2))
  refine ⟨s0, s1, e0, ?_, ?_⟩
  · unfold ExpDecaySample.run
    simp only [List.foldlM_cons, List.foldlM_nil, bind_pure, ExpDecaySample.apply]
    exact e1
  · refine ⟨_, p2.mem_iff.2 (List.mem_map_of_mem List.mem_cons_self), ?_⟩
    unfold ExpDecaySample.rescaled
    rw [if_pos (by rw [ht1]; decide)]
    unfold ExpDecaySample.scaleItem
    dsimp only
    rw [halpha, ht0]
    set r := rnd (15 / 1000 : ℚ) with hr
    have e2 : (GoFloat.lit (15 / 1000) : F64) = .fin r :=
      round_of_abs_le (n := 0) (by norm_num) (by rw [abs_of_nonneg (by norm_num)]; norm_num)
    have hr1 : (1 : ℚ) / 128 ≤ r := by
      have h1 : rnd ((1 : ℚ) / 128) ≤ r := rnd_mono (by norm_num)
      have h2 := rnd_dyadic (K := ℚ) 1 (-7) (by norm_num) (by norm_num)
      norm_num at h1 h2
      rw [h2] at h1
      norm_num; exact h1
    have hr2 : r ≤ 1 := by
      have h1 : r ≤ rnd (1 : ℚ) := rnd_mono (by norm_num)
      rwa [rnd_one] at h1
    rw [e2]
    refine key_nan (lt_of_lt_of_le (by norm_num) hr1) (by norm_num) (by decide) ?_ ?_ (by norm_num)
    · push_cast; linarith
    · push_cast; linarith

/-! ### C27 -/

/-- C27: exact real arithmetic, all times within an int64 number of nanoseconds of each other (a draw of exactly 0, for which float64 gives
+Inf, is only meaningful in the IEEE model). After any history
the reservoir is the newest update plus min(k-1, ..) of the earlier ones, and no dropped update has a larger forward-decay weight
exp(alpha*t)/u than a kept earlier one. The weights do not mention when rescales happened. -/
theorem C27_top_weights (k : Nat) (hk : 0 < k) (alpha : ℝ) (now : Instant) (ops : List (ExpOp ℝ)) (s0 : ExpDecaySample ℝ)
    (hnew : ExpDecaySample.new k alpha now = .ok s0) (lo : Int) (hnow : lo ≤ now ∧ now ≤ lo + maxInt64)
    (htimes : ∀ o ∈ ops, match o with
      | .update t _ _ => lo ≤ t ∧ t ≤ lo + maxInt64
      | .clear t => lo ≤ t ∧ t ≤ lo + maxInt64) :
    ∃ s, s0.run ops = .ok s ∧ ∀ earlier newest, expGiven ops = earlier ++ [newest] →
      ∃ T D : List (Given ℝ), earlier.Perm (T ++ D) ∧ s.vals.Perm (newest.v :: T.map Given.v) ∧
        T.length = min (k - 1) earlier.length ∧
        ∀ d ∈ D, ∀ x ∈ T, Real.exp (alpha * (d.t / 10 ^ 9)) / d.u ≤ Real.exp (alpha * (x.t / 10 ^ 9)) / x.u := by
  obtain ⟨s0', e0, hsh, hv, _, halpha, ht0, ht1⟩ := ExpDecaySample.new_shape (F := ℝ) k alpha now
  rw [hnew] at e0; cases e0
  have hmm : minInt64 = -maxInt64 - 1 := by decide
  obtain ⟨s, h1, _, h2⟩ := exp_run_induct_of k hk s0 hsh (fun g s => s.alpha = alpha ∧ lo ≤ s.t0 ∧ s.t0 ≤ lo + maxInt64 ∧
      (∀ d, IsHeap d s.values.s s.values.s.length) ∧
      (g = [] → s.values.s = []) ∧
      ∀ earlier newest, g = earlier ++ [newest] → ∃ T D : List (Given ℝ), earlier.Perm (T ++ D) ∧
        s.values.s.Perm ((newest :: T).map (itemAt alpha s.t0)) ∧ T.length = min (k - 1) earlier.length ∧
        ∀ d ∈ D, ∀ x ∈ T, fwdWeight alpha d ≤ fwdWeight alpha x)
    (fun o => match o with
      | .update t _ _ => lo ≤ t ∧ t ≤ lo + maxInt64
      | .clear t => lo ≤ t ∧ t ≤ lo + maxInt64)
    ⟨halpha, by rw [ht0]; exact hnow.1, by rw [ht0]; exact hnow.2, fun d m _ hm => by simp [hv] at hm, fun _ => hv, by simp⟩
    (fun g s now hq _ hi => ⟨hi.1, hq.1, hq.2, fun d m _ hm => by simp [ExpDecaySample.clear, Heap.clear] at hm,
      fun _ => rfl, by simp⟩) (by
      intro g s s' t v u hq hs ⟨hi1, hi2, hi3, hi4, hi5, hi6⟩ he
      obtain ⟨s'', dropped, kept, e, _, _, hal, hn0, hn1, p1, l1, p2, o2⟩ := ExpDecaySample.update_spec k hk s hs t v u
      rw [he] at e; cases e
      have hd1 : minInt64 ≤ t - s.t0 := by have := hq.1; have := hq.2; omega
      have hd2 : t - s.t0 ≤ maxInt64 := by have := hq.1; have := hq.2; omega
      have hall : ∀ l : List (Item ℝ), AllP (fun _ => True) l := fun l x _ => trivial
      obtain ⟨hmin, hheap⟩ := o2 (fun _ => True) ⟨0, 0⟩ keyOrder_real (hall _) (hi4 _)
      have hheap' : ∀ d, IsHeap d s'.values.s s'.values.s.length :=
        fun d => (o2 (fun _ => True) d keyOrder_real (hall _) (hi4 _)).2 trivial (hall _)
      refine ⟨hal.trans hi1, by rw [hn0]; split; exact hq.1; exact hi2, by rw [hn0]; split; exact hq.2; exact hi3, hheap', by simp, ?_⟩
      intro earlier newest hg
      obtain ⟨rfl, hn⟩ := List.append_inj' hg rfl
      simp at hn
      subst hn
      -- what the heap stood for before
      obtain ⟨R, D, hgR, hsR, hRlen, hRD⟩ : ∃ R D : List (Given ℝ), g.Perm (R ++ D) ∧ s.values.s.Perm (R.map (itemAt alpha s.t0)) ∧
          R.length = min k g.length ∧ (∀ x R'', R.Perm (x :: R'') → (∀ y ∈ R, fwdWeight alpha x ≤ fwdWeight alpha y) →
            ∀ d ∈ D, ∀ y ∈ R'', fwdWeight alpha d ≤ fwdWeight alpha y) := by
        rcases List.eq_nil_or_concat g with hg | ⟨e, nw, hg⟩
        · refine ⟨[], [], by simp [hg], by simp [hi5 hg], by simp [hg], by simp⟩
        · rw [List.concat_eq_append] at hg
          obtain ⟨T, D, q1, q2, q3, q4⟩ := hi6 e nw hg
          refine ⟨nw :: T, D, ?_, q2, ?_, ?_⟩
          · rw [hg]
            refine (List.perm_append_singleton nw e).trans ?_
            exact q1.cons nw
          · rw [hg]; simp; omega
          · intro x R'' hR hx d hd y hy
            by_cases hxn : x = nw
            · subst hxn
              have : T.Perm R'' := (List.perm_cons _).1 hR
              exact q4 d hd y (this.mem_iff.2 hy)
            · have hxT : x ∈ T := by
                have : x ∈ nw :: T := hR.mem_iff.2 List.mem_cons_self
                exact (List.mem_cons.1 this).resolve_left hxn
              have hyR : y ∈ nw :: T := hR.mem_iff.2 (List.mem_cons_of_mem _ hy)
              exact le_trans (q4 d hd x hxT) (hx y hyR)
      -- the dropped and the kept items stand for updates
      obtain ⟨R', hR', hdk⟩ := perm_map_exists _ (p1.trans hsR)
      obtain ⟨A, B, hAB, hA, hB⟩ := List.append_eq_map_iff.1 hdk
      subst hAB
      have hAlen : A.length = if s.values.s.length = k then 1 else 0 := by rw [← l1, ← hA]; simp
      have hslen : s.values.s.length = min k g.length := by rw [hsR.length_eq]; simpa using hRlen
      have hABlen : A.length + B.length = min k g.length := by rw [← hRlen, ← hR'.length_eq]; simp
      have hgD := hgR.length_eq
      simp at hgD
      refine ⟨B, A ++ D, ?_, ?_, ?_, ?_⟩
      · refine hgR.trans ?_
        refine (hR'.symm.append_right D).trans ?_
        rw [← List.append_assoc]
        exact List.perm_append_comm.append_right D
      · refine p2.trans ?_
        rw [← hB, hi1]
        have hscale : ∀ x, s.rescaled t (itemAt alpha s.t0 x) = itemAt alpha s'.t0 x := by
          intro x
          unfold ExpDecaySample.rescaled
          rw [hn0]
          split
          · rw [hi1]; exact rescale_real alpha hd1 hd2 x
          · rfl
        rw [key_real alpha hd1 hd2]
        rw [List.map_cons, List.map_map, hscale, List.map_cons]
        have : (s.rescaled t ∘ itemAt alpha s.t0) = itemAt alpha s'.t0 := by funext x; exact hscale x
        rw [this]
      · by_cases hf : s.values.s.length = k
        · rw [if_pos hf] at hAlen; omega
        · rw [if_neg hf] at hAlen; omega
      · intro d hd x hx
        rcases List.mem_append.1 hd with hdA | hdD
        · have hd := hdA
          have hdm : itemAt alpha s.t0 d ∈ dropped := by rw [← hA]; exact List.mem_map_of_mem hd
          have hxm : itemAt alpha s.t0 x ∈ s.values.s := by
            rw [hsR.mem_iff]; exact List.mem_map_of_mem (hR'.mem_iff.1 (List.mem_append_right _ hx))
          exact itemAt_not_lt (hmin _ hdm _ hxm)
        · by_cases hf : s.values.s.length = k
          · rw [if_pos hf] at hAlen
            obtain ⟨z, hz⟩ := List.length_eq_one_iff.1 hAlen
            subst hz
            refine hRD z B hR'.symm ?_ d hdD x hx
            intro y hy
            have hdm : itemAt alpha s.t0 z ∈ dropped := by rw [← hA]; simp
            have hxm : itemAt alpha s.t0 y ∈ s.values.s := by
              rw [hsR.mem_iff]; exact List.mem_map_of_mem hy
            exact itemAt_not_lt (hmin _ hdm _ hxm)
          · have hD0 : D.length = 0 := by omega
            rw [List.length_eq_zero_iff.1 hD0] at hdD
            simp at hdD) ops htimes
  refine ⟨s, h1, fun earlier newest hg => ?_⟩
  obtain ⟨T, D, q1, q2, q3, q4⟩ := h2.2.2.2.2.2 earlier newest hg
  refine ⟨T, D, q1, ?_, q3, q4⟩
  have := q2.map Item.v
  rw [List.map_map] at this
  exact this

/-- C27, invisibility of rescaling: two samples of the same size and alpha, created at any two times and cleared at any times, that were
given the same updates since their last Clear, hold the same values, provided the weights of the updates are pairwise different. -/
theorem C27_rescale_invisible (k : Nat) (hk : 0 < k) (alpha : ℝ) (now now' : Instant) (ops ops' : List (ExpOp ℝ))
    (s0 s0' s s' : ExpDecaySample ℝ)
    (hnew : ExpDecaySample.new k alpha now = .ok s0) (hnew' : ExpDecaySample.new k alpha now' = .ok s0')
    (lo : Int) (hnow : lo ≤ now ∧ now ≤ lo + maxInt64) (hnow' : lo ≤ now' ∧ now' ≤ lo + maxInt64)
    (htimes : ∀ o ∈ ops ++ ops', match o with
      | .update t _ _ => lo ≤ t ∧ t ≤ lo + maxInt64
      | .clear t => lo ≤ t ∧ t ≤ lo + maxInt64)
    (hrun : s0.run ops = .ok s) (hrun' : s0'.run ops' = .ok s') (hsame : expGiven ops = expGiven ops')
    (hdiff : (expGiven ops).Pairwise fun x y => Real.exp (alpha * (x.t / 10 ^ 9)) / x.u ≠ Real.exp (alpha * (y.t / 10 ^ 9)) / y.u) :
    s.vals.Perm s'.vals := by
  classical
  obtain ⟨s1, e1, h1⟩ := C27_top_weights k hk alpha now ops s0 hnew lo hnow (fun o ho => htimes o (List.mem_append_left _ ho))
  obtain ⟨s2, e2, h2⟩ := C27_top_weights k hk alpha now' ops' s0' hnew' lo hnow' (fun o ho => htimes o (List.mem_append_right _ ho))
  rw [hrun] at e1; cases e1
  rw [hrun'] at e2; cases e2
  rcases List.eq_nil_or_concat (expGiven ops) with hg | ⟨e, nw, hg⟩
  · obtain ⟨s3, e3, h3, _⟩ := C25_newest_and_given k hk alpha now ops s0 hnew
    obtain ⟨s4, e4, h4, _⟩ := C25_newest_and_given k hk alpha now' ops' s0' hnew'
    rw [hrun] at e3; cases e3
    rw [hrun'] at e4; cases e4
    rw [h3 hg, h4 (hsame ▸ hg)]
  · rw [List.concat_eq_append] at hg
    obtain ⟨T, D, q1, q2, q3, q4⟩ := h1 e nw hg
    obtain ⟨T', D', q1', q2', q3', q4'⟩ := h2 e nw (hsame ▸ hg)
    refine q2.trans (List.Perm.trans ?_ q2'.symm)
    refine List.Perm.cons _ (List.Perm.map _ ?_)
    rw [hg, List.pairwise_append] at hdiff
    have hw : ∀ x ∈ e, ∀ y ∈ e, Real.exp (alpha * (x.t / 10 ^ 9)) / x.u = Real.exp (alpha * (y.t / 10 ^ 9)) / y.u → x = y := by
      intro x hx y hy hxy
      by_contra hne
      have : Std.Symm fun x y : Given ℝ => Real.exp (alpha * (x.t / 10 ^ 9)) / x.u ≠ Real.exp (alpha * (y.t / 10 ^ 9)) / y.u :=
        ⟨fun a b h => h.symm⟩
      exact (hdiff.1.forall hx hy hne) hxy
    have hnd : e.Nodup := hdiff.1.imp (fun h hxy => h (by rw [hxy]))
    have hTnd : T.Nodup := ((q1.nodup_iff.1 hnd).sublist (List.sublist_append_left _ _))
    have hTnd' : T'.Nodup := ((q1'.nodup_iff.1 hnd).sublist (List.sublist_append_left _ _))
    have hsub : ∀ x ∈ T, x ∈ T' := by
      intro x hx
      by_contra hx'
      -- then some y of T' is not in T
      have : ∃ y ∈ T', y ∉ T := by
        by_contra hno
        push Not at hno
        have hss : T'.toFinset ⊆ T.toFinset := fun y hy => by
          rw [List.mem_toFinset] at hy ⊢; exact hno y hy
        have hcard : T.toFinset.card ≤ T'.toFinset.card := by
          rw [List.toFinset_card_of_nodup hTnd, List.toFinset_card_of_nodup hTnd', q3, q3']
        have heq := Finset.eq_of_subset_of_card_le hss hcard
        apply hx'
        rw [← List.mem_toFinset, heq, List.mem_toFinset]; exact hx
      obtain ⟨y, hy, hyT⟩ := this
      have hxe : x ∈ e := q1.mem_iff.2 (List.mem_append_left _ hx)
      have hye : y ∈ e := q1'.mem_iff.2 (List.mem_append_left _ hy)
      have hxD : x ∈ D' := (List.mem_append.1 (q1'.mem_iff.1 hxe)).resolve_left hx'
      have hyD : y ∈ D := (List.mem_append.1 (q1.mem_iff.1 hye)).resolve_left hyT
      have := hw x hxe y hye (le_antisymm (q4' x hxD y hy) (q4 y hyD x hx))
      exact hyT (this ▸ hx)
    have hsubperm : T.Subperm T' := List.subperm_of_subset hTnd hsub
    exact hsubperm.perm_of_length_le (by rw [q3, q3'])

/-! ### concrete cases of the hypotheses -/

private def demo : List (ExpOp F64) := [.update 5 7 (.fin (1 / 2)), .update (4000 * 10 ^ 9) 8 (.fin (1 / 4)), .update (4001 * 10 ^ 9) 9 (.fin (1 / 2))]

-- C29: an hour and more between calls, alpha = 1/64
example : Steady (4000 * 10 ^ 9) 0 demo ∧ (1 / 64 : ℚ) * ((4000 * 10 ^ 9 + hour : ℤ) / 10 ^ 9 + 1) ≤ 700 := by
  refine ⟨?_, by simp [hour]; norm_num⟩
  simp [demo, Steady]

-- C26: a full reservoir reached without NaN priorities, with a rescale on the way
example : ∃ s0 s : ExpDecaySample F64, ExpDecaySample.new 2 (.fin (1 / 64)) 0 = .ok s0 ∧ s0.run demo = .ok s ∧
    (∀ p, p <+: demo → ∀ s1, s0.run p = .ok s1 → ∀ x ∈ s1.values.s, x.k ≠ .nan) ∧ s.size = 2 := by
  obtain ⟨s0, s, h0, h1, h2⟩ := C24_size_partial (F := F64) 2 (by norm_num) (.fin (1 / 64)) 0 demo
  refine ⟨s0, s, h0, h1, fun p hp s1 h => ?_, h2⟩
  obtain ⟨q, hq⟩ := hp
  have hst : Steady (4000 * 10 ^ 9) 0 demo := by simp [demo, Steady]
  obtain ⟨s2, e, hn⟩ := C29_no_nan_partial 2 (by norm_num) (1 / 64) (by norm_num) 0 p (4000 * 10 ^ 9) (by norm_num) (by decide)
    (by simp [hour]; norm_num) (steady_append (q := q) (by rw [hq]; exact hst)) (by
      intro t v u hm
      have : ExpOp.update t v u ∈ demo := by rw [← hq]; exact List.mem_append_left _ hm
      simp [demo] at this
      rcases this with ⟨_, _, rfl⟩ | ⟨_, _, rfl⟩ | ⟨_, _, rfl⟩
      · exact ⟨_, rfl, by norm_num⟩
      · exact ⟨_, rfl, by norm_num⟩
      · exact ⟨_, rfl, by norm_num⟩) s0 h0
  rw [h] at e; cases e
  exact hn

-- C27: three updates, the last two after the first rescale; k = 2 keeps the newest and the heavier of the first two
example : ∃ s0 : ExpDecaySample ℝ, ExpDecaySample.new 2 (1 / 100) 5 = .ok s0 ∧ ((0 : Int) ≤ 5 ∧ (5 : Int) ≤ 0 + maxInt64) ∧
    ∀ o ∈ [ExpOp.update 6 1 (1 / 2 : ℝ), .update (4000 * 10 ^ 9) 2 (1 / 4), .update 7 3 (1 / 2)], match o with
      | .update t _ _ => (0 : Int) ≤ t ∧ t ≤ 0 + maxInt64
      | .clear t => (0 : Int) ≤ t ∧ t ≤ 0 + maxInt64 := by
  obtain ⟨s0, h0, _⟩ := ExpDecaySample.new_shape (F := ℝ) 2 (1 / 100) 5
  refine ⟨s0, h0, by decide, ?_⟩
  simp [maxInt64]

end GoMetrics
