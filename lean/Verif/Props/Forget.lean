import Verif.Spec.Forget
import Verif.Props.Sample
import Verif.Props.Independence
import Mathlib.Analysis.Complex.ExponentialBounds

/-! Property theorems C115: how the values of a decaying sample go away. -/

namespace GoMetrics
open Spec

section Slow
variable {F : Type} [GoFloat F] [GoExp F]

private theorem given_updates (ops : List (ExpOp F)) (ups : List (Given F)) : expGiven (ops ++ updates ups) = expGiven ops ++ ups := by
  induction ups using List.reverseRecOn with
  | nil => simp [updates]
  | append_singleton l g ih =>
    have : updates (l ++ [g]) = updates l ++ [.update g.t g.v g.u] := by simp [updates]
    rw [this, ← List.append_assoc, expGiven_snoc, ih]
    simp

private theorem slow (k : Nat) (hk : 0 < k) (s0 s : ExpDecaySample F) (hs : ExpDecaySample.Shape k s) (ops : List (ExpOp F)) (h : s0.run ops = .ok s)
    (ups : List (Given F)) :
    ∃ s', s0.run (ops ++ updates ups) = .ok s' ∧ ExpDecaySample.Shape k s' ∧ ∃ K N : Multiset Int64, (s'.vals : Multiset Int64) = K + N ∧
      K ≤ (s.vals : Multiset Int64) ∧ N ≤ (ups.map Given.v : Multiset Int64) ∧ s.vals.length ≤ K.card + ups.length := by
  induction ups using List.reverseRecOn with
  | nil => exact ⟨s, by simpa [updates] using h, hs, s.vals, 0, by simp, le_rfl, by simp, by simp⟩
  | append_singleton l g ih =>
    obtain ⟨s1, e1, hs1, K, N, k1, k2, k3, k4⟩ := ih
    obtain ⟨s2, dropped, kept, e, hs2, _, _, _, _, p1, l1, p2, _⟩ := ExpDecaySample.update_spec k hk s1 hs1 g.t g.v g.u
    have hu : updates (l ++ [g]) = updates l ++ [.update g.t g.v g.u] := by simp [updates]
    refine ⟨s2, by rw [hu, ← List.append_assoc, exp_run_snoc s0 s1 _ _ e1]; exact e, hs2, ?_⟩
    have hv : (s2.vals : Multiset Int64) = g.v ::ₘ (kept.map Item.v : Multiset Int64) := by
      have := p2.map Item.v
      rw [List.map_map] at this
      have hf : Item.v ∘ s1.rescaled g.t = (Item.v : Item F → Int64) := by funext x; exact ExpDecaySample.rescaled_v s1 g.t x
      rw [hf, List.map_cons] at this
      exact Multiset.coe_eq_coe.2 this
    have hd : (dropped.map Item.v : Multiset Int64) + (kept.map Item.v : Multiset Int64) = K + N := by
      rw [← k1, Multiset.coe_add, ← List.map_append]
      exact Multiset.coe_eq_coe.2 (p1.map Item.v)
    have key : ∃ K' N' : Multiset Int64, (kept.map Item.v : Multiset Int64) = K' + N' ∧ K' ≤ K ∧ N' ≤ N ∧ K.card ≤ K'.card + 1 := by
      rcases dropped with _ | ⟨x, _ | ⟨y, r⟩⟩
      · refine ⟨K, N, by simpa using hd, le_rfl, le_rfl, by omega⟩
      · simp only [List.map_cons, List.map_nil, Multiset.coe_singleton, Multiset.singleton_add] at hd
        have hm : x.v ∈ K + N := by rw [← hd]; exact Multiset.mem_cons_self _ _
        by_cases hK : x.v ∈ K
        · refine ⟨K.erase x.v, N, ?_, Multiset.erase_le _ _, le_rfl, ?_⟩
          · rw [← Multiset.erase_add_left_pos N hK, ← hd, Multiset.erase_cons_head]
          · have := Multiset.card_erase_add_one hK; omega
        · have hN : x.v ∈ N := (Multiset.mem_add.1 hm).resolve_left hK
          refine ⟨K, N.erase x.v, ?_, le_rfl, Multiset.erase_le _ _, by omega⟩
          rw [← Multiset.erase_add_right_pos K hN, ← hd, Multiset.erase_cons_head]
      · simp at l1; split at l1 <;> omega
    obtain ⟨K', N', q1, q2, q3, q4⟩ := key
    refine ⟨K', g.v ::ₘ N', by rw [hv, q1, Multiset.add_cons], q2.trans k2, ?_, by simp; omega⟩
    have : ((l ++ [g]).map Given.v : Multiset Int64) = g.v ::ₘ (l.map Given.v : Multiset Int64) := by
      rw [List.map_append, List.map_singleton, Multiset.cons_coe]; exact Multiset.coe_eq_coe.2 (List.perm_append_singleton _ _)
    rw [this]
    exact Multiset.cons_le_cons _ (q3.trans k3)

/-- C115, slowly: whatever the clock, the random numbers and the float arithmetic, the updates that follow push out the values that a sample holds at most
one each; and it holds nothing that it did not hold before or was given since. However long ago the old values were given, they count until then. -/
theorem C115_one_by_one (k : Nat) (hk : 0 < k) (alpha : F) (now : Instant) (s0 : ExpDecaySample F) (hnew : ExpDecaySample.new k alpha now = .ok s0)
    (ops : List (ExpOp F)) (ups : List (Given F)) :
    ∃ s s', s0.run ops = .ok s ∧ s0.run (ops ++ updates ups) = .ok s' ∧ ∃ old new : List Int64, s'.vals.Perm (old ++ new) ∧
      old.Subperm s.vals ∧ new.Subperm (ups.map Given.v) ∧ s.vals.length ≤ old.length + ups.length := by
  obtain ⟨s0', e0, hsh, -⟩ := ExpDecaySample.new_shape (F := F) k alpha now
  rw [hnew] at e0; cases e0
  obtain ⟨s, e1, hs, -⟩ := exp_run_induct k hk s0 hsh (fun _ _ => True) trivial (fun _ _ _ _ _ => trivial) (fun _ _ _ _ _ _ _ _ _ => trivial) ops
  obtain ⟨s', e2, -, K, N, h1, h2, h3, h4⟩ := slow k hk s0 s hs ops e1 ups
  obtain ⟨old, rfl⟩ := Quotient.exists_rep K
  obtain ⟨new, rfl⟩ := Quotient.exists_rep N
  exact ⟨s, s', e1, e2, old, new, Multiset.coe_eq_coe.1 h1, Multiset.coe_le.1 h2, Multiset.coe_le.1 h3, h4⟩

end Slow

/-- Two updates, the later one after a silence: the later one has the greater weight. -/
private theorem heavier {alpha : ℝ} {gap : Int} {δ : ℝ} (ha : 0 ≤ alpha) (hδ : 0 < δ) (hg : 1 / δ < Real.exp (alpha * (gap / 10 ^ 9))) {x y : Given ℝ} (hx : δ ≤ x.u)
    (hy0 : 0 < y.u) (hy1 : y.u ≤ 1) (ht : x.t + gap ≤ y.t) : Real.exp (alpha * (x.t / 10 ^ 9)) / x.u < Real.exp (alpha * (y.t / 10 ^ 9)) / y.u := by
  have h1 : Real.exp (alpha * (x.t / 10 ^ 9)) / x.u ≤ Real.exp (alpha * (x.t / 10 ^ 9)) * (1 / δ) := by
    rw [div_eq_mul_one_div]
    exact mul_le_mul_of_nonneg_left (one_div_le_one_div_of_le hδ hx) (Real.exp_pos _).le
  have h2 : Real.exp (alpha * (x.t / 10 ^ 9)) * (1 / δ) < Real.exp (alpha * (x.t / 10 ^ 9)) * Real.exp (alpha * (gap / 10 ^ 9)) :=
    mul_lt_mul_of_pos_left hg (Real.exp_pos _)
  have h3 : Real.exp (alpha * (x.t / 10 ^ 9)) * Real.exp (alpha * (gap / 10 ^ 9)) ≤ Real.exp (alpha * (y.t / 10 ^ 9)) := by
    rw [← Real.exp_add, Real.exp_le_exp, ← mul_add, ← add_div]
    have : (x.t : ℝ) + gap ≤ y.t := by exact_mod_cast ht
    exact mul_le_mul_of_nonneg_left (div_le_div_of_nonneg_right this (by positivity)) ha
  have h4 : Real.exp (alpha * (y.t / 10 ^ 9)) ≤ Real.exp (alpha * (y.t / 10 ^ 9)) / y.u := by
    rw [le_div_iff₀ hy0]
    exact mul_le_of_le_one_right (Real.exp_pos _).le hy1
  linarith

/-- C115, surely: exact arithmetic. After a silence so long that every new update outweighs every old one, each new update pushes out an old value as long
as there is one and the reservoir is full: after j updates all of them are held (the reservoir's size many, if there are more) and of the old values just as
many as there is room for, so after as many updates as the reservoir has places nothing old is left. -/
theorem C115_after_silence (k : Nat) (hk : 0 < k) (alpha : ℝ) (ha : 0 ≤ alpha) (now : Instant) (s0 : ExpDecaySample ℝ) (hnew : ExpDecaySample.new k alpha now = .ok s0)
    (ops : List (ExpOp ℝ)) (ups : List (Given ℝ)) (lo : Int) (hnow : lo ≤ now ∧ now ≤ lo + maxInt64)
    (htimes : ∀ o ∈ ops, match o with
      | .update t _ _ => lo ≤ t ∧ t ≤ lo + maxInt64
      | .clear t => lo ≤ t ∧ t ≤ lo + maxInt64) (htimes' : ∀ y ∈ ups, lo ≤ y.t ∧ y.t ≤ lo + maxInt64)
    (δ : ℝ) (hδ : 0 < δ) (hold : ∀ x ∈ expGiven ops, δ ≤ x.u) (hdraw : ∀ y ∈ ups, 0 < y.u ∧ y.u ≤ 1)
    (gap : Int) (hgap : Silence gap (expGiven ops) ups) (hlong : 1 / δ < Real.exp (alpha * (gap / 10 ^ 9))) :
    ∃ s s', s0.run ops = .ok s ∧ s0.run (ops ++ updates ups) = .ok s' ∧ ∃ old new : List Int64, s'.vals.Perm (old ++ new) ∧
      old.Subperm s.vals ∧ new.Subperm (ups.map Given.v) ∧ new.length = min k ups.length ∧ old.length = min (k - ups.length) s.vals.length := by
  classical
  obtain ⟨s0', s, e0, e1, hsize⟩ := C24_size_partial k hk alpha now ops
  rw [hnew] at e0; cases e0
  have hlen : s.vals.length = min (expGiven ops).length k := by rw [← hsize]; simp [ExpDecaySample.vals, ExpDecaySample.size, Heap.size]
  obtain ⟨s1, s', e1', e2, old', new', b1, b2, b3, -⟩ := C115_one_by_one k hk alpha now s0 hnew ops ups
  rw [e1] at e1'; cases e1'
  refine ⟨s, s', e1, e2, ?_⟩
  rcases List.eq_nil_or_concat ups with hu | ⟨e, nw, hu⟩
  · subst hu
    have hn : new' = [] := by simpa using List.Subperm.length_le b3
    subst hn
    have : s' = s := by
      have : ops ++ updates ([] : List (Given ℝ)) = ops := by simp [updates]
      rw [this, e1] at e2; cases e2; rfl
    subst this
    refine ⟨s'.vals, [], by simp, List.Subperm.refl _, by simp, by simp, by simp; omega⟩
  · rw [List.concat_eq_append] at hu
    subst hu
    obtain ⟨s2, e3, h3⟩ := C27_top_weights k hk alpha now (ops ++ updates (e ++ [nw])) s0 hnew lo hnow (by
      intro o ho
      rcases List.mem_append.1 ho with h | h
      · exact htimes o h
      · obtain ⟨g, hg, rfl⟩ := List.mem_map.1 h
        exact htimes' g hg)
    rw [e2] at e3; cases e3
    obtain ⟨T, D, q1, q2, q3, q4⟩ := h3 (expGiven ops ++ e) nw (by rw [given_updates, List.append_assoc])
    have hw : ∀ x ∈ expGiven ops, ∀ y ∈ e, Real.exp (alpha * (x.t / 10 ^ 9)) / x.u < Real.exp (alpha * (y.t / 10 ^ 9)) / y.u := fun x hx y hy =>
      heavier ha hδ hlong (hold x hx) (hdraw y (by simp [hy])).1 (hdraw y (by simp [hy])).2 (hgap x hx y (by simp [hy]))
    have hdis : ∀ y ∈ e, y ∉ expGiven ops := fun y hy hyo => lt_irrefl _ (hw y hyo y hy)
    generalize hG : expGiven ops = G at *
    have f1 : G.Perm (T.filter (fun x => decide (x ∈ G)) ++ D.filter (fun x => decide (x ∈ G))) := by
      have := q1.filter (fun x => decide (x ∈ G))
      rw [List.filter_append, List.filter_append, List.filter_eq_self.2 (by simp), List.filter_eq_nil_iff.2 (by simpa using hdis), List.append_nil] at this
      exact this
    have f2 : e.Perm (T.filter (fun x => !decide (x ∈ G)) ++ D.filter (fun x => !decide (x ∈ G))) := by
      have := q1.filter (fun x => !decide (x ∈ G))
      rw [List.filter_append, List.filter_append, List.filter_eq_nil_iff.2 (by simp), List.filter_eq_self.2 (by simpa using hdis), List.nil_append] at this
      exact this
    have f3 : (T.filter (fun x => decide (x ∈ G)) ++ T.filter (fun x => !decide (x ∈ G))).Perm T := List.filter_append_perm _ _
    have l1 := f1.length_eq
    have l2 := f2.length_eq
    have l3 := f3.length_eq
    simp only [List.length_append] at l1 l2 l3 q3
    generalize hTo : T.filter (fun x => decide (x ∈ G)) = To at *
    generalize hTn : T.filter (fun x => !decide (x ∈ G)) = Tn at *
    have hperm : s'.vals.Perm (To.map Given.v ++ (nw.v :: Tn.map Given.v)) := by
      refine q2.trans ?_
      refine ((f3.map Given.v).symm.cons nw.v).trans ?_
      rw [List.map_append]
      exact List.perm_middle.symm
    have hsub : (nw.v :: Tn.map Given.v).Subperm ((e ++ [nw]).map Given.v) := by
      have h1 : Tn.Subperm e := (List.sublist_append_left _ _).subperm.trans f2.symm.subperm
      have h2 : (nw :: Tn).Subperm (e ++ [nw]) := ((List.subperm_cons nw).2 h1).trans (List.perm_append_singleton nw e).symm.subperm
      obtain ⟨l, hl1, hl2⟩ := h2
      exact ⟨l.map Given.v, hl1.map _, hl2.map _⟩
    by_cases hD : D.filter (fun x => !decide (x ∈ G)) = []
    · refine ⟨To.map Given.v, nw.v :: Tn.map Given.v, hperm, ?_, hsub, ?_, ?_⟩
      · have hall : ((nw.v :: Tn.map Given.v : List Int64) : Multiset Int64) = ((e ++ [nw]).map Given.v : Multiset Int64) := by
          refine Multiset.coe_eq_coe.2 ?_
          rw [hD, List.append_nil] at f2
          rw [List.map_append]
          exact ((f2.map Given.v).symm.cons nw.v).trans (List.perm_append_singleton _ _).symm
        have h1 : ((To.map Given.v : List Int64) : Multiset Int64) + ((e ++ [nw]).map Given.v : Multiset Int64) = (old' : Multiset Int64) + (new' : Multiset Int64) := by
          rw [← hall]; exact Multiset.coe_eq_coe.2 (hperm.symm.trans b1)
        have h2 : ((To.map Given.v : List Int64) : Multiset Int64) ≤ (old' : Multiset Int64) := by
          have : (old' : Multiset Int64) + (new' : Multiset Int64) ≤ (old' : Multiset Int64) + ((e ++ [nw]).map Given.v : Multiset Int64) :=
            add_le_add le_rfl (Multiset.coe_le.2 b3)
          rw [← h1] at this
          exact le_of_add_le_add_right this
        exact (Multiset.coe_le.1 h2).trans b2
      · rw [hD] at l2; simp at l2 ⊢; omega
      · rw [hD] at l2; simp at l2 ⊢; omega
    · have hT0 : To = [] := by
        by_contra hne
        obtain ⟨x, hx⟩ := List.exists_mem_of_ne_nil _ hne
        obtain ⟨d, hd⟩ := List.exists_mem_of_ne_nil _ hD
        rw [← hTo, List.mem_filter] at hx
        rw [List.mem_filter] at hd
        have hde : d ∈ e := by
          have : d ∈ G ++ e := q1.mem_iff.2 (List.mem_append_right _ hd.1)
          exact (List.mem_append.1 this).resolve_left (by simpa using hd.2)
        have := hw x (by simpa using hx.2) d hde
        exact absurd (q4 d hd.1 x hx.1) (not_le.2 this)
      have hpos := List.length_pos_iff.2 hD
      subst hT0
      refine ⟨[], nw.v :: Tn.map Given.v, by simpa using hperm, List.nil_subperm, hsub, ?_, ?_⟩
      · simp at l3 ⊢; omega
      · simp at l3 ⊢; omega

/-- C115, the usual parameters (1028 values, alpha 0.015, random numbers that are multiples of 2^-53 in (0, 1)): after 41 minutes without an update, 1028
updates are enough, in exact arithmetic, for nothing old to be left. -/
theorem C115_usual (now : Instant) (s0 : ExpDecaySample ℝ) (hnew : ExpDecaySample.new 1028 (15 / 1000 : ℝ) now = .ok s0) (ops : List (ExpOp ℝ)) (ups : List (Given ℝ))
    (lo : Int) (hnow : lo ≤ now ∧ now ≤ lo + maxInt64)
    (htimes : ∀ o ∈ ops, match o with
      | .update t _ _ => lo ≤ t ∧ t ≤ lo + maxInt64
      | .clear t => lo ≤ t ∧ t ≤ lo + maxInt64) (htimes' : ∀ y ∈ ups, lo ≤ y.t ∧ y.t ≤ lo + maxInt64)
    (hdraw : ∀ y ∈ expGiven ops ++ ups, ∃ n : Nat, 0 < n ∧ n < 2 ^ 53 ∧ y.u = n / 2 ^ 53)
    (hgap : Silence (41 * 60 * 10 ^ 9) (expGiven ops) ups) (hmany : 1028 ≤ ups.length) :
    ∃ s', s0.run (ops ++ updates ups) = .ok s' ∧ s'.vals.length = 1028 ∧ s'.vals.Subperm (ups.map Given.v) := by
  have hd : ∀ y ∈ expGiven ops ++ ups, (1 / 2 ^ 53 : ℝ) ≤ y.u ∧ y.u ≤ 1 := by
    intro y hy
    obtain ⟨n, h0, h1, h2⟩ := hdraw y hy
    have h0' : (1 : ℝ) ≤ n := by exact_mod_cast h0
    have h1' : (n : ℝ) ≤ 2 ^ 53 := by exact_mod_cast h1.le
    rw [h2]
    exact ⟨div_le_div_of_nonneg_right h0' (by positivity), div_le_one_of_le₀ h1' (by positivity)⟩
  have hlong : 1 / (1 / 2 ^ 53 : ℝ) < Real.exp (15 / 1000 * ((41 * 60 * 10 ^ 9 : Int) / 10 ^ 9)) := by
    have h2 : (1 / (1 / 2 ^ 53 : ℝ)) = Real.exp (53 * Real.log 2) := by
      rw [one_div_one_div, mul_comm, Real.exp_mul, Real.exp_log (by norm_num)]; norm_cast
    rw [h2, Real.exp_lt_exp]
    have := Real.log_two_lt_d9
    push_cast
    linarith
  obtain ⟨s, s', e1, e2, old, new, h1, h2, h3, h4, h5⟩ := C115_after_silence 1028 (by norm_num) (15 / 1000) (by norm_num) now s0 hnew ops ups lo hnow htimes htimes'
    (1 / 2 ^ 53) (by positivity) (fun x hx => (hd x (by simp [hx])).1)
    (fun y hy => ⟨lt_of_lt_of_le (by positivity) (hd y (by simp [hy])).1, (hd y (by simp [hy])).2⟩) _ hgap hlong
  have ho : old = [] := List.length_eq_zero_iff.1 (by omega)
  subst ho
  refine ⟨s', e2, by rw [h1.length_eq]; simp; omega, ?_⟩
  rw [List.nil_append] at h1
  exact h1.subperm.trans h3

section Idle
variable {F : Type} [GoFloat F] [GoSqrt F] [GoExp F]

/-- C115, time alone changes nothing: in every reachable state, as long as nobody uses a histogram or its sample, its statistics stay what they are whatever
the clock shows, and so do those of every timer on it, also while its rates are ticked. -/
theorem C115_idle (h0 h : List (Env F × Op F)) (a : Ref) (x : HistV) (ha : (World.init.run h0 : World F).objs a = some (.hist x))
    (hu : Untouched (World.init.run h0) h a) (env env' : Env F) (k : StatCall F) :
    observe ((World.init.run h0).run h) env' a (.stat k) = observe (World.init.run h0) env a (.stat k) ∧
    ∀ r b, (World.init.run h0 : World F).objs r = some (.timer (.std a b)) →
      observe ((World.init.run h0).run h) env' r (.stat k) = observe (World.init.run h0) env r (.stat k) := by
  have hle := ((run_ok h0 (F := F)).run h).2
  have ha' : ((World.init.run h0).run h : World F).objs a = some (.hist x) := by rw [(Indep.shape_le hle ha).2.2.1 rfl, ha]
  have key : histVal ((World.init.run h0).run h : World F) x (.stat k) = histVal (World.init.run h0) x (.stat k) := by
    have := (C93_independent h0 h a _ ha hu).1 env (.stat k) rfl
    rw [read_obj ha _ rfl, read_obj ha' _ rfl] at this
    exact this
  refine ⟨by rw [read_obj ha _ rfl, read_obj ha' _ rfl]; exact key, fun r b hr => ?_⟩
  have hr' := ((Indep.shape_le hle hr).2.2.2 _).1 hr
  rw [read_obj hr _ rfl, read_obj hr' _ rfl]
  simp only [objVal, timerVal, histRef, ha, ha']
  exact key

end Idle

/-! ### A concrete case -/

/-- Two values, then 41 minutes of silence, then two others. -/
private noncomputable def before : List (ExpOp ℝ) := [.update 0 7 (1 / 2), .clear 1, .update 2 8 (1 / 4), .update 3 9 (1 / 2)]
private noncomputable def after : List (Given ℝ) := [⟨41 * 60 * 10 ^ 9 + 3, 1, 1 / 2⟩, ⟨41 * 60 * 10 ^ 9 + 9, 2, 3 / 4⟩]

example : Silence (41 * 60 * 10 ^ 9) (expGiven before) after ∧ (∀ x ∈ expGiven before, (1 / 2 ^ 53 : ℝ) ≤ x.u) ∧ (∀ y ∈ after, 0 < y.u ∧ y.u ≤ 1) ∧
    ∃ s0 : ExpDecaySample ℝ, ExpDecaySample.new 2 (15 / 1000) 0 = .ok s0 := by
  obtain ⟨s0, h, -⟩ := ExpDecaySample.new_shape (F := ℝ) 2 (15 / 1000) 0
  refine ⟨?_, ?_, ?_, s0, h⟩
  · simp [Silence, expGiven, before, after]
  · simp [expGiven, before]; norm_num
  · simp [after]; norm_num

/-- The histogram of a timer is untouched by a tick, a mark of the timer's meter and other metrics. -/
example {F : Type} [GoFloat F] [GoSqrt F] [GoExp F] :
    Untouched (World.init.run sharingHistory : World F) [(envAt 5, .tick), (envAt 6, .call 3 (.mark 1)), (envAt 7, .new .counter)] 2 := by
  have e1 : ∃ x, (World.init.run sharingHistory : World F).objs 1 = some (.sample (.exp x)) := ⟨_, rfl⟩
  have e3 : ∃ m, (World.init.run sharingHistory : World F).objs 3 = some (.meter m) := by
    obtain ⟨o, h1, h2⟩ := ((run_ok sharingHistory).refs 4 _ (sharing_4 (F := F))).2
    cases o <;> first | exact ⟨_, h1⟩ | cases h2
  obtain ⟨x, e1⟩ := e1
  obtain ⟨m, e3⟩ := e3
  obtain ⟨p2, s2⟩ := C93_parts sharingHistory [(envAt 5, .tick)] 2 _ (sharing_2 (F := F))
  obtain ⟨p3, s3⟩ := C93_parts sharingHistory [(envAt 5, .tick)] 3 _ e3
  refine ⟨?_, ?_, fun h => h, trivial⟩
  · simp [touches, partOf, histSample, sharing_2, live, e1]
  · show ¬ shares ((World.init.run sharingHistory).run [(envAt 5, .tick)]) 3 2
    unfold shares
    simp only [p2, p3, s2, s3]
    simp [partOf, slice, sampleSlice, histSample, sharing_2, e3]

end GoMetrics
