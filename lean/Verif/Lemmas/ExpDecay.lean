import Verif.Lemmas.Heap
import Verif.Lemmas.Uniform
import Verif.Spec.Sample

/-! One update of an exponentially decaying sample, and its history invariants. -/

set_option linter.unusedSimpArgs false
set_option linter.unusedSectionVars false

namespace GoMetrics
open Spec

variable {F : Type} [GoFloat F] [GoExp F]

namespace ExpDecaySample

/-- What a rescale at time `t` does to an item (nothing before the hour is over). -/
def rescaled (s : ExpDecaySample F) (t : Instant) (x : Item F) : Item F :=
  if t > s.t1 then scaleItem (factor s.alpha s.t0 t) x else x

theorem rescaled_v (s : ExpDecaySample F) (t : Instant) (x : Item F) : (s.rescaled t x).v = x.v := by
  unfold rescaled scaleItem; split <;> rfl

/-- Sizes of a sample with reservoir size `k`. -/
structure Shape (k : Nat) (s : ExpDecaySample F) : Prop where
  size : s.reservoirSize = k
  cap : s.values.s.length + s.values.rest.length = k

theorem new_shape (k : Nat) (alpha : F) (now : Instant) : ∃ s, ExpDecaySample.new (k : Int) alpha now = .ok s ∧ Shape k s ∧
    s.values.s = [] ∧ s.count = 0 ∧ s.alpha = alpha ∧ s.t0 = now ∧ s.t1 = now + hour := by
  unfold ExpDecaySample.new Heap.new
  rw [if_neg (by omega)]
  exact ⟨_, rfl, ⟨rfl, by simp⟩, rfl, rfl, rfl, rfl, rfl⟩

theorem update_spec (k : Nat) (hk : 0 < k) (s : ExpDecaySample F) (hs : Shape k s) (t : Instant) (v : Int64) (u : F) :
    ∃ s' dropped kept, s.update t v u = .ok s' ∧ Shape k s' ∧ s'.count = s.count + 1 ∧ s'.alpha = s.alpha ∧
      s'.t0 = (if t > s.t1 then t else s.t0) ∧ s'.t1 = (if t > s.t1 then t + hour else s.t1) ∧
      (dropped ++ kept).Perm s.values.s ∧
      dropped.length = (if s.values.s.length = k then 1 else 0) ∧
      s'.values.s.Perm (({ k := key s.alpha s.t0 t u, v := v } :: kept).map (s.rescaled t)) ∧
      ∀ (P : F → Prop) (d : Item F), KeyOrder F P → AllP P s.values.s → IsHeap d s.values.s s.values.s.length →
        (∀ x ∈ dropped, ∀ y ∈ s.values.s, GoFloat.lt y.k x.k = false) ∧
        (P (key s.alpha s.t0 t u) → AllP P s'.values.s → IsHeap d s'.values.s s'.values.s.length) := by
  have hsz := hs.size
  have hcap := hs.cap
  unfold update
  dsimp only
  -- the heap after the possible pop
  obtain ⟨h1, dropped, kept, e1, p1, l1, c1, o1⟩ : ∃ (h1 : Heap F) (dropped kept : List (Item F)),
      (if ((s.values.size : Nat) : Int) = s.reservoirSize then do
        let (_, h) ← s.values.pop
        return h
      else return s.values : Res (Heap F)) = .ok h1 ∧ (dropped ++ kept).Perm s.values.s ∧
      dropped.length = (if s.values.s.length = k then 1 else 0) ∧ (h1.s = kept ∧ h1.s.length + h1.rest.length = k ∧ 0 < h1.rest.length) ∧
      ∀ (P : F → Prop) (d : Item F), KeyOrder F P → AllP P s.values.s → IsHeap d s.values.s s.values.s.length →
        IsHeap d h1.s h1.s.length ∧ ∀ x ∈ dropped, ∀ y ∈ s.values.s, GoFloat.lt y.k x.k = false := by
    by_cases hfull : s.values.s.length = k
    · rw [if_pos (by rw [hsz, Heap.size, hfull])]
      obtain ⟨x, h', e, p, r, o⟩ := pop_spec s.values (by intro h; rw [h] at hfull; simp at hfull; omega)
      have hpl := p.length_eq
      simp at hpl
      refine ⟨h', [x], h'.s, ?_, p, by simp [hfull], ⟨rfl, by omega, by omega⟩, fun P d ho hP hh => ?_⟩
      · simp only [bind, Except.bind]
        rw [e]; rfl
      · refine ⟨(o P d ho hP hh).1, fun y hy => ?_⟩
        simp at hy; subst hy
        exact (o P d ho hP hh).2
    · rw [if_neg (by rw [hsz, Heap.size]; omega)]
      exact ⟨s.values, [], s.values.s, rfl, List.Perm.refl _, by simp [hfull], ⟨rfl, by omega, by omega⟩, fun P d ho hP hh => ⟨hh, by simp⟩⟩
  obtain ⟨rfl, hc, hpos⟩ := c1
  simp only [bind, Except.bind] at e1 ⊢
  rw [e1]
  dsimp only
  obtain ⟨y, rest, hrest⟩ : ∃ y rest, h1.rest = y :: rest := by
    cases hh : h1.rest with
    | nil => rw [hh] at hpos; simp at hpos
    | cons y rest => exact ⟨y, rest, rfl⟩
  obtain ⟨h2, e2, p2, r2, o2⟩ := push_spec h1 { k := key s.alpha s.t0 t u, v := v } y rest hrest
  rw [e2]
  dsimp only
  have hl2 := p2.length_eq
  simp at hl2
  rw [hrest] at hc; simp at hc
  have hP1 : ∀ P : F → Prop, AllP P s.values.s → AllP P h1.s := fun P hP x hx => hP x (p1.mem_iff.1 (List.mem_append_right _ hx))
  by_cases ht : t > s.t1
  · rw [if_pos ht]
    obtain ⟨h3, e3, p3, r3, o3⟩ := rescaleLoop_spec (factor s.alpha s.t0 t) h2.s.length 0 h2.clear rfl (by omega)
      (by simp [Heap.clear])
    rw [e3]
    have hcl : (h2.clear.rest.take (h2.s.length - 0)) = h2.s := by simp [Heap.clear]
    rw [hcl] at p3 o3
    have hmap : s.rescaled t = scaleItem (factor s.alpha s.t0 t) := by
      funext x; unfold rescaled; rw [if_pos ht]
    have p3' : h3.s.Perm (h2.s.map (scaleItem (factor s.alpha s.t0 t))) := by
      simpa [Heap.clear] using p3
    refine ⟨_, dropped, h1.s, rfl, ⟨hsz, ?_⟩, rfl, rfl, by rw [if_pos ht], by rw [if_pos ht], p1, l1, ?_, fun P d ho hP hh => ⟨(o1 P d ho hP hh).2, fun hx hP' => ?_⟩⟩
    · have := p3'.length_eq
      simp at this
      simp [r3, this, Heap.clear, r2]; omega
    · rw [hmap]; exact p3'.trans (p2.map _)
    · exact o3 P d ho (by intro x hx; simp [Heap.clear] at hx) (hP'.perm p3'.symm) (by intro m _ hm; simp [Heap.clear] at hm)
  · rw [if_neg ht]
    have hmap : s.rescaled t = id := by
      funext x; unfold rescaled; rw [if_neg ht]; rfl
    refine ⟨_, dropped, h1.s, rfl, ⟨hsz, ?_⟩, rfl, rfl, by rw [if_neg ht], by rw [if_neg ht], p1, l1, ?_, fun P d ho hP hh => ⟨(o1 P d ho hP hh).2, fun hx _ => ?_⟩⟩
    · simp [r2]; omega
    · rw [hmap, List.map_id]; exact p2
    · exact o2 P d ho (hP1 P hP) hx (o1 P d ho hP hh).1

end ExpDecaySample

theorem expGiven_snoc (ops : List (ExpOp F)) (o : ExpOp F) :
    expGiven (ops ++ [o]) = match o with
      | .update t v u => expGiven ops ++ [⟨t, v, u⟩]
      | .clear _ => [] := by
  unfold expGiven
  rw [List.foldl_append]
  cases o <;> rfl

theorem exp_run_snoc (s0 s1 : ExpDecaySample F) (ops : List (ExpOp F)) (o : ExpOp F) (h : s0.run ops = .ok s1) :
    s0.run (ops ++ [o]) = s1.apply o := by
  unfold ExpDecaySample.run at h ⊢
  rw [List.foldlM_append, h]
  simp only [List.foldlM_cons, List.foldlM_nil, bind, Except.bind, pure, Except.pure]
  cases s1.apply o <;> rfl

open ExpDecaySample in
/-- Induction over histories: a property preserved by updates and clears holds after every history, and no call panics. -/
theorem exp_run_induct_of (k : Nat) (hk : 0 < k) (s0 : ExpDecaySample F) (hs0 : Shape k s0)
    (I : List (Given F) → ExpDecaySample F → Prop) (Q : ExpOp F → Prop) (h0 : I [] s0)
    (hclear : ∀ g s now, Q (.clear now) → Shape k s → I g s → I [] (s.clear now))
    (hupd : ∀ g s s' t v u, Q (.update t v u) → Shape k s → I g s → s.update t v u = .ok s' → I (g ++ [⟨t, v, u⟩]) s')
    (ops : List (ExpOp F)) (hQ : ∀ o ∈ ops, Q o) : ∃ s, s0.run ops = .ok s ∧ Shape k s ∧ I (expGiven ops) s := by
  induction ops using List.reverseRecOn with
  | nil => exact ⟨s0, rfl, hs0, h0⟩
  | append_singleton ops o ih =>
    obtain ⟨s1, h1, hsh, hi⟩ := ih (fun o ho => hQ o (List.mem_append_left _ ho))
    have hQo := hQ o (by simp)
    rw [exp_run_snoc s0 s1 ops o h1, expGiven_snoc]
    cases o with
    | clear now =>
      refine ⟨_, rfl, ⟨hsh.size, ?_⟩, hclear _ _ _ hQo hsh hi⟩
      have := hsh.cap
      simp [ExpDecaySample.clear, Heap.clear]; omega
    | update t v u =>
      obtain ⟨s', _, _, e, hs', _⟩ := update_spec k hk s1 hsh t v u
      exact ⟨s', e, hs', hupd _ _ _ _ _ _ hQo hsh hi e⟩

open ExpDecaySample in
theorem exp_run_induct (k : Nat) (hk : 0 < k) (s0 : ExpDecaySample F) (hs0 : Shape k s0)
    (I : List (Given F) → ExpDecaySample F → Prop) (h0 : I [] s0)
    (hclear : ∀ g s now, Shape k s → I g s → I [] (s.clear now))
    (hupd : ∀ g s s' t v u, Shape k s → I g s → s.update t v u = .ok s' → I (g ++ [⟨t, v, u⟩]) s')
    (ops : List (ExpOp F)) : ∃ s, s0.run ops = .ok s ∧ Shape k s ∧ I (expGiven ops) s :=
  exp_run_induct_of k hk s0 hs0 I (fun _ => True) h0 (fun g s now _ => hclear g s now) (fun g s s' t v u _ => hupd g s s' t v u)
    ops (fun _ _ => trivial)

end GoMetrics
