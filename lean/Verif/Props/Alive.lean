import Verif.Spec.Alive
import Verif.Props.Leak
import Verif.Lemmas.Independence

/-! Property theorem C114: meters that are registered are ticked. -/

set_option linter.unusedSimpArgs false
set_option linter.unusedSectionVars false

namespace GoMetrics
open Spec

variable {F : Type} [GoFloat F] [GoSqrt F] [GoExp F]

/-- A meter that a constructor makes for the object it returns is ticked. -/
private theorem made_live {env : Env F} {c : NewOp F} {w w1 : World F} {r m : Ref} (h : construct env c w = (w1, .ok r)) (ht : stopTarget w1 r m) (hs : standard w1 m) (ho : w.objs m = none) : live w1 m := by
  obtain ⟨⟨o, hr, hty⟩, -⟩ := construct_new h
  obtain ⟨s, hs⟩ := hs
  have no : newTy c ≠ .meter → newTy c ≠ .timer → live w1 m := by
    intro h1 h2
    rcases ht with rfl | ⟨a, ht⟩
    · rw [hr] at hs; cases hs; exact absurd hty.symm h1
    · rw [hr] at ht; cases ht; exact absurd hty.symm h2
  cases c with
  | meter =>
    by_cases hu : w.useNil = true
    · simp only [construct, newMeter, hu, if_true] at h
      have h1 := (alloc_spec h).1
      rcases ht with rfl | ⟨a, ht⟩
      · rw [h1] at hs; cases hs
      · rw [h1] at ht; cases ht
    · rw [show construct env .meter w = newMeter env w from rfl, newMeter_eq env w (by simpa using hu)] at h
      simp only [Prod.mk.injEq, Except.ok.injEq] at h
      obtain ⟨rfl, rfl⟩ := h
      rcases ht with rfl | ⟨a, ht⟩
      · exact ⟨_, Function.update_self .., rfl⟩
      · simp at ht
  | timer =>
    by_cases hu : w.useNil = true
    · simp only [construct, hu, if_true] at h
      have h1 := (alloc_spec h).1
      rcases ht with rfl | ⟨a, ht⟩
      · rw [h1] at hs; cases hs
      · rw [h1] at ht; cases ht
    · obtain ⟨x, -, e⟩ := newTimer_eq env w (by simpa using hu)
      rw [e] at h
      simp only [Prod.mk.injEq, Except.ok.injEq] at h
      obtain ⟨rfl, rfl⟩ := h
      rcases ht with rfl | ⟨a, ht⟩
      · simp [timerObjs] at hs
      · simp only [timerObjs, Function.update_self, Option.some.injEq, Obj.timer.injEq, TimerV.std.injEq] at ht
        obtain ⟨-, rfl⟩ := ht
        refine ⟨StandardMeter.new env.now, ?_, rfl⟩
        show timerObjs env x w (w.nextObj + 2) = _
        rw [timerObjs, Function.update_of_ne (by omega), Function.update_self]
  | customTimer a b =>
    simp only [construct, newTimer] at h
    split at h
    · have h1 := (alloc_spec h).1
      rcases ht with rfl | ⟨a, ht⟩
      · rw [h1] at hs; cases hs
      · rw [h1] at ht; cases ht
    · split at h
      · rename_i h2
        have h1 := (alloc_spec h).1
        rcases ht with rfl | ⟨a, ht⟩
        · rw [h1] at hs; cases hs
        · rw [h1] at ht; cases ht
          rw [h2] at ho; cases ho
      · simp [act_fail] at h
  | _ => exact no (by simp [newTy]) (by simp [newTy])

/-- Such meters are new, except with `NewCustomTimer`. -/
private theorem made_new {env : Env F} {c : NewOp F} {w w1 : World F} {r m : Ref} (hc : ∀ a b, c ≠ .customTimer a b) (h : construct env c w = (w1, .ok r)) (ht : stopTarget w1 r m) : w.nextObj ≤ m := by
  obtain ⟨⟨o, hr, hty⟩, hn⟩ := construct_new h
  rcases ht with rfl | ⟨a, ht⟩
  · exact hn
  · rw [hr] at ht; cases ht
    cases c with
    | timer =>
      by_cases hu : w.useNil = true
      · simp only [construct, hu, if_true] at h
        have h1 := (alloc_spec h).1
        rw [h1] at hr; cases hr
      · obtain ⟨x, -, e⟩ := newTimer_eq env w (by simpa using hu)
        rw [e] at h
        simp only [Prod.mk.injEq, Except.ok.injEq] at h
        obtain ⟨rfl, rfl⟩ := h
        simp only [timerObjs, Function.update_self, Option.some.injEq, Obj.timer.injEq, TimerV.std.injEq] at hr
        obtain ⟨-, rfl⟩ := hr
        omega
    | customTimer a b => exact absurd rfl (hc a b)
    | _ => simp [newTy, Obj.ty] at hty

/-- Types of objects stay. -/
private theorem standard_le {w w' : World F} (h : w.Leq w') {m : Ref} {o : Obj F} (ho : w.objs m = some o) (hs : standard w' m) : standard w m := by
  obtain ⟨s, hs⟩ := hs
  rcases hl : o.live with _ | k
  · exact ⟨s, by rw [ho, ← hs, h.frozen m o ho hl]⟩
  · obtain ⟨o', h1, h2⟩ := h.live m o k ho hl
    rw [hs] at h1
    cases h1
    have hk : k = .meter := by
      rcases h2 with h2 | ⟨h2, -⟩
      · simp only [Obj.live] at h2
        split at h2
        · cases h2
        · exact (Option.some.inj h2).symm
      · exact h2
    subst hk
    obtain ⟨s', h3, -⟩ := (live_iff w m).2 ⟨o, ho, hl⟩
    exact ⟨s', h3⟩

private theorem target_le {w w' : World F} (h : w.Leq w') {r m : Ref} {o : Obj F} (ho : w.objs r = some o) (ht : stopTarget w' r m) : stopTarget w r m := by
  rcases ht with rfl | ⟨a, ht⟩
  · exact .inl rfl
  · exact .inr ⟨a, ((Indep.shape_le h ho).2.2.2 _).2 ht⟩

private theorem target_exists {w : World F} (hw : w.Ok) {r m : Ref} {o : Obj F} (ho : w.objs r = some o) (ht : stopTarget w r m) : ∃ o, w.objs m = some o := by
  rcases ht with rfl | ⟨a, ht⟩
  · exact ⟨o, ho⟩
  · obtain ⟨-, o, h, -⟩ := hw.refs r _ ht
    exact ⟨o, h⟩

private theorem bound_exists {w : World F} (hw : w.Ok) {id : Nat} {name : Str} {r : Ref} (h : gets w id name = some r) : ∃ o, w.objs r = some o := by
  rw [gets_eq] at h
  obtain ⟨o, h, -⟩ := hw.metric id _ (lookup_some_mem h)
  exact ⟨o, h⟩

/-- Where the meter of a newly bound object comes from. -/
private theorem bound_new {w : World F} (hw : w.Ok) {env : Env F} {o : Op F} {id : Nat} {name : Str} {r m : Ref} (hb : binds w env o id name r) (ht : stopTarget (step env o w).1 r m)
    (hs : standard (step env o w).1 m) (hm : w.objs m = none) : live (step env o w).1 m := by
  cases o with
  | reg g o =>
    obtain ⟨hb, hf, n, rfl, hy⟩ := hb
    have obj : ∀ x, r = x → (∃ o, w.objs r = some o ∧ metricKind o = true) → live (step env (.reg g o) w).1 m := by
      rintro _ rfl ⟨y, hy, -⟩
      have h1 := target_le (hw.step env (.reg g o)).2 hy ht
      obtain ⟨z, hz⟩ := target_exists hw hy h1
      rw [hm] at hz; cases hz
    cases o with
    | register n' v =>
      cases v with
      | obj x => exact obj x hy.2.1.symm hy.2.2
      | _ => exact hy.elim
    | getOrRegister n' v =>
      cases v with
      | obj x => exact obj x hy.2.1.symm hy.2.2
      | ctor c =>
        obtain ⟨rfl, hc, hr⟩ := hy
        rcases hx : construct env c w with ⟨w1, p | q⟩
        · rw [hx] at hr; cases hr
        · rw [hx] at hr
          cases hr
          obtain ⟨w2, h1, h2, -⟩ := (C49_free w env g id hb _ c hf hc).1 w1 r hx
          have e : (step env (.reg g (.getOrRegister n' (.ctor c))) w).1 = w2 := by rw [step_reg_fst, h1]
          have eo : (step env (.reg g (.getOrRegister n' (.ctor c))) w).1.objs = w1.objs := by rw [e, h2]
          obtain ⟨s, h3, h4⟩ := made_live hx (m := m) (by rcases ht with h | ⟨a, h⟩; exact .inl h; exact .inr ⟨a, by rw [← eo]; exact h⟩)
            (by obtain ⟨s, h⟩ := hs; exact ⟨s, by rw [← eo]; exact h⟩) hm
          exact ⟨s, by rw [eo]; exact h3, h4⟩
      | _ => exact hy.elim
    | _ => exact hy.elim
  | _ => exact hb.elim

private theorem binds_once {w : World F} {env : Env F} {o : Op F} {id id' : Nat} {name name' : Str} {r r' : Ref} (h : binds w env o id name r) (h' : binds w env o id' name' r') : id = id' ∧ name = name' := by
  cases o with
  | reg g o =>
    obtain ⟨h1, -, n, rfl, h2⟩ := h
    obtain ⟨h1', -, n', rfl, h2'⟩ := h'
    rw [h1] at h1'
    refine ⟨Option.some.inj h1', ?_⟩
    have key : ∀ {n r}, yields w env o n r → ∃ v, o = .register n v ∨ o = .getOrRegister n v := by
      intro n r hy
      unfold yields at hy
      split at hy
      · exact ⟨_, .inl (by rw [hy.1])⟩
      · exact ⟨_, .inr (by rw [hy.1])⟩
      · exact ⟨_, .inr (by rw [hy.1])⟩
      · exact hy.elim
    obtain ⟨v, rfl | rfl⟩ := key h2 <;> obtain ⟨v', e | e⟩ := key h2' <;> cases e <;> rfl
  | _ => exact h.elim

/-- The invariant: registered meters are ticked, and each has one name. -/
private structure Inv (w : World F) : Prop where
  alive : ∀ m, standard w m → held w m → live w m
  once : ∀ m, standard w m → ∀ {id name r id' name' r'}, gets w id name = some r → stopTarget w r m → gets w id' name' = some r' → stopTarget w r' m → id = id' ∧ name = name'

private theorem inv_step (h : List (Env F × Op F)) (hi : Inv (World.init.run h : World F)) (env : Env F) (o : Op F) (hc : careful (World.init.run h : World F) env o) : Inv (step env o (World.init.run h : World F)).1 := by
  have hw : (World.init.run h : World F).Ok := run_ok h
  obtain ⟨hw', hle⟩ := hw.step env o
  -- an old binding whose meter is a standard meter now
  have old : ∀ {id name r m}, gets (World.init.run h : World F) id name = some r → stopTarget (step env o (World.init.run h : World F)).1 r m → standard (step env o (World.init.run h : World F)).1 m →
      stopTarget (World.init.run h : World F) r m ∧ standard (World.init.run h : World F) m := by
    intro id name r m hg ht hs
    obtain ⟨x, hx⟩ := bound_exists hw hg
    have h1 := target_le hle hx ht
    obtain ⟨y, hy⟩ := target_exists hw hx h1
    exact ⟨h1, standard_le hle hy hs⟩
  -- a new binding: its meter is new, or was ticked and had no name
  have new : ∀ {id name r m}, binds (World.init.run h : World F) env o id name r → stopTarget (step env o (World.init.run h : World F)).1 r m → standard (step env o (World.init.run h : World F)).1 m →
      live (step env o (World.init.run h : World F)).1 m ∧ ¬ ∃ id' name' r', gets (World.init.run h : World F) id' name' = some r' ∧ stopTarget (World.init.run h : World F) r' m := by
    intro id name r m hb ht hs
    rcases hm : (World.init.run h : World F).objs m with _ | y
    · refine ⟨bound_new hw hb ht hs hm, ?_⟩
      rintro ⟨id', name', r', h1, h2⟩
      obtain ⟨x, hx⟩ := bound_exists hw h1
      obtain ⟨y, hy⟩ := target_exists hw hx h2
      rw [hm] at hy; cases hy
    · obtain ⟨h1, h2⟩ := hc.2 id name r m hb ht (standard_le hle hm hs)
      refine ⟨(C37_step h env o m h1).2 fun h3 => ?_, fun ⟨id', name', r', h3, h4⟩ => h2 ⟨id', name', r', h3, h4⟩⟩
      cases o with
      | reg g o => cases o <;> first | exact h3.elim | (obtain ⟨-, -, n, -, hy⟩ := hb; exact hy.elim)
      | _ => exact hb.elim
  have once : ∀ m, standard (step env o (World.init.run h : World F)).1 m → ∀ {id name r id' name' r'}, gets (step env o (World.init.run h : World F)).1 id name = some r →
      stopTarget (step env o (World.init.run h : World F)).1 r m → gets (step env o (World.init.run h : World F)).1 id' name' = some r' → stopTarget (step env o (World.init.run h : World F)).1 r' m →
      id = id' ∧ name = name' := by
    intro m hs id name r id' name' r' h1 h2 h3 h4
    rcases (step_gets env o _ id name r).1 h1 with h1 | ⟨h1, -⟩ <;> rcases (step_gets env o _ id' name' r').1 h3 with h3 | ⟨h3, -⟩
    · exact binds_once h1 h3
    · obtain ⟨h5, -⟩ := old h3 h4 hs
      exact absurd ⟨id', name', r', h3, h5⟩ (new h1 h2 hs).2
    · obtain ⟨h5, -⟩ := old h1 h2 hs
      exact absurd ⟨id, name, r, h1, h5⟩ (new h3 h4 hs).2
    · obtain ⟨h5, h6⟩ := old h1 h2 hs
      obtain ⟨h7, -⟩ := old h3 h4 hs
      exact hi.once m h6 h1 h5 h3 h7
  refine ⟨?_, once⟩
  rintro m hs ⟨id, name, r, h1, h2⟩
  rcases (step_gets env o _ id name r).1 h1 with h3 | ⟨h3, h4⟩
  · exact (new h3 h2 hs).1
  · obtain ⟨h5, h6⟩ := old h3 h2 hs
    have hh : held (World.init.run h : World F) m := ⟨id, name, r, h3, h5⟩
    refine (C37_step h env o m (hi.alive m h6 hh)).2 fun hst => ?_
    have mem : ∀ {id' n x}, (n, x) ∈ (World.init.run h : World F).regs id' → gets (World.init.run h : World F) id' n = some x := fun {id' n x} hm => by
      rw [gets_eq]; exact lookup_of_mem (hw.keys id') hm
    cases o with
    | call x c =>
      cases c with
      | stop => exact hc.1 x m rfl hst hh
      | _ => exact hst.elim
    | reg g o =>
      cases o with
      | unregister n =>
        obtain ⟨id', x, hb, hm, ht⟩ := hst
        obtain ⟨rfl, rfl⟩ := hi.once m h6 h3 h5 (mem hm) ht
        exact h4 ⟨hb, (fullName_eq g n).symm⟩
      | unregisterAll =>
        obtain ⟨id', n, x, hb, hm, ht⟩ := hst
        obtain ⟨rfl, rfl⟩ := hi.once m h6 h3 h5 (mem hm) ht
        exact h4 hb
      | _ => exact hst.elim
    | _ => exact hst.elim

private theorem inv_run (h : List (Env F × Op F)) (hc : allCareful h) : Inv (World.init.run h : World F) := by
  induction h using List.reverseRecOn with
  | nil => exact ⟨fun m ⟨s, hs⟩ => (by cases hs), fun m ⟨s, hs⟩ => (by cases hs)⟩
  | append_singleton h x ih =>
    obtain ⟨env, o⟩ := x
    have e : (World.init.run (h ++ [(env, o)]) : World F) = (step env o (World.init.run h)).1 := by rw [World.run_append]; rfl
    rw [e]
    exact inv_step h (ih fun l1 env' o' l2 e => hc l1 env' o' (l2 ++ [(env, o)]) (by rw [e]; simp)) env o (hc h env o [] (by simp))

/-- C114: if a program treats its meters with care (`careful`), every meter that is registered, itself or as the meter of a timer, is ticked at every tick of the clock. -/
theorem C114_ticked (h : List (Env F × Op F)) (hc : allCareful h) (id : Nat) (name : Str) (r m : Ref) (s : StandardMeter F) (hg : gets (World.init.run h : World F) id name = some r)
    (ht : stopTarget (World.init.run h : World F) r m) (hs : (World.init.run h : World F).objs m = some (.meter (.std s))) (env : Env F) :
    s.stopped = false ∧ ∃ w', step env .tick (World.init.run h : World F) = (w', .ok (.out .unit)) ∧ w'.objs m = some (.meter (.std (s.tick env.now))) := by
  obtain ⟨s', h1, h2⟩ := (inv_run h hc).alive m ⟨s, hs⟩ ⟨id, name, r, hg, ht⟩
  rw [hs] at h1
  cases h1
  obtain ⟨w', h3, h4, -⟩ := C37_tick h env
  exact ⟨h2, w', h3, h4 m s hs h2⟩

private theorem leaves_careful (h : List (Env F × Op F)) (hl : ∀ x ∈ h, leavesMeters x.2 = true) : allCareful h := by
  intro l1 env o l2 e
  have ho := hl (env, o) (by rw [e]; simp)
  have hw : (World.init.run l1 : World F).Ok := run_ok l1
  refine ⟨fun x m e => by subst e; simp [leavesMeters] at ho, fun id name r m hb ht hs => ?_⟩
  obtain ⟨s, hs⟩ := hs
  cases o with
  | reg g o =>
    obtain ⟨hb, hf, n, rfl, hy⟩ := hb
    cases o with
    | register n' v => cases v <;> first | exact hy.elim | simp [leavesMeters] at ho
    | getOrRegister n' v =>
      cases v with
      | obj x => simp [leavesMeters] at ho
      | ctor c =>
        obtain ⟨rfl, hc, hr⟩ := hy
        rcases hx : construct env c (World.init.run l1 : World F) with ⟨w1, p | q⟩
        · rw [hx] at hr; cases hr
        · rw [hx] at hr
          cases hr
          obtain ⟨w2, h1, h2, -⟩ := (C49_free (World.init.run l1 : World F) env g id hb _ c hf hc).1 w1 r hx
          have eo : (step env (.reg g (.getOrRegister n' (.ctor c))) (World.init.run l1 : World F)).1.objs = w1.objs := by rw [step_reg_fst, h1, h2]
          have hn := made_new (m := m) (by rintro a b rfl; simp [leavesMeters] at ho) hx (by rcases ht with h | ⟨a, h⟩; exact .inl h; exact .inr ⟨a, by rw [← eo]; exact h⟩)
          rw [hw.obj m hn] at hs; cases hs
      | _ => exact hy.elim
    | _ => exact hy.elim
  | _ => exact hb.elim

/-- C114: if the program leaves it to registries to make and stop meters and timers, the clock ticks exactly the meters that are registered. -/
theorem C114_exact (h : List (Env F × Op F)) (hl : ∀ x ∈ h, leavesMeters x.2 = true) (m : Ref) : m ∈ (World.init.run h : World F).meters ↔ standard (World.init.run h : World F) m ∧ held (World.init.run h : World F) m := by
  rw [meters_live (run_ok h)]
  constructor
  · intro hm
    refine ⟨?_, C108_held h (fun x hx => ?_) m ((meters_live (run_ok h) m).2 hm)⟩
    · obtain ⟨s, hs, -⟩ := hm; exact ⟨s, hs⟩
    · have := hl x hx
      generalize x.2 = o at this
      cases o with
      | new c => cases c <;> simp [leavesMeters, makesMeter] at this ⊢
      | _ => rfl
  · rintro ⟨h1, h2⟩
    exact (inv_run h (leaves_careful h hl)).alive m h1 h2

/-! ### Examples -/

example : (5 : Ref) ∈ (World.init.run lazyHistory : World F64).meters ↔ standard (World.init.run lazyHistory : World F64) 5 ∧ held (World.init.run lazyHistory : World F64) 5 := by
  refine C114_exact lazyHistory (fun x hx => ?_) 5
  simp only [lazyHistory, List.mem_cons, List.not_mem_nil, or_false] at hx
  rcases hx with rfl | rfl | rfl | rfl | rfl | rfl <;> rfl

-- a careful program that makes its meter itself and stops another one
private def own : List (Env F64 × Op F64) :=
  [(envAt 0, .new .meter), (envAt 0, .new .meter), (envAt 1, .reg (.std 0) (.register [109] (.obj 0))), (envAt 2, .call 1 .stop)]

private theorem own_held {m : Ref} (h : held (World.init.run (own.take 3)) m) : m = 0 := by
  obtain ⟨id, name, r, hg, ht⟩ := h
  have hid : id = 0 ∧ r = 0 := by
    rcases (step_gets (envAt 1) _ (World.init.run (own.take 2)) id name r).1 hg with hb | ⟨hb, -⟩
    · exact ⟨(Option.some.inj hb.1).symm, by obtain ⟨-, -, n, -, hy⟩ := hb; exact hy.2.1.symm⟩
    · cases hb
  obtain ⟨rfl, rfl⟩ := hid
  rcases ht with h | ⟨a, ha⟩
  · exact h.symm
  · cases ha

example : allCareful own := by
  intro l1 env o l2 e
  match l1, e with
  | [], e => cases e; exact ⟨fun _ _ h => (by cases h), fun _ _ _ _ h => h.elim⟩
  | [_], e => cases e; exact ⟨fun _ _ h => (by cases h), fun _ _ _ _ h => h.elim⟩
  | [_, _], e =>
    cases e
    refine ⟨fun _ _ h => (by cases h), fun id name r m hb ht hs => ?_⟩
    obtain ⟨-, -, n, -, -, rfl, -⟩ := hb
    rcases ht with rfl | ⟨a, ha⟩
    · refine ⟨⟨_, rfl, rfl⟩, ?_⟩
      rintro ⟨id, name, r, hg, -⟩
      cases hg
    · cases ha
  | [_, _, _], e =>
    cases e
    refine ⟨fun x m h ht hh => ?_, fun _ _ _ _ h => h.elim⟩
    cases h
    obtain rfl := own_held hh
    rcases ht with h | ⟨a, ha⟩
    · cases h
    · cases ha
  | _ :: _ :: _ :: _ :: l, e => simp [own] at e

/-! ### Programs without care -/

/-- The count that the meter under `name` of registry 0 shows after 5 more events. -/
private noncomputable def counted (h : List (Env F64 × Op F64)) (name : Str) : Option (Res (Out F64)) :=
  match lookup ((World.init.run h : World F64).regs 0) name with
  | some r => some (observe (World.init.run (h ++ [(envAt 9, .call r (.mark 5)), (envAt 10, .tick)])) (envAt 11) r .count)
  | none => none
private def isZero : Option (Res (Out F64)) → Bool
  | some (.ok (.int n)) => n == 0
  | _ => false
private theorem zero_of {x : Option (Res (Out F64))} (h : isZero x = true) : x = some (.ok (.int 0)) := by
  unfold isZero at h
  split at h
  · rw [eq_of_beq h]
  · cases h

/-- C114 (the code violates the plain claim that a registered meter counts): one meter under the names "a" and "b". After `Unregister("a")` it is still registered as "b", but dead: 5 events are not counted. -/
theorem C114_two_names_refuted : ∃ h : List (Env F64 × Op F64), (∀ x ∈ h, x.2 ≠ .call 0 .stop) ∧ gets (World.init.run h : World F64) 0 [98] = some 0 ∧
    observe (World.init.run (h ++ [(envAt 9, .call 0 (.mark 5)), (envAt 10, .tick)])) (envAt 11) 0 .count = .ok (.int 0) := by
  refine ⟨[(envAt 0, .reg (.std 0) (.getOrRegister [97] (.ctor .meter))), (envAt 1, .reg (.std 0) (.register [98] (.obj 0))), (envAt 2, .reg (.std 0) (.unregister [97]))], ?_, ?_, ?_⟩
  · intro x hx
    simp only [List.mem_cons, List.not_mem_nil, or_false] at hx
    rcases hx with rfl | rfl | rfl <;> simp
  · decide +kernel
  · exact Option.some.inj (zero_of (x := counted [(envAt 0, .reg (.std 0) (.getOrRegister [97] (.ctor .meter))), (envAt 1, .reg (.std 0) (.register [98] (.obj 0))), (envAt 2, .reg (.std 0) (.unregister [97]))] [98]) (by decide +kernel))

/-- The same with two registries: `UnregisterAll` of one kills the meter in the other. -/
theorem C114_two_registries_refuted : ∃ h : List (Env F64 × Op F64), (∀ x ∈ h, x.2 ≠ .call 0 .stop) ∧ gets (World.init.run h : World F64) 0 [97] = some 0 ∧
    observe (World.init.run (h ++ [(envAt 9, .call 0 (.mark 5)), (envAt 10, .tick)])) (envAt 11) 0 .count = .ok (.int 0) := by
  refine ⟨[(envAt 0, .reg (.std 0) (.getOrRegister [97] (.ctor .meter))), (envAt 1, .reg (.std 1) (.register [97] (.obj 0))), (envAt 2, .reg (.std 1) .unregisterAll)], ?_, ?_, ?_⟩
  · intro x hx
    simp only [List.mem_cons, List.not_mem_nil, or_false] at hx
    rcases hx with rfl | rfl | rfl <;> simp
  · decide +kernel
  · exact Option.some.inj (zero_of (x := counted [(envAt 0, .reg (.std 0) (.getOrRegister [97] (.ctor .meter))), (envAt 1, .reg (.std 1) (.register [97] (.obj 0))), (envAt 2, .reg (.std 1) .unregisterAll)] [97]) (by decide +kernel))

/-- The same with one name: a meter that is unregistered and registered again stays dead. -/
theorem C114_again_refuted : ∃ h : List (Env F64 × Op F64), (∀ x ∈ h, x.2 ≠ .call 0 .stop) ∧ gets (World.init.run h : World F64) 0 [97] = some 0 ∧
    observe (World.init.run (h ++ [(envAt 9, .call 0 (.mark 5)), (envAt 10, .tick)])) (envAt 11) 0 .count = .ok (.int 0) := by
  refine ⟨[(envAt 0, .reg (.std 0) (.getOrRegister [97] (.ctor .meter))), (envAt 1, .reg (.std 0) (.unregister [97])), (envAt 2, .reg (.std 0) (.register [97] (.obj 0)))], ?_, ?_, ?_⟩
  · intro x hx
    simp only [List.mem_cons, List.not_mem_nil, or_false] at hx
    rcases hx with rfl | rfl | rfl <;> simp
  · decide +kernel
  · exact Option.some.inj (zero_of (x := counted [(envAt 0, .reg (.std 0) (.getOrRegister [97] (.ctor .meter))), (envAt 1, .reg (.std 0) (.unregister [97])), (envAt 2, .reg (.std 0) (.register [97] (.obj 0)))] [97]) (by decide +kernel))

end GoMetrics
