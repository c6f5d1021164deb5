import Verif.Spec.Registry
import Verif.Lemmas.WorldHist

/-! What the registry calls do to the bindings of names. -/

set_option linter.unusedSimpArgs false
set_option linter.unnecessarySeqFocus false
set_option linter.unusedSectionVars false
set_option linter.unnecessarySimpa false

namespace GoMetrics
open Spec

variable {F : Type} [GoFloat F] [GoSqrt F] [GoExp F]

theorem get_eq (env : Env F) (id : Nat) (name : Str) (w : World F) :
    regCall env (.std id) (.get name) w = (w, .ok (match lookup (w.regs id) name with | some r => .metric r | none => .nil)) := by
  rw [regCall, act_bind, act_getReg]
  simp only
  rcases lookup (w.regs id) name with _ | r <;> rfl

theorem gets_eq (w : World F) (id : Nat) (name : Str) : gets w id name = lookup (w.regs id) name := by
  rw [gets, get_eq]
  rcases lookup (w.regs id) name with _ | r <;> rfl

theorem fullName_eq (g : Reg) (name : Str) : fullName g name = baseName g name := by
  induction g generalizing name with
  | std id => rfl
  | foreign => rfl
  | prefixed u p ih => simp only [fullName, ih, baseName, prefixes, List.flatten_append, List.append_assoc, List.flatten_cons, List.flatten_nil, List.append_nil]

theorem metricKind_eq (o : Obj F) : metricKind o = o.isMetric := by cases o <;> rfl

/-- The state after `register`. -/
theorem register_eq (id : Nat) (name : Str) (v : Val F) (w : World F) :
    register id name v w = match lookup (w.regs id) name with
      | some _ => (w, .ok (.duplicate name))
      | none => match v with
        | .obj r => match w.objs r with
          | some o => if o.isMetric then ({ w with regs := Function.update w.regs id ((name, r) :: w.regs id) }, .ok .nil) else (w, .ok .nil)
          | none => (w, .ok .nil)
        | _ => (w, .ok .nil) := by
  rw [register, act_bind, act_getReg]
  simp only
  rcases lookup (w.regs id) name with _ | q
  · cases v with
    | obj r =>
      simp only [act_bind_getObj]
      rcases w.objs r with _ | o
      · rfl
      · simp only
        split <;> rfl
    | _ => rfl
  · rfl

theorem getOrRegister_eq (env : Env F) (id : Nat) (name : Str) (v : Val F) (w : World F) :
    getOrRegister env id name v w = match lookup (w.regs id) name with
      | some r => (w, .ok (.metric r))
      | none => match v with
        | .obj r => ((register id name (.obj r) w).1, .ok (.metric r))
        | .ctor c => match construct env c w with
          | (w1, .ok r) => ((register id name (.obj r) w1).1, .ok (.metric r))
          | (w1, .error p) => (w1, .error p)
        | .badFn => (w, .error (.user 0))
        | _ => (w, .ok (.given .other)) := by
  have hreg : ∀ r (w : World F), (do let _ ← register id name (.obj r); return .metric r : Act F (RegOut F)) w = ((register id name (.obj r) w).1, .ok (.metric r)) := by
    intro r w
    rw [act_bind, register_eq]
    rcases lookup (w.regs id) name with _ | q
    · simp only
      rcases w.objs r with _ | o
      · rfl
      · cases h : o.isMetric <;> simp only [h] <;> rfl
    · rfl
  rw [getOrRegister.eq_def, act_bind, act_getReg]
  simp only
  rcases lookup (w.regs id) name with _ | q
  · cases v with
    | obj r => exact hreg r w
    | ctor c =>
      simp only
      rw [act_bind]
      generalize construct env c w = y
      obtain ⟨w1, _ | r⟩ := y
      · rfl
      · exact hreg r w1
    | _ => rfl
  · rfl

/-- The type of what a constructor makes. -/
def newTy : NewOp F → Ty
  | .counter => .counter
  | .gauge | .funcGauge _ => .gauge
  | .gaugeF | .funcGaugeF _ => .gaugeF
  | .health _ => .health
  | .uniform _ | .exp _ _ | .sampleSnap _ _ => .sample
  | .hist _ => .hist
  | .ewma _ => .ewma
  | .meter => .meter
  | .timer | .customTimer _ _ => .timer

theorem alloc_spec {o : Obj F} {w w1 : World F} {r : Ref} (h : alloc o w = (w1, .ok r)) : w1.objs r = some o ∧ w.nextObj ≤ r := by
  rw [act_alloc] at h
  simp only [Prod.mk.injEq, Except.ok.injEq] at h
  obtain ⟨rfl, rfl⟩ := h
  exact ⟨Function.update_self .., le_refl _⟩

theorem lift_alloc_spec {α : Type} {f : α → Obj F} {x : Res α} {w w1 : World F} {r : Ref} (h : (do alloc (f (← Act.lift x)) : Act F Ref) w = (w1, .ok r)) :
    ∃ a, w1.objs r = some (f a) ∧ w.nextObj ≤ r := by
  rw [act_bind, act_lift] at h
  cases x with
  | error p => simp at h
  | ok a => exact ⟨a, alloc_spec h⟩

theorem newExp_new {env : Env F} {k : Int} {al : F} {w w1 : World F} {r : Ref} (h : newExp env k al w = (w1, .ok r)) : HasTy w1 r .sample ∧ w.nextObj ≤ r := by
  rw [newExp] at h
  split at h
  · exact ⟨⟨_, (alloc_spec h).1, rfl⟩, (alloc_spec h).2⟩
  · obtain ⟨a, h, h'⟩ := lift_alloc_spec (f := fun x => .sample (.exp x)) h; exact ⟨⟨_, h, rfl⟩, h'⟩

theorem newHist_new {s : Ref} {w w1 : World F} {r : Ref} (h : newHist s w = (w1, .ok r)) : HasTy w1 r .hist ∧ w.nextObj ≤ r := by
  rw [newHist] at h
  split at h
  · exact ⟨⟨_, (alloc_spec h).1, rfl⟩, (alloc_spec h).2⟩
  · split at h
    · exact ⟨⟨_, (alloc_spec h).1, rfl⟩, (alloc_spec h).2⟩
    · simp [act_fail] at h

theorem newMeter_new {env : Env F} {w w1 : World F} {r : Ref} (h : newMeter env w = (w1, .ok r)) : HasTy w1 r .meter ∧ w.nextObj ≤ r := by
  rw [newMeter] at h
  split at h
  · exact ⟨⟨_, (alloc_spec h).1, rfl⟩, (alloc_spec h).2⟩
  · rw [act_bind, act_alloc] at h
    simp only [act_bind, arbiterAdd, act_pure, Prod.mk.injEq, Except.ok.injEq] at h
    obtain ⟨rfl, rfl⟩ := h
    exact ⟨⟨_, Function.update_self .., rfl⟩, le_refl _⟩

theorem newTimer_new {a m : Ref} {w w1 : World F} {r : Ref} (h : newTimer a m w = (w1, .ok r)) : HasTy w1 r .timer ∧ w.nextObj ≤ r := by
  rw [newTimer] at h
  split at h
  · exact ⟨⟨_, (alloc_spec h).1, rfl⟩, (alloc_spec h).2⟩
  · split at h
    · exact ⟨⟨_, (alloc_spec h).1, rfl⟩, (alloc_spec h).2⟩
    · simp [act_fail] at h

theorem construct_new {env : Env F} {c : NewOp F} {w w1 : World F} {r : Ref} (h : construct env c w = (w1, .ok r)) : HasTy w1 r (newTy c) ∧ w.nextObj ≤ r := by
  cases c with
  | uniform k =>
    simp only [construct] at h
    split at h
    · exact ⟨⟨_, (alloc_spec h).1, rfl⟩, (alloc_spec h).2⟩
    · obtain ⟨a, h, h'⟩ := lift_alloc_spec (f := fun x => .sample (.uniform x)) h; exact ⟨⟨_, h, rfl⟩, h'⟩
  | exp k al => exact newExp_new h
  | sampleSnap n a =>
    simp only [construct] at h
    split at h
    · exact ⟨⟨_, (alloc_spec h).1, rfl⟩, (alloc_spec h).2⟩
    · exact ⟨⟨_, (alloc_spec h).1, rfl⟩, (alloc_spec h).2⟩
  | hist s => exact newHist_new h
  | meter => exact newMeter_new h
  | timer =>
    simp only [construct] at h
    split at h
    · exact ⟨⟨_, (alloc_spec h).1, rfl⟩, (alloc_spec h).2⟩
    · rw [act_bind] at h
      rcases h1 : newExp env 1028 (GoFloat.lit (15 / 1000)) w with ⟨w2, _ | s⟩
      · rw [h1] at h; simp at h
      · rw [h1] at h
        simp only [act_bind] at h
        have n1 := (construct_objs env (.exp 1028 (GoFloat.lit (15 / 1000))) w).1
        simp only [construct, h1] at n1
        rcases h2 : newHist s w2 with ⟨w3, _ | a⟩
        · rw [h2] at h; simp at h
        · rw [h2] at h
          simp only at h
          have n2 := (construct_objs env (.hist s) w2).1
          simp only [construct, h2] at n2
          rcases h3 : newMeter env w3 with ⟨w4, _ | m⟩
          · rw [h3] at h; simp at h
          · rw [h3] at h
            have n3 := (construct_objs env .meter w3).1
            simp only [construct, h3] at n3
            obtain ⟨h4, h5⟩ := newTimer_new h
            exact ⟨h4, n1.trans (n2.trans (n3.trans h5))⟩
  | customTimer a m => exact newTimer_new h
  | _ => exact ⟨⟨_, (alloc_spec h).1, rfl⟩, (alloc_spec h).2⟩

theorem newTy_metric {o : Obj F} {c : NewOp F} (h : o.ty = newTy c) : o.isMetric = makesMetric c := by
  cases o <;> cases c <;> simp_all [Obj.ty, newTy, Obj.isMetric, makesMetric]

theorem lookup_cons (m : List (Str × Ref)) (n name : Str) (r : Ref) : lookup ((n, r) :: m) name = if n = name then some r else lookup m name := by
  by_cases h : n = name <;> simp [lookup, h]

theorem lookup_filter (m : List (Str × Ref)) (n name : Str) : lookup (m.filter (·.1 != n)) name = if n = name then none else lookup m name := by
  induction m with
  | nil => simp [lookup]
  | cons e m ih =>
    obtain ⟨k, r⟩ := e
    by_cases hk : k = n
    · subst hk
      rw [List.filter_cons_of_neg (by simp), ih, lookup_cons]
      split <;> rfl
    · rw [List.filter_cons_of_pos (by simpa using hk), lookup_cons, lookup_cons, ih]
      by_cases h1 : k = name
      · subst h1
        simp [Ne.symm hk]
      · simp [h1]

/-- Bindings after `register`. -/
theorem register_gets (id : Nat) (name : Str) (v : Val F) (w : World F) (id' : Nat) (name' : Str) (r : Ref) :
    lookup ((register id name v w).1.regs id') name' = some r ↔
      (id' = id ∧ lookup (w.regs id) name = none ∧ name' = name ∧ v = .obj r ∧ ∃ o, w.objs r = some o ∧ o.isMetric = true) ∨ lookup (w.regs id') name' = some r := by
  rw [register_eq]
  rcases hl : lookup (w.regs id) name with _ | q
  · simp only
    cases v with
    | obj x =>
      simp only
      rcases ho : w.objs x with _ | o
      · constructor
        · exact fun h => .inr h
        · rintro (⟨-, -, -, h, o, h1, -⟩ | h)
          · obtain rfl : x = r := by simpa using h
            rw [ho] at h1; simp at h1
          · exact h
      · simp only
        split
        · rename_i hm
          by_cases hi : id' = id
          · subst hi
            simp only [Function.update_self, lookup_cons]
            by_cases hn : name = name'
            · subst hn
              simp only [if_true, Option.some.injEq, hl]
              constructor
              · rintro rfl
                exact .inl ⟨trivial, trivial, trivial, rfl, o, ho, hm⟩
              · rintro (⟨-, -, -, h, -⟩ | h)
                · simpa using h
                · simp at h
            · simp only [if_neg hn]
              constructor
              · exact fun h => .inr h
              · rintro (⟨-, -, h, -⟩ | h)
                · exact absurd h.symm hn
                · exact h
          · simp only [Function.update_of_ne hi]
            constructor
            · exact fun h => .inr h
            · rintro (⟨h, -⟩ | h)
              · exact absurd h hi
              · exact h
        · rename_i hm
          constructor
          · exact fun h => .inr h
          · rintro (⟨-, -, -, h, o', h1, h2⟩ | h)
            · obtain rfl : x = r := by simpa using h
              rw [ho] at h1
              obtain rfl : o = o' := by simpa using h1
              exact absurd h2 hm
            · exact h
    | _ => simp
  · simp

theorem regs_of_objs {w w' : World F} (h : w'.regs = w.regs) (id : Nat) (name : Str) : gets w' id name = gets w id name := by
  rw [gets_eq, gets_eq, h]

/-- Bindings after one call. -/
theorem step_gets (env : Env F) (o : Op F) (w : World F) (id : Nat) (name : Str) (r : Ref) :
    gets (step env o w).1 id name = some r ↔ binds w env o id name r ∨ (gets w id name = some r ∧ ¬ frees o id name) := by
  have same : ∀ w' : World F, (step env o w).1 = w' → w'.regs = w.regs → (∀ id name r, ¬ binds w env o id name r) → (∀ id name, ¬ frees o id name) →
      (gets (step env o w).1 id name = some r ↔ binds w env o id name r ∨ (gets w id name = some r ∧ ¬ frees o id name)) := by
    intro w' h1 h2 h3 h4
    rw [h1, regs_of_objs h2]
    simp [h3, h4]
  cases o with
  | setNil b => exact same _ rfl rfl (by simp [binds]) (by simp [frees])
  | new c => exact same _ (step_new_fst ..) (construct_regs env c w).1 (by simp [binds]) (by simp [frees])
  | call x c => exact same _ (step_call_fst ..) (call_regs env x c w).1 (by simp [binds]) (by simp [frees])
  | slice x =>
    have e : (step env (.slice x) w).1 = (sliceOp x w).1 := fst_map _ _ w
    refine same _ e ?_ (by simp [binds]) (by simp [frees])
    cases x with
    | make l => rfl
    | set a i v => simp only [sliceOp]; split <;> rfl
  | tick => exact same _ (fst_const _ _ w) (tick_regs env w).1 (by simp [binds]) (by simp [frees])
  | reg g o =>
    have e := step_reg_fst env g o w
    obtain ⟨p1, p2, p3, p4, p5, p6⟩ := regCall_prefix env g
    rcases hb : base g with _ | b
    · -- user code
      have hw : (step env (.reg g o) w).1 = w := by
        rw [e]
        cases o with
        | get n => rw [p1, hb]; rfl
        | getOrRegister n v => rw [p2, hb]; rfl
        | register n v => rw [p3, hb]; rfl
        | unregister n => rw [p4, hb]; rfl
        | unregisterAll => rw [p5, hb]; rfl
        | runHealthchecks => rw [p6, hb]; rfl
      exact same _ hw rfl (by simp [binds, hb]) (by cases o <;> simp [frees, hb])
    · cases o with
      | get n =>
        refine same w ?_ rfl (by simp [binds, yields]) (by simp [frees])
        rw [e, p1, hb]
        show (regCall env (.std b) (.get (fullName g n)) w).1 = w
        rw [get_eq]
      | runHealthchecks =>
        refine same _ rfl ?_ (by simp [binds, yields]) (by simp [frees])
        rw [e, p6, hb]
        show (regCall env (.std b) .runHealthchecks w).1.regs = w.regs
        rw [regCall, fst_const, runHealthchecks_run]
        generalize env.order (w.regs b) = l
        induction l generalizing w with
        | nil => rfl
        | cons x l ih =>
          rw [runAll, act_bind]
          have h1 : (checkOne env x w).1.regs = w.regs := by
            rw [checkOne_eq]; dsimp only; split <;> rfl
          have h2 : (checkOne env x w).2 = .ok () := by rw [checkOne_eq]
          generalize checkOne env x w = y at h1 h2
          obtain ⟨w1, r1⟩ := y
          simp only at h1 h2
          subst h2
          simp only
          rw [ih w1 (by intro w' a b c d; rw [a, regs_of_objs b]; simp [c, d]) (step_reg_fst ..), h1]
      | unregister n =>
        rw [step_unregister_fst, hb, gets_eq]
        simp only [regs_unregister, binds, yields, and_false, exists_false, false_or, frees, hb, Option.some.injEq, fullName_eq, gets_eq]
        by_cases hi : id = b
        · subst hi
          rw [Function.update_self, lookup_filter]
          by_cases hn : baseName g n = name
          · simp [hn]
          · simp [hn]
        · rw [Function.update_of_ne hi]
          simp [Ne.symm hi]
      | unregisterAll =>
        rw [step_unregisterAll_fst, hb, gets_eq]
        simp only [(unregisterAll_eq env b w).2, binds, yields, and_false, exists_false, false_or, frees, hb, Option.some.injEq, gets_eq]
        by_cases hi : id = b
        · subst hi
          rw [Function.update_self]
          simp [lookup]
        · rw [Function.update_of_ne hi]
          simp [Ne.symm hi]
      | register n v =>
        rw [e, p3, hb]
        show gets (register b (fullName g n) v w).1 id name = some r ↔ _
        rw [gets_eq, register_gets, fullName_eq]
        simp only [binds, frees, hb, Option.some.injEq, gets_eq, not_false_eq_true, and_true]
        refine or_congr ?_ Iff.rfl
        constructor
        · rintro ⟨rfl, h1, rfl, rfl, h2⟩
          exact ⟨rfl, h1, n, rfl, rfl, rfl, by simpa only [metricKind_eq] using h2⟩
        · rintro ⟨rfl, h1, n', rfl, h2⟩
          cases v with
          | obj x =>
            obtain ⟨rfl, rfl, h3⟩ := h2
            exact ⟨rfl, h1, rfl, rfl, by simpa only [metricKind_eq] using h3⟩
          | _ => exact absurd h2 (by simp [yields])
      | getOrRegister n v =>
        rw [e, p2, hb]
        show gets (getOrRegister env b (fullName g n) v w).1 id name = some r ↔ _
        rw [gets_eq, getOrRegister_eq, fullName_eq]
        simp only [binds, frees, hb, Option.some.injEq, gets_eq, not_false_eq_true, and_true]
        rcases hl : lookup (w.regs b) (baseName g n) with _ | q
        · simp only
          cases v with
          | obj x =>
            simp only
            rw [register_gets]
            refine or_congr ?_ Iff.rfl
            constructor
            · rintro ⟨rfl, h1, rfl, h3, h2⟩
              exact ⟨rfl, h1, n, rfl, rfl, by simpa using h3, by simpa only [metricKind_eq] using h2⟩
            · rintro ⟨rfl, h1, n', rfl, rfl, rfl, h3⟩
              exact ⟨rfl, h1, rfl, rfl, by simpa only [metricKind_eq] using h3⟩
          | ctor c =>
            simp only
            have hregs := (construct_regs env c w).1
            rcases hc : construct env c w with ⟨w1, _ | x⟩
            · rw [hc] at hregs
              simp only at hregs ⊢
              rw [hregs]
              simp [yields, hc]
            · rw [hc] at hregs
              simp only at hregs ⊢
              rw [register_gets, hregs]
              refine or_congr ?_ Iff.rfl
              obtain ⟨⟨o, h4, h5⟩, -⟩ := construct_new hc
              have h6 := newTy_metric h5
              constructor
              · rintro ⟨rfl, h1, rfl, h3, o', h2, h7⟩
                obtain rfl : x = r := by simpa using h3
                rw [h4] at h2
                obtain rfl : o = o' := by simpa using h2
                exact ⟨rfl, h1, n, rfl, rfl, by rw [← h6, h7], by rw [hc]⟩
              · rintro ⟨rfl, h1, n', rfl, rfl, h2, h3⟩
                rw [hc] at h3
                obtain rfl : x = r := by simpa using h3
                exact ⟨rfl, h1, rfl, rfl, o, h4, by rw [h6, h2]⟩
          | _ => simp [yields]
        · simp only
          constructor
          · exact fun h => .inr h
          · rintro (⟨rfl, h1, n', rfl, h2⟩ | h)
            · cases v with
              | obj x => obtain ⟨rfl, -⟩ := h2; rw [hl] at h1; simp at h1
              | ctor c => obtain ⟨rfl, -⟩ := h2; rw [hl] at h1; simp at h1
              | _ => exact absurd h2 (by simp [yields])
            · exact h

end GoMetrics
