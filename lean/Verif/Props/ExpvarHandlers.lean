import Verif.Props.Expvar
import Verif.Spec.ExpvarHandlers

/-! C117: several expvar handlers in one program. -/

set_option linter.unusedSectionVars false

namespace GoMetrics
open Spec

section general
variable {F : Type} [GoFloat F] [GoSqrt F] [GoExp F]

/-- The state as seen by handler `j`. -/
private def view (j : Nat) (y : World F × Handlers F) : World F × Expvar F := (y.1, { vars := y.2.vars, held := y.2.held j })

private theorem view_from {reg : Nat → Reg} {y0 y : World F × Handlers F} (j : Nat) (h : HandlersFrom reg y0 y) : ExpFrom (view j y0) (view j y) := by
  induction h with
  | start => exact .start
  | op env o _ ih => exact .op env o ih
  | publish n x _ hn ih => exact .publish n x ih hn
  | @request y env i _ ih =>
    by_cases hij : i = j
    · subst hij
      have : view i (expHandlerOf env (reg i) i y).1 = (expHandler env (reg i) (view i y)).1 := by
        simp [view, expHandlerOf]
      rw [this]
      exact .request env _ ih
    · have : view j (expHandlerOf env (reg i) i y).1 =
          ((expHandler env (reg i) (y.1, { (view j y).2 with held := y.2.held i })).1.1,
            { vars := (expHandler env (reg i) (y.1, { (view j y).2 with held := y.2.held i })).1.2.vars, held := (view j y).2.held }) := by
        simp [view, expHandlerOf, Function.update_of_ne (Ne.symm hij)]
      rw [this]
      exact .other env (reg i) (y.2.held i) ih

private theorem view_reach {reg : Nat → Reg} {y : World F × Handlers F} (j : Nat) (h : HandlersReach reg y) : ExpReach (view j y) := by
  obtain ⟨vars, h⟩ := h
  exact ⟨vars, view_from j h⟩

private theorem get_locked {name : Str} {s s' : Expvar F} {e : Ending} (hs : s.held = false) (h : getInt name s = (s', e) ∨ getFloat name s = (s', e)) :
    s'.held = false ∨ e = .panics .typeAssert := by
  rcases h with h | h
  all_goals
    simp only [getInt, getFloat, hs, Bool.false_eq_true, if_false] at h
    split at h <;> obtain ⟨h1, h2⟩ := Prod.mk.inj h <;> subst h1 h2 <;> first | exact .inr rfl | exact .inl hs | exact .inl rfl

private theorem expStmt_locked (env : Env F) (name : Str) (x : Ref) (ps : List F) (st : Stmt F) (y : World F × Expvar F) (hs : y.2.held = false) :
    (expStmt env name x ps st y).1.2.held = false ∨ (expStmt env name x ps st y).2 = .panics .typeAssert := by
  obtain ⟨w, s⟩ := y
  cases st with
  | printf => exact .inl hs
  | postCount sfx key e =>
    simp only [expStmt]
    rcases h : getInt (name ++ bytes sfx) s with ⟨s', _ | _ | _⟩
    · have h1 := (get_locked hs (.inl h)).resolve_right (by simp)
      rcases e.eval env x ps w with ⟨w', p | v⟩ <;> exact .inl h1
    · exact get_locked hs (.inl h)
    · exact get_locked hs (.inl h)
  | postValue sfx key e =>
    simp only [expStmt]
    rcases h : getFloat (name ++ bytes sfx) s with ⟨s', _ | _ | _⟩
    · have h1 := (get_locked hs (.inr h)).resolve_right (by simp)
      rcases e.eval env x ps w with ⟨w', p | v⟩ <;> exact .inl h1
    · exact get_locked hs (.inr h)
    · exact get_locked hs (.inr h)

private theorem expStmts_locked (env : Env F) (name : Str) (x : Ref) (ps : List F) (ss : List (Stmt F)) : ∀ y : World F × Expvar F, y.2.held = false →
    (expStmts env name x ps ss y).1.2.held = false ∨ (expStmts env name x ps ss y).2 = .panics .typeAssert := by
  induction ss with
  | nil => exact fun y hs => .inl hs
  | cons st ss ih =>
    intro y hs
    have := expStmt_locked env name x ps st y hs
    rw [expStmts]
    rcases h : expStmt env name x ps st y with ⟨y', _ | _ | _⟩ <;> rw [h] at this
    · exact ih y' (this.resolve_right (by simp))
    · exact this
    · exact this

private theorem expMetric_locked (env : Env F) (name : Str) (r : Ref) (w : World F) (s : Expvar F) (hs : s.held = false) :
    (expMetric env name r (w, s)).1.2.held = false ∨ (expMetric env name r (w, s)).2 = .panics .typeAssert := by
  rw [expMetric]
  split
  · rename_i c _
    rcases h : c.prepare env r w with ⟨w', _ | ⟨x, ps⟩⟩
    · exact .inl hs
    · exact expStmts_locked env name x ps _ (w', s) hs
  · exact .inl hs

private theorem visit_locked (env : Env F) (l : List (Str × Ref)) : ∀ (w : World F) (s : Expvar F), s.held = false →
    (visit (expCallback env) l (w, s, false)).1.2.1.held = false ∨
      ((visit (expCallback env) l (w, s, false)).2 = .error .typeAssert ∧ (visit (expCallback env) l (w, s, false)).1.2.2 = false) := by
  induction l with
  | nil => exact fun w s hs => .inl hs
  | cons e l ih =>
    intro w s hs
    have := expMetric_locked env e.1 e.2 w s hs
    simp only [visit, expCallback, Bool.false_eq_true, if_false]
    rcases h : expMetric env e.1 e.2 (w, s) with ⟨⟨w', s'⟩, _ | p | _⟩ <;> rw [h] at this
    · exact ih w' s' (this.resolve_right (by simp))
    · rcases this with h1 | h1
      · exact .inl h1
      · cases h1
        exact .inr ⟨rfl, rfl⟩
    · have h1 := this.resolve_right (by simp)
      refine .inl ?_
      have h2 : ∀ (l : List (Str × Ref)), (visit (expCallback env) l (w', s', true)).1.2.1 = s' := fun l => by rw [visit_hung]
      exact (congrArg Expvar.held (h2 l)).trans h1

private theorem request_locked (env : Env F) (g : Reg) (w : World F) (s : Expvar F) (hs : s.held = false) :
    (expHandler env g (w, s)).1.2.held = false ∨ (expHandler env g (w, s)).2 = (.panics .typeAssert, none) := by
  have h1 : (each env g (expCallback env) (w, s, false)).1.2.1.held = false ∨
      ((each env g (expCallback env) (w, s, false)).2 = .error .typeAssert ∧ (each env g (expCallback env) (w, s, false)).1.2.2 = false) := by
    rw [each]
    rcases h : eachList env g w with ⟨w', _ | _ | l⟩
    · exact .inl hs
    · exact .inl hs
    · exact visit_locked env l w' s hs
  rw [expHandler, syncToExpvar]
  rcases h : each env g (expCallback env) (w, s, false) with ⟨⟨w', s', _ | _⟩, p | _⟩ <;> rw [h] at h1
  · rcases h1 with h1 | ⟨h1, -⟩
    · exact .inl h1
    · cases h1
      exact .inr rfl
  · rcases h1 with h1 | ⟨h1, -⟩
    · exact .inl h1
    · cases h1
  · rcases h1 with h1 | ⟨-, h1⟩
    · exact .inl h1
    · cases h1
  · rcases h1 with h1 | ⟨h1, -⟩
    · exact .inl h1
    · cases h1

/-- C117: a handler is blocked for ever by its own panic only: if the mutex of handler `j` is left locked, then some request to `j` itself has panicked at a type assertion, without a response; whatever happened in requests
to other handlers did not do it. -/
theorem C117_own {reg : Nat → Reg} {y0 y : World F × Handlers F} (h : HandlersFrom reg y0 y) (j : Nat) (h0 : y0.2.held j = false) (hj : y.2.held j = true) :
    ∃ y1 env, HandlersFrom reg y0 y1 ∧ (expHandlerOf env (reg j) j y1).2 = (.panics .typeAssert, none) ∧ HandlersFrom reg (expHandlerOf env (reg j) j y1).1 y := by
  induction h with
  | start => rw [h0] at hj; cases hj
  | op env o _ ih =>
    obtain ⟨y1, env1, h1, h2, h3⟩ := ih hj
    exact ⟨y1, env1, h1, h2, .op env o h3⟩
  | publish n x _ hn ih =>
    obtain ⟨y1, env1, h1, h2, h3⟩ := ih hj
    exact ⟨y1, env1, h1, h2, .publish n x h3 hn⟩
  | @request y env i hy ih =>
    by_cases hb : y.2.held j = true
    · obtain ⟨y1, env1, h1, h2, h3⟩ := ih hb
      exact ⟨y1, env1, h1, h2, .request env i h3⟩
    · have hb : y.2.held j = false := by simpa using hb
      have hij : i = j := by
        by_contra hij
        rw [expHandlerOf] at hj
        simp only [Function.update_of_ne (Ne.symm hij)] at hj
        rw [hb] at hj; cases hj
      subst hij
      refine ⟨y, env, hy, ?_, .start⟩
      rcases request_locked env (reg i) y.1 { vars := y.2.vars, held := y.2.held i } hb with h1 | h1
      · rw [expHandlerOf] at hj
        simp only [Function.update_self] at hj
        rw [h1] at hj; cases hj
      · exact h1

/-- C117: a blocked handler stays blocked, whatever the program and the other handlers do; no request to it returns unless there is nothing to publish. -/
theorem C117_blocked {reg : Nat → Reg} {y y' : World F × Handlers F} (hr : HandlersReach reg y) (i : Nat) (hs : y.2.held i = true) (h : HandlersFrom reg y y') :
    y'.2.held i = true ∧ ∀ env id, base (reg i) = some id → ¬ Nothing y'.1 id (prefixes (reg i)).flatten →
      (expHandlerOf env (reg i) i y').2.1 ≠ .returns ∧ (expHandlerOf env (reg i) i y').2.2 = none := by
  obtain ⟨h1, h2⟩ := C66_stuck (view_reach i hr) hs (view_from i h)
  refine ⟨h1, fun env id hb hn => ?_⟩
  simp only [Nothing, not_forall] at hn
  obtain ⟨name, hp, hn⟩ := hn
  exact h2 env (reg i) id name hb hn hp

end general

section ieee
variable [GoSqrt F64] [GoExp F64]

/-- C117: when a request to handler `j` returns, in any program with any number of handlers, some of which may be blocked: if there is nothing to publish, or if `j` itself is not blocked, no healthcheck is in its registry, all
snapshots return, and every variable needed has one kind, which is also that of the variable if it exists already. -/
theorem C117_returns_iff {reg : Nat → Reg} (y : World F64 × Handlers F64) (hr : HandlersReach reg y) (env : Env F64) (j id : Nat) (hb : base (reg j) = some id) (hl : SamplesFit y.1) :
    (expHandlerOf env (reg j) j y).2.1 = .returns ↔ Nothing y.1 id (prefixes (reg j)).flatten ∨
      (y.2.held j = false ∧ NoHealth y.1 id (prefixes (reg j)).flatten ∧ SnapshotsReturn y.1 env id (prefixes (reg j)).flatten ∧
        ∃ kind, Kinds kind y.1 id (prefixes (reg j)).flatten ∧ VarKinds kind y.2.vars) :=
  C66_returns_iff y.1 (view j y).2 (view_reach j hr) env (reg j) id hb hl

/-- C117: what the response of handler `j` says, if there is one: the variables of the metrics in its own registry have their current values; all the others, also those of the metrics of other handlers' registries, are
listed as they were. The registries and the other handlers are left as they are. -/
theorem C117_response {reg : Nat → Reg} (y : World F64 × Handlers F64) (hr : HandlersReach reg y) (env : Env F64) (j id : Nat) (hb : base (reg j) = some id) (hl : SamplesFit y.1)
    (hret : (expHandlerOf env (reg j) j y).2.1 = .returns) :
    ∃ w' s', expHandlerOf env (reg j) j y = ((w', s'), .returns, some s'.vars) ∧ Published y.1 env id (prefixes (reg j)).flatten y.2.vars s'.vars ∧ w'.regs = y.1.regs ∧ s'.held = y.2.held := by
  obtain ⟨w', s', h1, h2, h3, h4⟩ := C66_right y.1 (view j y).2 (view_reach j hr) env (reg j) id hb hl hret
  refine ⟨w', { vars := s'.vars, held := y.2.held }, ?_, h2, h3, rfl⟩
  have h1 : expHandler env (reg j) (y.1, { vars := y.2.vars, held := y.2.held j }) = ((w', s'), .returns, some s'.vars) := h1
  have h4 : s'.held = y.2.held j := h4
  rw [expHandlerOf]
  simp only [h1, h4, Function.update_eq_self]

end ieee

/-! ### Two handlers -/

private theorem from_run {F : Type} [GoFloat F] [GoSqrt F] [GoExp F] {reg : Nat → Reg} {y0 : World F × Handlers F} (h : List (Env F × Op F)) : ∀ {w : World F} {s : Handlers F},
    HandlersFrom reg y0 (w, s) → HandlersFrom reg y0 (w.run h, s) := by
  induction h with
  | nil => exact fun h => h
  | cons a h ih => exact fun h' => ih (.op a.1 a.2 h')

private def returned : Ending → Bool
  | .returns => true
  | _ => false
private def assertPanic : Ending → Bool
  | .panics .typeAssert => true
  | _ => false
private def hung : Ending → Bool
  | .hangs => true
  | _ => false

-- Both handlers are for the registry 0: a counter "x" and a request to handler 0; a GaugeFloat64 "x" in its place and another request to handler 0; then a counter "y" alone.
private noncomputable def a1 : World F64 × Handlers F64 :=
  (World.init.run [(envAt 0, .new .counter), (envAt 0, .reg (.std 0) (.register [120] (.obj 0)))], ⟨fun _ => none, fun _ => false⟩)
private noncomputable def a2 : World F64 × Handlers F64 := (expHandlerOf (envAt 1) (.std 0) 0 a1).1
private noncomputable def a3 : World F64 × Handlers F64 :=
  (a2.1.run [(envAt 2, .reg (.std 0) (.unregister [120])), (envAt 2, .new .gaugeF), (envAt 2, .reg (.std 0) (.register [120] (.obj 1)))], a2.2)
private noncomputable def a4 : World F64 × Handlers F64 := (expHandlerOf (envAt 1) (.std 0) 0 a3).1
private noncomputable def a5 : World F64 × Handlers F64 :=
  (a4.1.run [(envAt 4, .reg (.std 0) .unregisterAll), (envAt 4, .new .counter), (envAt 4, .reg (.std 0) (.register [121] (.obj 2)))], a4.2)

/-- C117: a new handler for the same registry works again where the old one is blocked. Handler 0 panics because the kind of "x" has changed. As long as the GaugeFloat64 "x" is registered, another handler panics too; when it is
gone, a request to handler 0 hangs and a request to handler 2 returns. -/
theorem C117_new_handler : ∃ (y3 y5 : World F64 × Handlers F64) (env : Env F64), HandlersReach (fun _ => .std 0) y3 ∧ (expHandlerOf env (.std 0) 0 y3).2.1 = .panics .typeAssert ∧
    (expHandlerOf env (.std 0) 1 (expHandlerOf env (.std 0) 0 y3).1).2.1 = .panics .typeAssert ∧
    HandlersFrom (fun _ => .std 0) (expHandlerOf env (.std 0) 0 y3).1 y5 ∧ (expHandlerOf env (.std 0) 0 y5).2.1 = .hangs ∧ (expHandlerOf env (.std 0) 2 y5).2.1 = .returns := by
  have hret : ∀ e : Ending, returned e = true → e = .returns := by intro e h; cases e <;> simp [returned] at h; rfl
  have hpan : ∀ e : Ending, assertPanic e = true → e = .panics .typeAssert := by
    intro e h
    unfold assertPanic at h
    split at h <;> simp at h
    rfl
  have hhung : ∀ e : Ending, hung e = true → e = .hangs := by intro e h; cases e <;> simp [hung] at h; rfl
  have r1 : HandlersFrom (fun _ => Reg.std 0) (World.init, ⟨fun _ => none, fun _ => false⟩) a1 := from_run _ .start
  have r2 : HandlersFrom (fun _ => Reg.std 0) (World.init, ⟨fun _ => none, fun _ => false⟩) a2 := .request (envAt 1) 0 r1
  exact ⟨a3, a5, envAt 1, ⟨fun _ => none, from_run _ r2⟩, hpan _ (by decide +kernel), hpan _ (by decide +kernel), from_run _ .start, hhung _ (by decide +kernel), hret _ (by decide +kernel)⟩

-- Handler 0 for the registry 0 with a counter "x" at 7, handler 1 for the registry 1 with a counter "y" at 3.
private noncomputable def b1 : World F64 × Handlers F64 :=
  (World.init.run [(envAt 0, .new .counter), (envAt 0, .call 0 (.inc 7)), (envAt 0, .reg (.std 0) (.register [120] (.obj 0))),
    (envAt 0, .new .counter), (envAt 0, .call 1 (.inc 3)), (envAt 0, .reg (.std 1) (.register [121] (.obj 1)))], ⟨fun _ => none, fun _ => false⟩)
private noncomputable def b2 : World F64 × Handlers F64 := (expHandlerOf (envAt 1) (.std 0) 0 b1).1
private noncomputable def b3 : World F64 × Handlers F64 := (b2.1.run [(envAt 2, .call 0 (.inc 1))], b2.2)

private def showsInts (n m : Int64) : Option (Str → Option (Var F64)) → Bool
  | some vars => match vars [120], vars [121] with
    | some (.int a), some (.int b) => a == n && b == m
    | _, _ => false
  | none => false

/-- C117 (the code violates the plain claim that a handler shows the metrics of its registry): the response of the handler for registry 1 also lists "x" of registry 0, with the value that it had at the last request to the
other handler, here 7, although the counter is at 8. -/
theorem C117_refuted : ∃ (y : World F64 × Handlers F64) (env : Env F64) (vars : Str → Option (Var F64)), HandlersReach (fun i => .std i) y ∧ gets y.1 1 [120] = none ∧
    (expHandlerOf env (.std 1) 1 y).2.2 = some vars ∧ vars [120] = some (.int 7) ∧ vars [121] = some (.int 3) ∧ gets y.1 0 [120] = some 0 ∧ observe y.1 env 0 .count = .ok (.int 8) := by
  have h7 : ∀ v, showsInts 7 3 v = true → ∃ vars, v = some vars ∧ vars [120] = some (.int 7) ∧ vars [121] = some (.int 3) := by
    intro v h
    unfold showsInts at h
    split at h
    · rename_i vars
      split at h
      · rename_i a b ha hb
        obtain ⟨h1, h2⟩ := Bool.and_eq_true_iff.1 h
        refine ⟨vars, rfl, ?_, ?_⟩
        · rw [ha, beq_iff_eq.1 h1]
        · rw [hb, beq_iff_eq.1 h2]
      · cases h
    · cases h
  obtain ⟨vars, h1, h2, h3⟩ := h7 (expHandlerOf (envAt 3) (.std 1) 1 b3).2.2 (by decide +kernel)
  have r1 : HandlersFrom (fun i => Reg.std i) (World.init, ⟨fun _ => none, fun _ => false⟩) b1 := from_run _ .start
  have r2 : HandlersFrom (fun i => Reg.std i) (World.init, ⟨fun _ => none, fun _ => false⟩) b2 := .request (envAt 1) 0 r1
  refine ⟨b3, envAt 3, vars, ⟨fun _ => none, from_run _ r2⟩, ?_, h1, h2, h3, ?_, by rfl⟩
  · rw [gets_eq, show b3.1.regs 1 = [([121], 1)] by decide +kernel]
    rfl
  · rw [gets_eq, show b3.1.regs 0 = [([120], 0)] by decide +kernel]
    rfl

/-- The hypotheses of C117_own and C117_blocked can be met: handler 0 above is blocked, and was not at the start. -/
example : HandlersReach (fun _ => .std 0) a4 ∧ a4.2.held 0 = true ∧ a1.2.held 0 = false ∧ HandlersFrom (fun _ => .std 0) a1 a4 ∧ HandlersFrom (fun _ => .std 0) a4 a5 ∧ ¬ Nothing a5.1 0 [] := by
  have r2 : HandlersFrom (fun _ => Reg.std 0) a1 a2 := .request (envAt 1) 0 .start
  have r3 : HandlersFrom (fun _ => Reg.std 0) a1 a3 := from_run _ r2
  have q1 : HandlersFrom (fun _ => Reg.std 0) (World.init, ⟨fun _ => none, fun _ => false⟩) a1 := from_run _ .start
  have q2 : HandlersFrom (fun _ => Reg.std 0) (World.init, ⟨fun _ => none, fun _ => false⟩) a2 := .request (envAt 1) 0 q1
  have q3 : HandlersFrom (fun _ => Reg.std 0) (World.init, ⟨fun _ => none, fun _ => false⟩) a3 := from_run _ q2
  refine ⟨⟨fun _ => none, .request (envAt 1) 0 q3⟩, by decide +kernel, rfl, .request (envAt 1) 0 r3, from_run _ .start, fun h => ?_⟩
  have := h [121] (by simp)
  rw [gets_eq, show a5.1.regs 0 = [([121], 2)] by decide +kernel] at this
  cases this

/-- The hypotheses of C117_returns_iff and C117_response can be met: two handlers for two registries. -/
example : HandlersReach (fun i => .std i) b3 ∧ base (.std 1) = some 1 ∧ (expHandlerOf (envAt 3) (.std 1) 1 b3).2.1 = .returns ∧ SamplesFit b3.1 := by
  have hret : ∀ e : Ending, returned e = true → e = .returns := by intro e h; cases e <;> simp [returned] at h; rfl
  have r1 : HandlersFrom (fun i => Reg.std i) (World.init, ⟨fun _ => none, fun _ => false⟩) b1 := from_run _ .start
  have r2 : HandlersFrom (fun i => Reg.std i) (World.init, ⟨fun _ => none, fun _ => false⟩) b2 := .request (envAt 1) 0 r1
  have hreach : HandlersReach (fun i => Reg.std i) b3 := ⟨fun _ => none, from_run _ r2⟩
  refine ⟨hreach, rfl, hret _ (by decide +kernel), ?_⟩
  have hw : b3.1.Ok := by
    have h1 : b2.1.Ok := keepsOk_request (envAt 1) (.std 0) (b1.1, _) (run_ok _)
    exact (h1.run _).1
  intro r vs hv
  have hn : b3.1.nextObj = 2 := by decide +kernel
  obtain ⟨c, hc⟩ : ∃ c, b3.1.objs 0 = some (.counter c) := ⟨_, rfl⟩
  obtain ⟨d, hd⟩ : ∃ c, b3.1.objs 1 = some (.counter c) := ⟨_, rfl⟩
  by_cases hr : r < 2
  · obtain rfl | rfl : r = 0 ∨ r = 1 := by omega
    · simp [recorded, histRecorded, hc] at hv
    · simp [recorded, histRecorded, hd] at hv
  · have : b3.1.objs r = none := hw.obj r (by omega)
    simp [recorded, histRecorded, this] at hv

end GoMetrics
