import Verif.Spec.ExpvarStale
import Verif.Props.Expvar

/-! Property theorems C113: the expvar handler never forgets. -/

namespace GoMetrics
open Spec

variable {F : Type} [GoFloat F] [GoSqrt F] [GoExp F]

private theorem stays_refl (v : Str → Option (Var F)) : Stays v v := fun _ x h => ⟨x, h, fun _ => rfl⟩

private theorem stays_trans {a b c : Str → Option (Var F)} (h1 : Stays a b) (h2 : Stays b c) : Stays a c := by
  intro n x hx
  obtain ⟨y, hy, ey⟩ := h1 n x hx
  obtain ⟨z, hz, ez⟩ := h2 n y hy
  exact ⟨z, hz, fun b => (ez b).trans (ey b)⟩

private theorem stays_update {v : Str → Option (Var F)} {m : Str} {x : Var F} (h : ∀ y, v m = some y → ∀ b, hasKind b x = hasKind b y) : Stays v (Function.update v m (some x)) := by
  intro n y hy
  by_cases hn : n = m
  · subst hn; exact ⟨x, by simp, h y hy⟩
  · exact ⟨y, by rw [Function.update_of_ne hn]; exact hy, fun _ => rfl⟩

private theorem getInt_stays (name : Str) (s s' : Expvar F) (e : Ending) (h : getInt name s = (s', e)) : Stays s.vars s'.vars ∧ (e = .returns → ∃ n, s'.vars name = some (.int n)) := by
  unfold getInt at h
  split at h
  · cases h; exact ⟨stays_refl _, by simp⟩
  · split at h
    · cases h; exact ⟨stays_refl _, fun _ => ⟨_, ‹_›⟩⟩
    · cases h; exact ⟨stays_refl _, by simp⟩
    · rename_i hn
      cases h; exact ⟨stays_update fun y hy => (by rw [hn] at hy; cases hy), fun _ => ⟨0, by simp⟩⟩

private theorem getFloat_stays (name : Str) (s s' : Expvar F) (e : Ending) (h : getFloat name s = (s', e)) : Stays s.vars s'.vars ∧ (e = .returns → ∃ v, s'.vars name = some (.float v)) := by
  unfold getFloat at h
  split at h
  · cases h; exact ⟨stays_refl _, by simp⟩
  · split at h
    · cases h; exact ⟨stays_refl _, fun _ => ⟨_, ‹_›⟩⟩
    · cases h; exact ⟨stays_refl _, by simp⟩
    · rename_i hn
      cases h; exact ⟨stays_update fun y hy => (by rw [hn] at hy; cases hy), fun _ => ⟨_, by simp; rfl⟩⟩

private theorem expStmt_stays (env : Env F) (name : Str) (x : Ref) (ps : List F) (st : Stmt F) (y : World F × Expvar F) : Stays y.2.vars (expStmt env name x ps st y).1.2.vars := by
  obtain ⟨w, s⟩ := y
  cases st with
  | printf f as => exact stays_refl _
  | postCount sfx key e =>
    simp only [expStmt]
    rcases h : getInt (name ++ bytes sfx) s with ⟨s', e'⟩
    obtain ⟨h1, h2⟩ := getInt_stays _ _ _ _ h
    cases e' with
    | returns =>
      obtain ⟨n, hn⟩ := h2 rfl
      rcases e.eval env x ps w with ⟨w', p | v⟩
      · exact h1
      · refine stays_trans h1 (stays_update fun y hy b => ?_)
        rw [hn] at hy
        cases hy
        cases v <;> rfl
    | panics p => exact h1
    | hangs => exact h1
  | postValue sfx key e =>
    simp only [expStmt]
    rcases h : getFloat (name ++ bytes sfx) s with ⟨s', e'⟩
    obtain ⟨h1, h2⟩ := getFloat_stays _ _ _ _ h
    cases e' with
    | returns =>
      obtain ⟨n, hn⟩ := h2 rfl
      rcases e.eval env x ps w with ⟨w', p | v⟩
      · exact h1
      · refine stays_trans h1 (stays_update fun y hy b => ?_)
        rw [hn] at hy
        cases hy
        rfl
    | panics p => exact h1
    | hangs => exact h1

private theorem expStmts_stays (env : Env F) (name : Str) (x : Ref) (ps : List F) (ss : List (Stmt F)) : ∀ y : World F × Expvar F, Stays y.2.vars (expStmts env name x ps ss y).1.2.vars := by
  induction ss with
  | nil => exact fun y => stays_refl _
  | cons st ss ih =>
    intro y
    have := expStmt_stays env name x ps st y
    rw [expStmts]
    rcases h : expStmt env name x ps st y with ⟨y', _ | _ | _⟩ <;> rw [h] at this
    · exact stays_trans this (ih y')
    · exact this
    · exact this

private theorem visit_stays (env : Env F) (l : List (Str × Ref)) : ∀ y : World F × Expvar F × Bool, Stays y.2.1.vars (visit (expCallback env) l y).1.2.1.vars := by
  induction l with
  | nil => exact fun y => stays_refl _
  | cons e l ih =>
    rintro ⟨w, s, b⟩
    cases b with
    | true => rw [visit_hung]; exact stays_refl _
    | false =>
      have this : Stays s.vars (expMetric env e.1 e.2 (w, s)).1.2.vars := by
        rw [expMetric]
        split
        · rename_i c _
          rcases h : c.prepare env e.2 w with ⟨w', _ | ⟨x, ps⟩⟩
          · exact stays_refl _
          · exact expStmts_stays env e.1 x ps _ (w', s)
        · exact stays_refl _
      simp only [visit, expCallback, Bool.false_eq_true, if_false]
      rcases h : expMetric env e.1 e.2 (w, s) with ⟨⟨w', s'⟩, _ | _ | _⟩ <;> rw [h] at this
      · exact stays_trans this (ih (w', s', false))
      · exact this
      · exact stays_trans this (ih (w', s', true))

private theorem request_stays (env : Env F) (g : Reg) (y : World F × Expvar F) : Stays y.2.vars (expHandler env g y).1.2.vars := by
  have h1 : Stays y.2.vars (each env g (expCallback env) (y.1, y.2, false)).1.2.1.vars := by
    rw [each]
    rcases h : eachList env g y.1 with ⟨w', _ | _ | l⟩
    · exact stays_refl _
    · exact stays_refl _
    · exact visit_stays env l (w', y.2, false)
  have h2 : Stays y.2.vars (syncToExpvar env g y).1.2.vars := by
    rw [syncToExpvar]
    rcases h : each env g (expCallback env) (y.1, y.2, false) with ⟨⟨w', s', _ | _⟩, _ | _⟩ <;> rw [h] at h1 <;> exact h1
  rw [expHandler]
  rcases h : syncToExpvar env g y with ⟨y', _ | _ | _⟩ <;> rw [h] at h2 <;> exact h2

/-- C113: a variable, once published, is in the table for ever and never changes between integer, float and other, whatever the program does with its metrics and whatever requests come. -/
theorem C113_stays {y y' : World F × Expvar F} (h : ExpFrom y y') : Stays y.2.vars y'.2.vars := by
  induction h with
  | start => exact stays_refl _
  | op env o _ ih => exact ih
  | publish n x _ hn ih => exact stays_trans ih (stays_update fun z hz => by rw [hn] at hz; cases hz)
  | request env g _ ih => exact stays_trans ih (request_stays env g _)
  | other env g b _ ih => exact stays_trans ih (request_stays env g (_, { vars := _, held := b }))

section ieee
variable [GoSqrt F64] [GoExp F64]

private theorem unowned_run {kind : Str → Option Bool} {n : Str} {y0 y : World F64 × Expvar F64} (h0 : ExpRun kind y0) (h : Unowned kind n y0 y) : ExpRun kind y := by
  induction h with
  | start => exact h0
  | op env o _ ih => exact .op env o ih
  | publish m x _ hm hk _ ih => exact .publish m x ih hm hk
  | request env g id _ hb hh hsn hl hk _ ih => exact .request env g id ih hb hh hsn hl hk

/-- C113: while no metric is registered to which it belongs, a variable keeps its value: it shows for ever what the last request before saw. -/
theorem C113_stale (kind : Str → Option Bool) (n : Str) {y0 y : World F64 × Expvar F64} (h0 : ExpRun kind y0) (h : Unowned kind n y0 y) : y.2.vars n = y0.2.vars n := by
  induction h with
  | start => rfl
  | op env o _ ih => exact ih
  | publish m x _ hm hk hne ih => rw [← ih]; exact Function.update_of_ne (Ne.symm hne) _ _
  | @request w s env g id hu hb hh hsn hl hk hno ih =>
    obtain ⟨w', s', e, hp, -⟩ := C66_partial kind w s (unowned_run h0 hu) env g id hb hh hsn hl hk
    rw [e]
    rcases hp n with ⟨name, r, o, label, x, ho, -⟩ | ⟨-, h2⟩
    · exact absurd ho (hno _ _ _ _)
    · exact h2.trans ih

end ieee

/-! ### A counter that is gone -/

private noncomputable def before : World F64 × Expvar F64 :=
  (World.init.run [(envAt 0, .new .counter), (envAt 0, .call 0 (.inc 7)), (envAt 0, .reg (.std 0) (.register [120] (.obj 0)))], ⟨fun _ => none, false⟩)
private noncomputable def gone : World F64 × Expvar F64 :=
  ((expHandler (envAt 1) (.std 0) before).1.1.run [(envAt 2, .reg (.std 0) .unregisterAll), (envAt 2, .call 0 (.inc 1))], (expHandler (envAt 1) (.std 0) before).1.2)

private theorem run_from {y0 : World F × Expvar F} (h : List (Env F × Op F)) : ∀ {w : World F} {s : Expvar F}, ExpFrom y0 (w, s) → ExpFrom y0 (w.run h, s) := by
  induction h with
  | nil => exact fun h => h
  | cons a h ih => exact fun h' => ih (.op a.1 a.2 h')

private def shows7 : Option (Str → Option (Var F64)) → Bool
  | some vars => match vars [120] with
    | some (.int n) => n == 7
    | _ => false
  | none => false

/-- C113 (the code violates the plain claim that the response shows the registered metrics): a counter "x" at 7, a request, then `UnregisterAll`, and the counter goes on to 8. Nothing is registered any more; the
next response still says "x": 7. -/
theorem C113_refuted : ∃ (y : World F64 × Expvar F64) (env : Env F64) (vars : Str → Option (Var F64)), ExpReach y ∧ (∀ name, gets y.1 0 name = none) ∧ (expHandler env (.std 0) y).2.2 = some vars ∧
    vars [120] = some (.int 7) ∧ observe y.1 env 0 .count = .ok (.int 8) := by
  have h7 : ∀ v, shows7 v = true → ∃ vars, v = some vars ∧ vars [120] = some (.int 7) := by
    intro v h
    unfold shows7 at h
    split at h
    · rename_i vars
      split at h
      · rename_i n hn
        refine ⟨vars, rfl, ?_⟩
        rw [hn, beq_iff_eq.1 h]
      · cases h
    · cases h
  obtain ⟨vars, h1, h2⟩ := h7 (expHandler (envAt 3) (.std 0) gone).2.2 (by decide +kernel)
  refine ⟨gone, envAt 3, vars, ⟨fun _ => none, run_from _ (.request _ _ (run_from _ .start))⟩, fun name => ?_, h1, h2, by rfl⟩
  have e : gone.1.regs 0 = [] := by decide +kernel
  rw [gets_eq, e]
  rfl

private theorem run_run {kind : Str → Option Bool} (h : List (Env F × Op F)) : ∀ {w : World F} {s : Expvar F}, ExpRun kind (w, s) → ExpRun kind (w.run h, s) := by
  induction h with
  | nil => exact fun h => h
  | cons a h ih => exact fun h' => ih (.op a.1 a.2 h')

private theorem fit_of {w : World F64} (hw : w.Ok) (hn : w.nextObj = 1) (hc : ∃ c, w.objs 0 = some (.counter c)) : SamplesFit w := by
  intro r vs hv
  obtain ⟨c, hc⟩ := hc
  by_cases hr : r < 1
  · obtain rfl : r = 0 := by omega
    simp [recorded, histRecorded, hc] at hv
  · have : w.objs r = none := hw.obj r (by omega)
    simp [recorded, histRecorded, this] at hv

private theorem before_obj {name : Str} {r : Ref} {o : Obj F64} (hr : gets before.1 0 name = some r) (ho : before.1.objs r = some o) : name = [120] ∧ ∃ c, o = .counter c := by
  rw [gets_eq] at hr
  have hm := lookup_some_mem hr
  rw [show before.1.regs 0 = [([120], 0)] by decide +kernel] at hm
  simp only [List.mem_singleton, Prod.mk.injEq] at hm
  obtain ⟨rfl, rfl⟩ := hm
  obtain ⟨c, hc⟩ : ∃ c, before.1.objs 0 = some (.counter c) := ⟨_, rfl⟩
  rw [hc] at ho
  exact ⟨rfl, c, (Option.some.inj ho).symm⟩

private theorem run_inv {kind : Str → Option Bool} {y : World F64 × Expvar F64} (h : ExpRun kind y) : y.1.Ok := by
  induction h with
  | init => exact World.Ok.init
  | op env o _ ih => exact (ih.step env o).1
  | publish _ _ _ _ _ ih => exact ih
  | request env g id _ _ _ _ _ _ ih => exact keepsOk_request env g _ ih

/-- The hypotheses of C113_stale can be met: the counter above, after it is gone, and a second request. -/
example : ExpRun (fun _ => some true) gone ∧ Unowned (fun _ => some true) [120] gone (expHandler (envAt 3) (.std 0) gone).1 := by
  have h1 : ExpRun (fun _ => some true) before := run_run _ (.init (by intro n x b hx; simp at hx))
  have h2 : ExpRun (fun _ => some true) (expHandler (envAt 1) (.std 0) before).1 := by
    refine .request (envAt 1) (.std 0) 0 h1 rfl ?_ ?_ (fit_of (run_ok _) (by decide +kernel) ⟨_, rfl⟩) ?_
    · intro name r o hr _ ho
      obtain ⟨-, c, rfl⟩ := before_obj hr ho
      rfl
    · intro name r o hr _ ho hd
      obtain ⟨-, c, rfl⟩ := before_obj hr ho
      simp [isDistribution] at hd
    · rintro n name r o label ⟨hr, -, ho, -, -⟩
      obtain ⟨-, c, rfl⟩ := before_obj hr ho
      rfl
  have h3 : ExpRun (fun _ => some true) gone := run_run _ h2
  have hok : gone.1.Ok := run_inv h3
  have e : ∀ name, gets gone.1 0 name = none := fun name => by
    rw [gets_eq, show gone.1.regs 0 = [] by decide +kernel]
    rfl
  refine ⟨h3, .request (envAt 3) (.std 0) 0 .start rfl ?_ ?_ (fit_of ?_ (by decide +kernel) ⟨_, rfl⟩) ?_ ?_⟩
  · intro name r o hr
    have := e name
    rw [gone] at this; rw [this] at hr; cases hr
  · intro name r o hr
    have := e name
    rw [gone] at this; rw [this] at hr; cases hr
  · exact hok
  · rintro n name r o label ⟨hr, -⟩
    have := e name
    rw [gone] at this; rw [this] at hr; cases hr
  · rintro name r o label ⟨hr, -⟩
    have := e name
    rw [gone] at this; rw [this] at hr; cases hr

end GoMetrics
