import Verif.Lemmas.WorldFrame

/-! What registry operations do exactly. -/

set_option linter.unusedSimpArgs false
set_option linter.unnecessarySeqFocus false
set_option linter.unusedSectionVars false
set_option linter.unnecessarySimpa false

namespace GoMetrics
open Spec

variable {F : Type} [GoFloat F] [GoSqrt F] [GoExp F]

/-! ### Stopping -/

theorem callMeter_stop_ok (env : Env F) (r : Ref) (w : World F) : ∃ o, (callMeter env r .stop w).2 = .ok o := by
  rw [callMeter, act_bind_getObj]
  rcases w.objs r with _ | o
  · exact ⟨_, rfl⟩
  · cases o with
    | meter m =>
      cases m with
      | std s =>
        cases h : s.stopped
        · simp only [meterCall, h]; exact ⟨_, rfl⟩
        · simp only [meterCall, h]; exact ⟨_, rfl⟩
      | _ => exact ⟨_, rfl⟩
    | _ => exact ⟨_, rfl⟩

/-- `Stop()` never panics. -/
theorem stop_ok (env : Env F) (r : Ref) (w : World F) : ∃ o, (call env r .stop w).2 = .ok o := by
  rcases hr : w.objs r with _ | o
  · rw [call, act_bind_getObj, hr]; exact ⟨_, rfl⟩
  · rw [call_obj hr]
    cases o with
    | sample x => cases x <;> exact ⟨_, rfl⟩
    | hist x => cases x <;> exact ⟨_, rfl⟩
    | meter x =>
      have := callMeter_stop_ok env r w
      rwa [callMeter, act_bind_getObj, hr] at this
    | timer x => cases x <;> first | exact ⟨_, rfl⟩ | exact callMeter_stop_ok env _ w
    | _ => exact ⟨_, rfl⟩

/-- The store after `stop(name)`. -/
def stopState (env : Env F) (id : Nat) (name : Str) (w : World F) : World F :=
  match lookup (w.regs id) name with
  | none => w
  | some r =>
    match w.objs r with
    | some o => if o.stoppable then (call env r .stop w).1 else w
    | none => w

theorem stopNamed_eq (env : Env F) (id : Nat) (name : Str) (w : World F) : stopNamed env id name w = (stopState env id name w, .ok ()) := by
  unfold stopState
  rw [stopNamed, act_bind, act_getReg]
  simp only
  rcases lookup (w.regs id) name with _ | r
  · rfl
  · simp only [act_bind_getObj]
    rcases w.objs r with _ | o
    · rfl
    · simp only
      split
      · obtain ⟨x, hx⟩ := stop_ok env r w
        rw [act_bind]
        generalize call env r .stop w = y at hx ⊢
        obtain ⟨w', _ | a⟩ := y
        · simp at hx
        · rfl
      · rfl

theorem unregister_eq (env : Env F) (id : Nat) (name : Str) (w : World F) :
    unregister env id name w =
      ({ stopState env id name w with regs := Function.update w.regs id ((w.regs id).filter (·.1 != name)) }, .ok ()) := by
  rw [unregister, act_bind, stopNamed_eq]
  have hr : (stopState env id name w).regs = w.regs := by
    unfold stopState
    split
    · rfl
    · split
      · split
        · exact (call_regs env _ _ w).1
        · rfl
      · rfl
  show ({ stopState env id name w with regs := Function.update (stopState env id name w).regs id (((stopState env id name w).regs id).filter (·.1 != name)) }, Except.ok ()) = _
  rw [hr]

theorem regs_unregister (env : Env F) (id : Nat) (name : Str) (w : World F) :
    (unregister env id name w).1.regs = Function.update w.regs id ((w.regs id).filter (·.1 != name)) := by rw [unregister_eq]

/-- `UnregisterAll` empties the registry, calls no user code, and leaves the other registries. -/
theorem runAll_unregister (env : Env F) (id : Nat) (names : List Str) (w : World F) :
    (runAll (unregister env id) names w).2 = .ok () ∧
    (runAll (unregister env id) names w).1.regs = Function.update w.regs id ((w.regs id).filter fun e => !names.contains e.1) := by
  induction names generalizing w with
  | nil => exact ⟨rfl, by simp [runAll, act_pure]⟩
  | cons n names ih =>
    have e : runAll (unregister env id) (n :: names) w = runAll (unregister env id) names (unregister env id n w).1 := by
      rw [runAll, act_bind, unregister_eq]
    rw [e]
    refine ⟨(ih _).1, ?_⟩
    rw [(ih _).2, regs_unregister, Function.update_self, Function.update_idem, List.filter_filter]
    congr 1
    apply List.filter_congr
    intro x _
    by_cases h : x.1 = n <;> simp [h, Bool.and_comm, bne]

theorem unregisterAll_eq (env : Env F) (id : Nat) (w : World F) :
    (unregisterAll env id w).2 = .ok () ∧ (unregisterAll env id w).1.regs = Function.update w.regs id [] := by
  have e : unregisterAll env id w = runAll (unregister env id) (env.order ((w.regs id).map (·.1))) w := by
    rw [unregisterAll, act_bind, act_getReg]
  rw [e]
  obtain ⟨h1, h2⟩ := runAll_unregister env id (env.order ((w.regs id).map (·.1))) w
  refine ⟨h1, h2.trans ?_⟩
  congr 1
  rw [List.filter_eq_nil_iff]
  intro x hx
  simp only [Bool.not_eq_true, Bool.not_eq_false', List.contains_iff_mem, Bool.not_eq_eq_eq_not, Bool.not_true]
  simpa using (env.order_perm ((w.regs id).map (·.1))).mem_iff.2 (List.mem_map_of_mem hx)

/-! ### What unregistering stops -/

variable {S : Ref → Prop}

theorem StopsIn.le {r : Ref} {w w' : World F} (hle : w.Le S w') {o : Obj F} (ho : w.objs r = some o) (h : StopsIn S r w) : StopsIn S r w' := by
  refine ⟨h.1, fun a b hr => ?_⟩
  cases hl : o.live with
  | none =>
    rw [hle.frozen r o ho hl] at hr
    exact h.2 a b (by rw [ho, hr])
  | some k =>
    obtain ⟨o', h1, h2⟩ := hle.live r o k ho hl
    rw [h1] at hr
    obtain rfl : o' = .timer (.std a b) := by simpa using hr
    simp [Obj.live, Obj.stoppedMeter] at h2

theorem runAll_unregister_safe (env : Env F) (id : Nat) (names : List Str) :
    Safe S (fun w => ∀ e ∈ w.regs id, StopsIn S e.2 w) (runAll (unregister env id) names) := by
  induction names with
  | nil => exact safe_pure _
  | cons n names ih =>
    intro w hw hp
    have e : runAll (unregister env id) (n :: names) w = runAll (unregister env id) names (unregister env id n w).1 := by
      rw [runAll, act_bind, unregister_eq]
    rw [e]
    obtain ⟨h1, h2⟩ := unregister_safe (S := S) env id n w hw fun r hr => hp _ (lookup_some_mem hr)
    obtain ⟨h3, h4⟩ := ih _ h1 fun e he => by
      rw [regs_unregister, Function.update_self] at he
      have he := (List.mem_filter.1 he).1
      obtain ⟨o, ho, -⟩ := hw.metric id e he
      exact (hp e he).le h2 ho
    exact ⟨h3, h2.trans h4⟩

theorem unregisterAll_safe' (env : Env F) (id : Nat) : Safe S (fun w => ∀ e ∈ w.regs id, StopsIn S e.2 w) (unregisterAll env id) := by
  intro w hw hp
  have e : unregisterAll env id w = runAll (unregister env id) (env.order ((w.regs id).map (·.1))) w := by
    rw [unregisterAll, act_bind, act_getReg]
  rw [e]
  exact runAll_unregister_safe env id _ w hw hp

/-! ### Prefixes -/

theorem regCall_prefix (env : Env F) (g : Reg) :
    (∀ name, regCall env g (.get name) = match base g with | some id => regCall env (.std id) (.get (fullName g name)) | none => pure .foreign) ∧
    (∀ name v, regCall env g (.getOrRegister name v) = match base g with | some id => regCall env (.std id) (.getOrRegister (fullName g name) v) | none => pure .foreign) ∧
    (∀ name v, regCall env g (.register name v) = match base g with | some id => regCall env (.std id) (.register (fullName g name) v) | none => pure .foreign) ∧
    (∀ name, regCall env g (.unregister name) = match base g with | some id => regCall env (.std id) (.unregister (fullName g name)) | none => pure .foreign) ∧
    regCall env g .unregisterAll = (match base g with | some id => regCall env (.std id) .unregisterAll | none => pure .foreign) ∧
    regCall env g .runHealthchecks = (match base g with | some id => regCall env (.std id) .runHealthchecks | none => pure .foreign) := by
  induction g with
  | std id => exact ⟨fun _ => rfl, fun _ _ => rfl, fun _ _ => rfl, fun _ => rfl, rfl, rfl⟩
  | foreign => exact ⟨fun _ => rfl, fun _ _ => rfl, fun _ _ => rfl, fun _ => rfl, rfl, rfl⟩
  | prefixed u p ih =>
    obtain ⟨h1, h2, h3, h4, h5, h6⟩ := ih
    exact ⟨fun n => h1 (p ++ n), fun n v => h2 (p ++ n) v, fun n v => h3 (p ++ n) v, fun n => h4 (p ++ n), h5, h6⟩

end GoMetrics
