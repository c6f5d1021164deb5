import Verif.Lemmas.WorldTimer

/-! What the operations do to each object. -/

set_option linter.unusedSimpArgs false
set_option linter.unnecessarySeqFocus false
set_option linter.unusedSectionVars false
set_option linter.unnecessarySimpa false

namespace GoMetrics
open Spec

variable {F : Type} [GoFloat F] [GoSqrt F] [GoExp F]

/-! ### Live meters -/

theorem live_iff (w : World F) (r : Ref) : live w r ↔ ∃ o, w.objs r = some o ∧ o.live = some .meter := by
  constructor
  · rintro ⟨m, h, hs⟩
    exact ⟨_, h, by simp [Obj.live, hs]⟩
  · rintro ⟨o, h, hl⟩
    cases o with
    | meter m => cases m <;> simp_all [Obj.live]; exact ⟨_, h, hl⟩
    | counter x => cases x <;> simp [Obj.live] at hl
    | gauge x => cases x <;> simp [Obj.live] at hl
    | gaugeF x => cases x <;> simp [Obj.live] at hl
    | health x => cases x <;> simp [Obj.live] at hl
    | sample x => cases x <;> simp [Obj.live] at hl
    | ewma x => cases x <;> simp [Obj.live] at hl
    | hist x => simp [Obj.live] at hl
    | timer x => simp [Obj.live] at hl

theorem live_le {S : Ref → Prop} {w w' : World F} (h : w.Le S w') {r : Ref} (hr : live w r) (hS : ¬ S r) : live w' r := by
  obtain ⟨o, h1, h2⟩ := (live_iff w r).1 hr
  obtain ⟨o', h3, h4 | ⟨-, -, h4⟩⟩ := h.live r o _ h1 h2
  · exact (live_iff w' r).2 ⟨o', h3, h4⟩
  · exact absurd h4 hS

theorem stopped_le {S : Ref → Prop} {w w' : World F} (h : w.Le S w') {r : Ref} {m : StandardMeter F} (hr : w.objs r = some (.meter (.std m)))
    (hm : m.stopped = true) : w'.objs r = some (.meter (.std m)) := h.frozen r _ hr (by simp [Obj.live, hm])

theorem stopped_not_live {w : World F} {r : Ref} {m : StandardMeter F} (hr : w.objs r = some (.meter (.std m))) (hm : m.stopped = true) : ¬ live w r := by
  rintro ⟨m', h, hs⟩
  rw [hr] at h
  simp only [Option.some.injEq, Obj.meter.injEq, Meter.std.injEq] at h
  subst h
  simp [hm] at hs

/-! ### The tick -/

def tickObj (now : Instant) : Option (Obj F) → Option (Obj F)
  | some (.meter m) => some (.meter (m.tick now))
  | o => o

theorem tickOne_eq (env : Env F) (r : Ref) (w : World F) :
    tickOne env r w = ({ w with objs := fun q => if q = r then tickObj env.now (w.objs q) else w.objs q }, .ok ()) := by
  have same : w.objs r = tickObj env.now (w.objs r) → (w, Except.ok ()) = (({ w with objs := fun q => if q = r then tickObj env.now (w.objs q) else w.objs q }, .ok ()) : World F × Res Unit) := by
    intro h
    congr 1
    have : w.objs = fun q => if q = r then tickObj env.now (w.objs q) else w.objs q := by
      funext q
      split
      · rename_i e; subst e; exact h
      · rfl
    rw [← this]
  rw [tickOne, act_bind_getObj]
  rcases hr : w.objs r with _ | o
  · exact same (by rw [hr]; rfl)
  · cases o with
    | meter m =>
      simp only [act_setObj]
      congr 2
      funext q
      rcases eq_or_ne q r with rfl | hq
      · simp [hr, tickObj]
      · simp [Function.update_of_ne hq, hq]
    | _ => exact same (by rw [hr]; rfl)

theorem runAll_tick (env : Env F) (l : List Ref) (hl : l.Nodup) (w : World F) :
    runAll (tickOne env) l w = ({ w with objs := fun q => if q ∈ l then tickObj env.now (w.objs q) else w.objs q }, .ok ()) := by
  induction l generalizing w with
  | nil => simp [runAll, act_pure]
  | cons r l ih =>
    rw [List.nodup_cons] at hl
    rw [runAll, act_bind, tickOne_eq]
    simp only
    rw [ih hl.2]
    congr 2
    funext q
    by_cases h1 : q = r
    · subst h1; simp [hl.1]
    · simp [h1]

open Classical in
theorem tickMeters_eq (env : Env F) (w : World F) (hw : w.Ok) :
    tickMeters env w = ({ w with objs := fun q => if live w q then tickObj env.now (w.objs q) else w.objs q }, .ok ()) := by
  have hn : (env.order w.meters).Nodup := (env.order_perm w.meters).nodup_iff.2 hw.nodup
  have hm : ∀ r, r ∈ env.order w.meters ↔ live w r := fun r => ((env.order_perm w.meters).mem_iff.trans (hw.meters r)).trans (live_iff w r).symm
  rw [tickMeters, runAll_tick env _ hn]
  congr 2
  funext q
  by_cases h : live w q
  · rw [if_pos h, if_pos ((hm q).2 h)]
  · rw [if_neg h, if_neg (mt (hm q).1 h)]

/-! ### Stopping -/

/-- The only changes: some live meters in `P` have been stopped. -/
def Stopping (P : Ref → Prop) (w w' : World F) : Prop :=
  ∀ y, w'.objs y = w.objs y ∨ (P y ∧ ∃ m, w.objs y = some (.meter (.std m)) ∧ m.stopped = false ∧ w'.objs y = some (.meter (.std m.stop)))

theorem Stopping.refl (P : Ref → Prop) (w : World F) : Stopping P w w := fun _ => .inl rfl

theorem Stopping.trans {P Q : Ref → Prop} {w w' w'' : World F} (h : Stopping P w w') (h' : Stopping Q w' w'') (hq : ∀ y, Q y → P y) : Stopping P w w'' := by
  intro y
  rcases h' y with h1 | ⟨h1, m, h2, h3, h4⟩
  · rcases h y with h5 | ⟨h5, m, h6, h7, h8⟩
    · exact .inl (h1.trans h5)
    · exact .inr ⟨h5, m, h6, h7, h1.trans h8⟩
  · rcases h y with h5 | ⟨h5, m', h6, h7, h8⟩
    · exact .inr ⟨hq y h1, m, h5.symm.trans h2, h3, h4⟩
    · rw [h8] at h2
      simp only [Option.some.injEq, Obj.meter.injEq, Meter.std.injEq] at h2
      subst h2
      simp [StandardMeter.stop] at h3

theorem callMeter_stopping (env : Env F) (r : Ref) (w : World F) : Stopping (· = r) w (callMeter env r .stop w).1 := by
  intro y
  rw [callMeter, act_bind_getObj]
  rcases hr : w.objs r with _ | o
  · exact .inl rfl
  · cases o with
    | meter m =>
      cases m with
      | std s =>
        cases h : s.stopped with
        | true => simp only [meterCall, h]; exact .inl rfl
        | false =>
          simp only [meterCall, h]
          rcases eq_or_ne y r with rfl | hy
          · exact .inr ⟨rfl, s, hr, h, Function.update_self ..⟩
          · exact .inl (Function.update_of_ne hy ..)
      | _ => exact .inl rfl
    | _ => exact .inl rfl

theorem stop_stopping (env : Env F) (x : Ref) (w : World F) : Stopping (stopTarget w x) w (call env x .stop w).1 := by
  rcases hx : w.objs x with _ | o
  · rw [call, act_bind_getObj, hx]; exact .refl _ w
  · rw [call_obj hx]
    cases o with
    | sample s => cases s <;> exact .refl _ w
    | hist h => cases h <;> exact .refl _ w
    | meter m =>
      have := callMeter_stopping env x w
      rw [callMeter, act_bind_getObj, hx] at this
      exact fun y => (this y).imp_right fun h => ⟨.inl h.1.symm, h.2⟩
    | timer t =>
      cases t with
      | std h m => exact fun y => (callMeter_stopping env m w y).imp_right fun a => ⟨.inr ⟨h, by rw [a.1, hx]⟩, a.2⟩
      | _ => exact .refl _ w
    | _ => exact .refl _ w

theorem unregister_stopping (env : Env F) (id : Nat) (name : Str) (w : World F) :
    Stopping (fun y => ∃ x, (name, x) ∈ w.regs id ∧ stopTarget w x y) w (unregister env id name w).1 := by
  rw [unregister_eq]
  show Stopping _ w (stopState env id name w)
  unfold stopState
  split
  · exact .refl _ w
  · rename_i x hx
    split
    · split
      · exact fun y => (stop_stopping env x w y).imp_right fun h => ⟨⟨x, lookup_some_mem hx, h.1⟩, h.2⟩
      · exact .refl _ w
    · exact .refl _ w

theorem stopTarget_stopping {P : Ref → Prop} {w w' : World F} (h : Stopping P w w') {x y : Ref} (ht : stopTarget w' x y) : stopTarget w x y := by
  rcases ht with rfl | ⟨a, ha⟩
  · exact .inl rfl
  · refine .inr ⟨a, ?_⟩
    rcases h x with h1 | ⟨-, m, -, -, h1⟩
    · rw [← h1, ha]
    · rw [h1] at ha; simp at ha

theorem runAll_unregister_stopping (env : Env F) (id : Nat) (names : List Str) (w : World F) :
    Stopping (fun y => ∃ n x, (n, x) ∈ w.regs id ∧ stopTarget w x y) w (runAll (unregister env id) names w).1 := by
  induction names generalizing w with
  | nil => exact .refl _ w
  | cons n names ih =>
    have e : runAll (unregister env id) (n :: names) w = runAll (unregister env id) names (unregister env id n w).1 := by
      rw [runAll, act_bind, unregister_eq]
    rw [e]
    have h1 := unregister_stopping env id n w
    have h1' : Stopping (fun y => ∃ n x, (n, x) ∈ w.regs id ∧ stopTarget w x y) w (unregister env id n w).1 :=
      fun y => (h1 y).imp_right fun h => ⟨⟨n, h.1⟩, h.2⟩
    refine h1'.trans (ih _) ?_
    rintro y ⟨n', x, hx, ht⟩
    rw [regs_unregister, Function.update_self] at hx
    exact ⟨n', x, (List.mem_filter.1 hx).1, stopTarget_stopping h1 ht⟩

theorem unregisterAll_run (env : Env F) (id : Nat) (w : World F) :
    unregisterAll env id w = runAll (unregister env id) (env.order ((w.regs id).map (·.1))) w := by
  rw [unregisterAll, act_bind, act_getReg]

theorem unregisterAll_stopping (env : Env F) (id : Nat) (w : World F) :
    Stopping (fun y => ∃ n x, (n, x) ∈ w.regs id ∧ stopTarget w x y) w (unregisterAll env id w).1 := by
  rw [unregisterAll_run]
  exact runAll_unregister_stopping env id _ w

/-! ### The store after a registry call -/

theorem fst_map (x : Act F α) (f : α → β) (w : World F) : ((do return f (← x) : Act F β) w).1 = (x w).1 := by
  rw [act_bind]
  rcases x w with ⟨w', _ | a⟩ <;> rfl

theorem fst_const (x : Act F Unit) (b : β) (w : World F) : ((do x; return b : Act F β) w).1 = (x w).1 := by
  rw [act_bind]
  rcases x w with ⟨w', _ | a⟩ <;> rfl

theorem step_reg_fst (env : Env F) (g : Reg) (o : RegOp F) (w : World F) : (step env (.reg g o) w).1 = (regCall env g o w).1 := fst_map _ _ w

theorem step_unregister_fst (env : Env F) (g : Reg) (name : Str) (w : World F) : (step env (.reg g (.unregister name)) w).1 =
    match base g with
    | some id => (unregister env id (fullName g name) w).1
    | none => w := by
  rw [step_reg_fst, (regCall_prefix env g).2.2.2.1 name]
  cases base g with
  | none => rfl
  | some id => exact fst_const _ _ w

theorem step_unregisterAll_fst (env : Env F) (g : Reg) (w : World F) : (step env (.reg g .unregisterAll) w).1 =
    match base g with
    | some id => (unregisterAll env id w).1
    | none => w := by
  rw [step_reg_fst, (regCall_prefix env g).2.2.2.2.1]
  cases base g with
  | none => rfl
  | some id => exact fst_const _ _ w

theorem register_objs (id : Nat) (name : Str) (v : Val F) (w : World F) :
    (register id name v w).1.objs = w.objs ∧ (register id name v w).1.nextObj = w.nextObj := by
  rw [register, act_bind, act_getReg]
  simp only
  rcases lookup (w.regs id) name with _ | q
  swap
  · cases v <;> exact ⟨rfl, rfl⟩
  · cases v with
    | obj r =>
      simp only [act_bind_getObj]
      rcases w.objs r with _ | o
      · exact ⟨rfl, rfl⟩
      · simp only
        split <;> exact ⟨rfl, rfl⟩
    | _ => exact ⟨rfl, rfl⟩

theorem getOrRegister_objs (env : Env F) (id : Nat) (name : Str) (v : Val F) (w : World F) :
    (getOrRegister env id name v w).1.objs = w.objs ∨ ∃ c, v = .ctor c ∧ (getOrRegister env id name v w).1.objs = (construct env c w).1.objs := by
  rw [getOrRegister.eq_def, act_bind, act_getReg]
  simp only
  rcases lookup (w.regs id) name with _ | q
  swap
  · exact .inl rfl
  · cases v with
    | ctor c =>
      refine .inr ⟨c, rfl, ?_⟩
      simp only
      rw [act_bind]
      generalize construct env c w = y
      obtain ⟨w', _ | r⟩ := y
      · rfl
      · simp only
        rw [act_bind]
        have := (register_objs id name (.obj r) w').1
        generalize register id name (.obj r) w' = z at *
        obtain ⟨w2, _ | a⟩ := z <;> exact this
    | obj r =>
      left
      simp only
      rw [act_bind]
      have := (register_objs id name (.obj r) w).1
      generalize register id name (.obj r) w = z at *
      obtain ⟨w2, _ | a⟩ := z <;> exact this
    | _ => exact .inl rfl

/-- Only healthchecks change. -/
def Checking (w w' : World F) : Prop :=
  w'.nextObj = w.nextObj ∧ ∀ y, w'.objs y = w.objs y ∨ ∃ a b, w.objs y = some (.health a) ∧ w'.objs y = some (.health b)

theorem Checking.trans {w w' w'' : World F} (h : Checking w w') (h' : Checking w' w'') : Checking w w'' := by
  refine ⟨h'.1.trans h.1, fun y => ?_⟩
  rcases h'.2 y with h1 | ⟨a, b, h1, h2⟩
  · rcases h.2 y with h5 | ⟨a, b, h5, h6⟩
    · exact .inl (h1.trans h5)
    · exact .inr ⟨a, b, h5, h1.trans h6⟩
  · rcases h.2 y with h5 | ⟨a', b', h5, h6⟩
    · exact .inr ⟨a, b, h5.symm.trans h1, h2⟩
    · exact .inr ⟨a', b, h5, h2⟩

/-- `Check()` on one entry of a registry, if it is a healthcheck. -/
def checkOne (env : Env F) (e : Str × Ref) : Act F Unit := do
  match ← getObj e.2 with
  | some (.health _) => let _ ← call env e.2 .check
  | _ => return ()

theorem runHealthchecks_run (env : Env F) (id : Nat) (w : World F) :
    runHealthchecks env id w = runAll (checkOne env) (env.order (w.regs id)) w := by
  rw [runHealthchecks, act_bind, act_getReg]
  rfl

theorem checkOne_eq (env : Env F) (e : Str × Ref) (w : World F) :
    checkOne env e w = (match w.objs e.2 with
      | some (.health h) => { w with objs := Function.update w.objs e.2 (some (.health (h.check env.checkFn))) }
      | _ => w, .ok ()) := by
  rw [checkOne, act_bind_getObj]
  rcases he : w.objs e.2 with _ | o
  · rfl
  · cases o with
    | health h =>
      simp only
      rw [act_bind, call_obj he]
      rfl
    | _ => rfl

theorem checkOne_checking (env : Env F) (e : Str × Ref) (w : World F) : Checking w (checkOne env e w).1 := by
  rw [checkOne_eq]
  rcases he : w.objs e.2 with _ | o
  · exact ⟨rfl, fun _ => .inl rfl⟩
  · cases o with
    | health h =>
      refine ⟨rfl, fun y => ?_⟩
      rcases eq_or_ne y e.2 with rfl | hy
      · exact .inr ⟨h, _, he, Function.update_self ..⟩
      · exact .inl (Function.update_of_ne hy ..)
    | _ => exact ⟨rfl, fun _ => .inl rfl⟩

theorem runAll_check_checking (env : Env F) (l : List (Str × Ref)) (w : World F) : Checking w (runAll (checkOne env) l w).1 := by
  induction l generalizing w with
  | nil => exact ⟨rfl, fun _ => .inl rfl⟩
  | cons e l ih =>
    have h1 := checkOne_checking env e w
    rw [runAll, act_bind, checkOne_eq]
    rw [checkOne_eq] at h1
    exact h1.trans (ih _)

/-! ### Everything together -/

theorem slice_objs (o : SliceOp) (w : World F) : (sliceOp o w).1.objs = w.objs := by
  cases o with
  | make l => rfl
  | set a i v => simp only [sliceOp]; split <;> rfl

open Classical in
/-- How an existing object can change in one step. -/
theorem step_objs (w : World F) (hw : w.Ok) (env : Env F) (o : Op F) (y : Ref) (hy : y < w.nextObj) :
    (step env o w).1.objs y = w.objs y ∨ (∃ x c, o = .call x c ∧ partOf w x y) ∨
    (o = .tick ∧ ∃ m, w.objs y = some (.meter (.std m)) ∧ m.stopped = false ∧ (step env o w).1.objs y = some (.meter (.std (m.tick env.now)))) ∨
    (stops w o y ∧ ∃ m, w.objs y = some (.meter (.std m)) ∧ m.stopped = false ∧ (step env o w).1.objs y = some (.meter (.std m.stop))) ∨
    (∃ g a b, o = .reg g .runHealthchecks ∧ w.objs y = some (.health a) ∧ (step env o w).1.objs y = some (.health b)) := by
  cases o with
  | setNil b => exact .inl rfl
  | new c => rw [step_new_fst]; exact .inl ((construct_objs env c w).2 y hy not_false)
  | call x c =>
    by_cases hp : partOf w x y
    · exact .inr (.inl ⟨x, c, rfl, hp⟩)
    · rw [step_call_fst]; exact .inl ((call_objs env x c w).2 y hy hp)
  | slice o =>
    left
    show ((do return OpOut.out (← sliceOp o) : Act F (OpOut F)) w).1.objs y = _
    rw [fst_map, slice_objs]
  | tick =>
    have e : (step env .tick w).1 = (tickMeters env w).1 := fst_const _ _ w
    rw [e, tickMeters_eq env w hw]
    by_cases hl : live w y
    · obtain ⟨m, h1, h2⟩ := hl
      refine .inr (.inr (.inl ⟨rfl, m, h1, h2, ?_⟩))
      show (if live w y then _ else _) = _
      rw [if_pos ⟨m, h1, h2⟩, h1]; rfl
    · left
      show (if live w y then _ else _) = _
      rw [if_neg hl]
  | reg g o =>
    cases o with
    | get name =>
      left
      rw [step_reg_fst, (regCall_prefix env g).1 name]
      cases base g with
      | none => rfl
      | some id =>
        simp only [regCall, act_bind, act_getReg]
        rcases lookup (w.regs id) (fullName g name) with _ | q <;> rfl
    | getOrRegister name v =>
      left
      rw [step_reg_fst, (regCall_prefix env g).2.1 name v]
      cases base g with
      | none => rfl
      | some id =>
        simp only [regCall]
        rcases getOrRegister_objs env id (fullName g name) v w with h | ⟨c, -, h⟩
        · rw [h]
        · rw [h]; exact (construct_objs env c w).2 y hy not_false
    | register name v =>
      left
      rw [step_reg_fst, (regCall_prefix env g).2.2.1 name v]
      cases base g with
      | none => rfl
      | some id => simp only [regCall]; rw [(register_objs id _ v w).1]
    | unregister name =>
      rw [step_unregister_fst]
      cases hb : base g with
      | none => exact .inl rfl
      | some id =>
        simp only
        rcases unregister_stopping env id (fullName g name) w y with h | ⟨⟨x, hx, ht⟩, h⟩
        · exact .inl h
        · exact .inr (.inr (.inr (.inl ⟨⟨id, x, hb, hx, ht⟩, h⟩)))
    | unregisterAll =>
      rw [step_unregisterAll_fst]
      cases hb : base g with
      | none => exact .inl rfl
      | some id =>
        simp only
        rcases unregisterAll_stopping env id w y with h | ⟨⟨n, x, hx, ht⟩, h⟩
        · exact .inl h
        · exact .inr (.inr (.inr (.inl ⟨⟨id, n, x, hb, hx, ht⟩, h⟩)))
    | runHealthchecks =>
      rw [step_reg_fst, (regCall_prefix env g).2.2.2.2.2]
      cases hb : base g with
      | none => exact .inl rfl
      | some id =>
        simp only [regCall]
        rw [fst_const, runHealthchecks_run]
        rcases (runAll_check_checking env (env.order (w.regs id)) w).2 y with h | ⟨a, b, h1, h2⟩
        · exact .inl h
        · exact .inr (.inr (.inr (.inr ⟨g, a, b, rfl, h1, h2⟩)))

end GoMetrics
