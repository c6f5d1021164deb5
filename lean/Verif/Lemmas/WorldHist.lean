import Verif.Lemmas.WorldEffect
import Verif.Lemmas.ExpDecay
import Verif.Lemmas.Meter

/-! What calls on histograms and timers do, in terms of calls on their parts. -/

set_option linter.unusedSimpArgs false
set_option linter.unnecessarySeqFocus false
set_option linter.unusedSectionVars false
set_option linter.unnecessarySimpa false

namespace GoMetrics
open Spec

variable {F : Type} [GoFloat F] [GoSqrt F] [GoExp F]

theorem callSample_eq {w : World F} {s : Ref} (hs : HasTy w s .sample) (env : Env F) (c : Call F) : callSample env s c w = call env s c w := by
  obtain ⟨o, h1, h2⟩ := hs
  cases o <;> simp [Obj.ty] at h2
  rw [call_obj h1, callSample, act_bind_getObj, h1]
  rfl

theorem callHist_eq {w : World F} {h : Ref} (hh : HasTy w h .hist) (env : Env F) (c : Call F) : callHist env h c w = call env h c w := by
  obtain ⟨o, h1, h2⟩ := hh
  cases o <;> simp [Obj.ty] at h2
  rw [call_obj h1, callHist, act_bind_getObj, h1]
  rfl

theorem callMeter_eq {w : World F} {m : Ref} (hm : HasTy w m .meter) (env : Env F) (c : Call F) : callMeter env m c w = call env m c w := by
  obtain ⟨o, h1, h2⟩ := hm
  cases o <;> simp [Obj.ty] at h2
  rw [call_obj h1, callMeter, act_bind_getObj, h1]
  rfl

/-! ### Timers made by NewTimer -/

/-- Nothing but the timer `r` and its histogram `h` uses the sample `s`, the histogram `h` and the meter `m`. -/
structure Private (r s h m : Ref) (w : World F) : Prop where
  timer : w.objs r = some (.timer (.std h m))
  hist : w.objs h = some (.hist (.std s))
  ownS : ∀ y, w.objs y = some (.hist (.std s)) → y = h
  ownH : ∀ y a, w.objs y = some (.timer (.std h a)) → y = r
  ownM : ∀ y a, w.objs y = some (.timer (.std a m)) → y = r

/-- A new histogram or timer on an old object is one on the argument of the constructor. -/
theorem construct_owner {w : World F} (hw : w.Ok) (env : Env F) (c : NewOp F) (q : Ref) (hq : q < w.nextObj) (hc : ¬ newUses c q) (y : Ref) (o : Obj F)
    (ho : o = .hist (.std q) ∨ ∃ a, o = .timer (.std q a) ∨ o = .timer (.std a q)) (h : (construct env c w).1.objs y = some o) : w.objs y = some o := by
  have hpo : o.plain = false := by rcases ho with rfl | ⟨a, rfl | rfl⟩ <;> rfl
  have upd : ∀ r o', (o'.plain = true ∨ o' ≠ o) → Function.update w.objs r (some o') y = some o → w.objs y = some o := by
    intro r o' h1 h2
    rcases eq_or_ne y r with rfl | hy
    · rw [Function.update_self, Option.some.injEq] at h2
      subst h2
      rcases h1 with h1 | h1
      · rw [hpo] at h1; simp at h1
      · exact absurd rfl h1
    · rwa [Function.update_of_ne hy] at h2
  have hc0 := closed_sameOwners (F := F)
  have fin : SameOwners w (construct env c w).1 → w.objs y = some o := fun hk => hk y o h hpo
  cases c with
  | uniform k =>
    apply fin
    simp only [construct]
    split
    · exact keeps_alloc hc0 _ rfl w
    · exact keeps_bind hc0 (keeps_lift hc0 _) (fun _ => keeps_alloc hc0 _ rfl) w
  | exp k a => exact fin (newExp_keeps hc0 env k a w)
  | sampleSnap n a =>
    apply fin
    simp only [construct]
    split
    · exact keeps_alloc hc0 _ rfl w
    · exact keeps_bind hc0 (keeps_newArr hc0 _ _) (fun _ => keeps_alloc hc0 _ rfl) w
  | hist s =>
    simp only [construct, newHist] at h
    split at h
    · exact upd _ _ (.inl rfl) h
    · split at h
      · refine upd _ _ (.inr ?_) h
        rintro rfl
        simp only [Obj.hist.injEq, HistV.std.injEq, reduceCtorEq, or_self, exists_false, or_false] at ho
        exact hc ho
      · exact h
  | meter => exact fin (newMeter_keeps hc0 (fun _ _ _ _ h _ => h) env w)
  | timer =>
    by_cases hn : w.useNil = true
    · simp only [construct, hn, if_true] at h
      exact upd _ _ (.inl rfl) h
    · obtain ⟨s, -, e⟩ := newTimer_eq env w (by simpa using hn)
      rw [e] at h
      replace h : timerObjs env s w y = some o := h
      unfold timerObjs at h
      simp only [Function.update_apply] at h
      split_ifs at h
      · simp only [Option.some.injEq] at h
        subst h
        simp at ho
        omega
      · simp only [Option.some.injEq] at h
        subst h
        simp at ho
      · simp only [Option.some.injEq] at h
        subst h
        simp at ho
        omega
      · simp only [Option.some.injEq] at h
        subst h
        simp at ho
      · exact h
  | customTimer a b =>
    simp only [construct, newTimer] at h
    split at h
    · exact upd _ _ (.inl rfl) h
    · split at h
      · refine upd _ _ (.inr ?_) h
        rintro rfl
        simp only [Obj.timer.injEq, TimerV.std.injEq, reduceCtorEq, false_or] at ho
        obtain ⟨x, ho | ho⟩ := ho
        · exact hc (.inl ho.1)
        · exact hc (.inr ho.2)
      · exact h
  | _ => exact fin (keeps_alloc hc0 _ rfl w)

theorem step_owner {w : World F} (hw : w.Ok) (env : Env F) (op : Op F) (q : Ref) (hq : q < w.nextObj) (hu : ¬ uses op q) (y : Ref) (o : Obj F)
    (ho : o = .hist (.std q) ∨ ∃ a, o = .timer (.std q a) ∨ o = .timer (.std a q)) (h : (step env op w).1.objs y = some o) : w.objs y = some o := by
  have hpo : o.plain = false := by rcases ho with rfl | ⟨a, rfl | rfl⟩ <;> rfl
  have stopping : ∀ P w', Stopping P w w' → w'.objs y = some o → w.objs y = some o := by
    intro P w' hs hy
    rcases hs y with h1 | ⟨-, m, -, -, h1⟩
    · rw [← h1, hy]
    · rw [h1] at hy; cases hy; simp [Obj.plain] at hpo
  cases op with
  | setNil b => exact h
  | new c => rw [step_new_fst] at h; exact construct_owner hw env c q hq hu y o ho h
  | call x c => rw [step_call_fst] at h; exact call_owners env x c w y o h hpo
  | slice s =>
    have e : (step env (.slice s) w).1.objs = w.objs := by
      show ((do return OpOut.out (← sliceOp s) : Act F (OpOut F)) w).1.objs = _
      rw [fst_map, slice_objs]
    rwa [e] at h
  | tick =>
    have e : (step env .tick w).1 = (tickMeters env w).1 := fst_const _ _ w
    rw [e] at h
    exact tick_owners env w y o h hpo
  | reg g op =>
    cases op with
    | get name =>
      rw [step_reg_fst, (regCall_prefix env g).1 name] at h
      cases hb : base g with
      | none => rw [hb] at h; exact h
      | some id =>
        rw [hb] at h
        simp only [regCall, act_bind, act_getReg] at h
        revert h
        rcases lookup (w.regs id) (fullName g name) with _ | q <;> exact fun h => h
    | getOrRegister name v =>
      rw [step_reg_fst, (regCall_prefix env g).2.1 name v] at h
      cases hb : base g with
      | none => rw [hb] at h; exact h
      | some id =>
        rw [hb] at h
        simp only [regCall] at h
        rcases getOrRegister_objs env id (fullName g name) v w with e | ⟨c, rfl, e⟩
        · rwa [e] at h
        · rw [e] at h; exact construct_owner hw env c q hq hu y o ho h
    | register name v =>
      rw [step_reg_fst, (regCall_prefix env g).2.2.1 name v] at h
      cases hb : base g with
      | none => rw [hb] at h; exact h
      | some id => rw [hb] at h; simp only [regCall] at h; rwa [(register_objs id _ v w).1] at h
    | unregister name =>
      rw [step_unregister_fst] at h
      cases hb : base g with
      | none => rw [hb] at h; exact h
      | some id => rw [hb] at h; exact stopping _ _ (unregister_stopping env id _ w) h
    | unregisterAll =>
      rw [step_unregisterAll_fst] at h
      cases hb : base g with
      | none => rw [hb] at h; exact h
      | some id => rw [hb] at h; exact stopping _ _ (unregisterAll_stopping env id w) h
    | runHealthchecks =>
      rw [step_reg_fst, (regCall_prefix env g).2.2.2.2.2] at h
      cases hb : base g with
      | none => rw [hb] at h; exact h
      | some id =>
        rw [hb] at h
        simp only [regCall] at h
        rw [fst_const, runHealthchecks_run] at h
        rcases (runAll_check_checking env (env.order (w.regs id)) w).2 y with h1 | ⟨a, b, h1, h2⟩
        · rw [← h1, h]
        · rw [h2] at h; cases h; simp [Obj.plain] at hpo

theorem Private.step {r s h m : Ref} {w : World F} (hp : Private r s h m w) (hw : w.Ok) (env : Env F) (o : Op F) (hs : ¬ uses o s) (hh : ¬ uses o h) (hm : ¬ uses o m) :
    Private r s h m (step env o w).1 := by
  have hle := (hw.step env o).2
  have hsl : s < w.nextObj := by
    obtain ⟨_, h1, -⟩ := hw.refs _ _ hp.hist
    exact hw.lt h1
  have hhl := hw.lt hp.hist
  have hml : m < w.nextObj := by
    obtain ⟨-, _, h1, -⟩ := hw.refs _ _ hp.timer
    exact hw.lt h1
  exact ⟨hle.frozen _ _ hp.timer rfl, hle.frozen _ _ hp.hist rfl,
    fun y hy => hp.ownS y (step_owner hw env o s hsl hs y _ (.inl rfl) hy),
    fun y a hy => hp.ownH y a (step_owner hw env o h hhl hh y _ (.inr ⟨a, .inl rfl⟩) hy),
    fun y a hy => hp.ownM y a (step_owner hw env o m hml hm y _ (.inr ⟨a, .inr rfl⟩) hy)⟩

/-- Other objects do not reach the private ones. -/
theorem Private.partOf {r s h m : Ref} {w : World F} (hp : Private r s h m w) (hw : w.Ok) {x : ExpDecaySample F} (hs : w.objs s = some (.sample (.exp x)))
    {mm : StandardMeter F} (hm : w.objs m = some (.meter (.std mm))) {y : Ref} (hys : y ≠ s) (hyh : y ≠ h) (hym : y ≠ m) (hyr : y ≠ r) :
    ¬ Spec.partOf w y s ∧ ¬ Spec.partOf w y m := by
  have hist_s : ∀ z, histSample w z = some s → z = h := by
    intro z hz
    unfold histSample at hz
    split at hz
    · rename_i a ha; cases hz; exact hp.ownS z ha
    · rename_i a ha; cases hz
      obtain ⟨n, b, h1⟩ := hw.refs _ _ ha
      rw [hs] at h1; simp at h1
    · simp at hz
  have hist_m : ∀ z, histSample w z ≠ some m := by
    intro z hz
    unfold histSample at hz
    split at hz
    · rename_i a ha; cases hz
      obtain ⟨o, h1, h2⟩ := hw.refs _ _ ha
      rw [hm] at h1; cases h1; simp [Obj.ty] at h2
    · rename_i a ha; cases hz
      obtain ⟨n, b, h1⟩ := hw.refs _ _ ha
      rw [hm] at h1; simp at h1
    · simp at hz
  constructor
  · rintro (h1 | h1 | h1)
    · exact hys h1.symm
    · exact hyh (hist_s y h1)
    · split at h1
      · rename_i a b hab
        obtain ⟨⟨oa, ha, hta⟩, ⟨ob, hb, htb⟩⟩ := hw.refs _ _ hab
        rcases h1 with h1 | h1 | h1
        · subst h1; rw [hs] at ha; cases ha; simp [Obj.ty] at hta
        · subst h1; rw [hs] at hb; cases hb; simp [Obj.ty] at htb
        · have := hist_s a h1; subst this
          exact hyr (hp.ownH y b hab)
      · rename_i a b hab
        obtain ⟨⟨oa, ha⟩, ⟨ob, hb⟩⟩ := hw.refs _ _ hab
        rcases h1 with h1 | h1 | h1
        · subst h1; rw [hs] at ha; simp at ha
        · subst h1; rw [hs] at hb; simp at hb
        · have := hist_s a h1; subst this
          rw [hp.hist] at ha; simp at ha
      · exact h1
  · rintro (h1 | h1 | h1)
    · exact hym h1.symm
    · exact hist_m y h1
    · split at h1
      · rename_i a b hab
        obtain ⟨⟨oa, ha, hta⟩, ⟨ob, hb, htb⟩⟩ := hw.refs _ _ hab
        rcases h1 with h1 | h1 | h1
        · subst h1; rw [hm] at ha; cases ha; simp [Obj.ty] at hta
        · subst h1; exact hyr (hp.ownM y a hab)
        · exact hist_m a h1
      · rename_i a b hab
        obtain ⟨⟨oa, ha⟩, ⟨ob, hb⟩⟩ := hw.refs _ _ hab
        rcases h1 with h1 | h1 | h1
        · subst h1; rw [hm] at ha; simp at ha
        · subst h1; rw [hm] at hb; simp at hb
        · exact hist_m a h1
      · exact h1

/-! ### The parts of a timer made by NewTimer, step by step -/

structure TimerState (r s h m : Ref) (x : ExpDecaySample F) (mm : StandardMeter F) (w : World F) : Prop where
  ok : w.Ok
  priv : Private r s h m w
  sample : w.objs s = some (.sample (.exp x))
  meter : w.objs m = some (.meter (.std mm))
  shape : x.Shape 1028

section timer
variable {r s h m : Ref} {x : ExpDecaySample F} {mm : StandardMeter F} {w : World F}

theorem TimerState.update (ht : TimerState r s h m x mm w) (env : Env F) (d : Int64) : ∃ x', x.update env.now d env.float64 = .ok x' ∧ x'.Shape 1028 ∧
    call env r (.updateD d) w =
      ({ w with objs := Function.update (Function.update (Function.update w.objs s (some (.sample (.exp { x with count := x.count + 1 })))) s (some (.sample (.exp x')))) m (some (.meter (.std (mm.mark 1 env.now)))) }, .ok .unit) := by
  obtain ⟨x', _, _, e, hs', _⟩ := ExpDecaySample.update_spec 1028 (by omega) x ht.shape env.now d env.float64
  refine ⟨x', e, hs', ?_⟩
  have hms : m ≠ s := by
    rintro rfl
    have := ht.meter
    rw [ht.sample] at this
    simp at this
  rw [call_obj ht.priv.timer]
  show ((callHist env h (.update d) >>= fun _ => callMeter env m (.mark 1)) w) = _
  have h1 : callHist env h (.update d) w = ({ w with objs := Function.update (Function.update w.objs s (some (.sample (.exp { x with count := x.count + 1 })))) s (some (.sample (.exp x'))) }, .ok .unit) := by
    rw [callHist, act_bind_getObj, ht.priv.hist]
    show callSample env s (.update d) w = _
    rw [callSample, act_bind_getObj, ht.sample]
    simp only [sampleCall, act_bind, act_setObj, act_lift, e, act_pure]
  rw [act_bind, h1]
  simp only
  rw [callMeter, act_bind_getObj]
  simp only [Function.update_of_ne hms, ht.meter]
  rfl

theorem updateSince_eq (env : Env F) (r : Ref) (ts : Instant) (w : World F) {a b : Ref} (hr : w.objs r = some (.timer (.std a b))) :
    call env r (.updateSince ts) w = call env r (.updateD (Int64.ofInt (timeSub env.now ts))) w := by
  rw [call_obj hr, call_obj hr]
  rfl

theorem TimerState.other (ht : TimerState r s h m x mm w) (env : Env F) (c : Call F) (h1 : ∀ d, c ≠ .updateD d) (h2 : ∀ ts, c ≠ .updateSince ts) (h3 : c ≠ .stop) :
    (call env r c w).1.objs s = some (.sample (.exp x)) ∧ (call env r c w).1.objs m = some (.meter (.std mm)) := by
  have hs := ht.sample
  have hm := ht.meter
  have hsl := ht.ok.lt hs
  have hml := ht.ok.lt hm
  have hh : ∀ c, callHist env h c w = histCall env h (.std s) c w := fun c => by rw [callHist, act_bind_getObj, ht.priv.hist]
  have hsa : ∀ c, callSample env s c w = sampleCall env s (.exp x) c w := fun c => by rw [callSample, act_bind_getObj, hs]
  have hme : ∀ c, callMeter env m c w = meterCall env m (.std mm) c w := fun c => by rw [callMeter, act_bind_getObj, hm]
  rw [call_obj ht.priv.timer]
  cases c with
  | updateD d => exact absurd rfl (h1 d)
  | updateSince ts => exact absurd rfl (h2 ts)
  | stop => exact absurd rfl h3
  | count =>
    show (callHist env h .count w).1.objs s = _ ∧ (callHist env h .count w).1.objs m = _
    rw [hh]
    show (callSample env s .count w).1.objs s = _ ∧ (callSample env s .count w).1.objs m = _
    rw [hsa]
    exact ⟨hs, hm⟩
  | stat c =>
    show (callHist env h (.stat c) w).1.objs s = _ ∧ (callHist env h (.stat c) w).1.objs m = _
    rw [hh]
    show (callSample env s (.stat c) w).1.objs s = _ ∧ (callSample env s (.stat c) w).1.objs m = _
    rw [hsa]
    exact ⟨hs, hm⟩
  | rates c =>
    show (callMeter env m (.rates c) w).1.objs s = _ ∧ (callMeter env m (.rates c) w).1.objs m = _
    rw [hme]
    exact ⟨hs, hm⟩
  | snapshot =>
    have e : ∃ w1 q, objCall env r (.timer (.std h m)) .snapshot w = (w1, .ok (.ref q)) ∧ Ext w w1 := by
      simp only [objCall, timerCall, act_bind, hh, histCall, hsa, sampleCall, newArr, act_alloc, act_pure, act_getObj, Function.update_self]
      rw [callMeter, act_bind_getObj]
      simp only [Function.update_of_ne (Nat.ne_of_lt hml), Function.update_of_ne (Nat.ne_of_lt (Nat.lt_succ_of_lt hml)), hm]
      simp only [meterCall, act_bind, act_alloc, act_pure, Function.update_self, Meter.snapshot, act_getObj]
      refine ⟨_, _, rfl, ?_⟩
      exact (((Ext.newArr w x.vals false).trans (Ext.alloc _ _)).trans (Ext.alloc _ _)).trans ((Ext.alloc _ _).trans (Ext.alloc _ _))
    obtain ⟨w1, q, e1, e2⟩ := e
    rw [e1]
    exact ⟨e2.keep ht.ok hs, e2.keep ht.ok hm⟩
  | _ => exact ⟨hs, hm⟩

/-- One step of a program that cannot reach the parts of the timer. -/
theorem TimerState.next (ht : TimerState r s h m x mm w) (env : Env F) (o : Op F) (hs : ¬ uses o s) (hh : ¬ uses o h) (hm : ¬ uses o m) :
    ∃ x' mm', TimerState r s h m x' mm' (step env o w).1 ∧
      ((∃ d, durations r [(env, o)] = [(env, d)] ∧ x.update env.now d env.float64 = .ok x' ∧ mm' = mm.mark 1 env.now) ∨
        (durations r [(env, o)] = [] ∧ x' = x ∧ (mm' = mm ∨ mm' = mm.tick env.now ∨ (stops w o m ∧ mm' = mm.stop)))) := by
  have hok := (ht.ok.step env o).1
  have hp := ht.priv.step ht.ok env o hs hh hm
  have hsl := ht.ok.lt ht.sample
  have hml := ht.ok.lt ht.meter
  have hms : m ≠ s := by
    rintro rfl
    have := ht.meter
    rw [ht.sample] at this
    simp at this
  -- a call on the timer itself
  have upd : ∀ d, (step env o w).1 = (call env r (.updateD d) w).1 → durations r [(env, o)] = [(env, d)] → ∃ x' mm', TimerState r s h m x' mm' (GoMetrics.step env o w).1 ∧
      ((∃ d, durations r [(env, o)] = [(env, d)] ∧ x.update env.now d env.float64 = .ok x' ∧ mm' = mm.mark 1 env.now) ∨
        (durations r [(env, o)] = [] ∧ x' = x ∧ (mm' = mm ∨ mm' = mm.tick env.now ∨ (stops w o m ∧ mm' = mm.stop)))) := by
    intro d e1 e2
    obtain ⟨x', e3, hsh, e4⟩ := ht.update env d
    rw [e1, e4] at hok hp ⊢
    refine ⟨x', mm.mark 1 env.now, ⟨hok, hp, ?_, Function.update_self .., hsh⟩, .inl ⟨d, e2, e3, rfl⟩⟩
    show Function.update _ m _ s = _
    rw [Function.update_of_ne hms.symm, Function.update_self]
  have same : durations r [(env, o)] = [] → (step env o w).1.objs s = w.objs s →
      ((step env o w).1.objs m = some (.meter (.std mm)) ∨ (step env o w).1.objs m = some (.meter (.std (mm.tick env.now))) ∨
        (stops w o m ∧ (step env o w).1.objs m = some (.meter (.std mm.stop)))) → ∃ x' mm', TimerState r s h m x' mm' (GoMetrics.step env o w).1 ∧
      ((∃ d, durations r [(env, o)] = [(env, d)] ∧ x.update env.now d env.float64 = .ok x' ∧ mm' = mm.mark 1 env.now) ∨
        (durations r [(env, o)] = [] ∧ x' = x ∧ (mm' = mm ∨ mm' = mm.tick env.now ∨ (stops w o m ∧ mm' = mm.stop)))) := by
    intro e1 e2 e3
    rw [ht.sample] at e2
    rcases e3 with e3 | e3 | ⟨e4, e3⟩
    · exact ⟨x, mm, ⟨hok, hp, e2, e3, ht.shape⟩, .inr ⟨e1, rfl, .inl rfl⟩⟩
    · exact ⟨x, _, ⟨hok, hp, e2, e3, ht.shape⟩, .inr ⟨e1, rfl, .inr (.inl rfl)⟩⟩
    · exact ⟨x, _, ⟨hok, hp, e2, e3, ht.shape⟩, .inr ⟨e1, rfl, .inr (.inr ⟨e4, rfl⟩)⟩⟩
  by_cases hr : ∃ c, o = .call r c
  · obtain ⟨c, rfl⟩ := hr
    rw [step_call_fst] at *
    by_cases h1 : ∃ d, c = .updateD d
    · obtain ⟨d, rfl⟩ := h1
      exact upd d rfl (by simp [durations])
    by_cases h2 : ∃ ts, c = .updateSince ts
    · obtain ⟨ts, rfl⟩ := h2
      exact upd _ (by rw [updateSince_eq env r ts w ht.priv.timer]) (by simp [durations])
    have hd : durations r [(env, Op.call r c)] = [] := by
      cases c <;> first | rfl | simp_all
    by_cases h3 : c = .stop
    · subst h3
      have hst := stop_stopping env r w
      refine same hd ?_ ?_
      · rcases hst s with h4 | ⟨-, m', h4, -⟩
        · exact h4
        · rw [ht.sample] at h4; simp at h4
      · rcases hst m with h4 | ⟨h5, m', h4, -, h6⟩
        · rw [h4, ht.meter]; exact .inl rfl
        · rw [ht.meter] at h4; cases h4
          exact .inr (.inr ⟨h5, h6⟩)
    · obtain ⟨h4, h5⟩ := ht.other env c (fun d e => h1 ⟨d, e⟩) (fun d e => h2 ⟨d, e⟩) h3
      exact same hd (h4.trans ht.sample.symm) (.inl h5)
  · have hd : durations r [(env, o)] = [] := by
      cases o with
      | call y c =>
        have : y ≠ r := fun e => hr ⟨c, by rw [e]⟩
        cases c <;> simp [durations, this]
      | _ => rfl
    have hno : ∀ y c, o = .call y c → ¬ Spec.partOf w y s ∧ ¬ Spec.partOf w y m := by
      rintro y c rfl
      exact ht.priv.partOf ht.ok ht.sample ht.meter (fun e => hs e) (fun e => hh e) (fun e => hm e) fun e => hr ⟨c, by rw [e]⟩
    refine same hd ?_ ?_
    · rcases step_objs w ht.ok env o s hsl with h1 | ⟨y, c, h1, h2⟩ | ⟨-, m', h1, -⟩ | ⟨-, m', h1, -⟩ | ⟨_, a, b, -, h1, -⟩
      · exact h1
      · exact absurd h2 (hno y c h1).1
      all_goals rw [ht.sample] at h1; simp at h1
    · rcases step_objs w ht.ok env o m hml with h1 | ⟨y, c, h1, h2⟩ | ⟨-, m', h1, -, h2⟩ | ⟨h0, m', h1, -, h2⟩ | ⟨_, a, b, -, h1, -⟩
      · exact .inl (h1.trans ht.meter)
      · exact absurd h2 (hno y c h1).2
      · rw [ht.meter] at h1; cases h1; exact .inr (.inl h2)
      · rw [ht.meter] at h1; cases h1; exact .inr (.inr ⟨h0, h2⟩)
      · rw [ht.meter] at h1; simp at h1

end timer

end GoMetrics
