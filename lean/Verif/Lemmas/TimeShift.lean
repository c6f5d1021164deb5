import Verif.Lemmas.WorldSim
import Verif.Model.GetAll
import Verif.Model.Json
import Verif.Model.Export
import Verif.Model.Librato
import Verif.Spec.TimeShift

/-! The operations commute with moving all instants (C105). -/

set_option linter.unusedSimpArgs false
set_option linter.unnecessarySeqFocus false
set_option linter.unusedSectionVars false
set_option linter.unnecessarySimpa false

namespace GoMetrics.Shift
open GoMetrics GoMetrics.Spec

variable {F : Type} [GoFloat F] [GoSqrt F] [GoExp F] {α β : Type}

/-- All instants in an object moved by `d`. -/
def expLater (d : Int) (s : ExpDecaySample F) : ExpDecaySample F := { s with t0 := s.t0 + d, t1 := s.t1 + d }
def stdLater (d : Int) (m : StandardMeter F) : StandardMeter F := { m with startTime := m.startTime + d }
def sampleLater (d : Int) : SampleV F → SampleV F
  | .exp s => .exp (expLater d s)
  | s => s
def meterLater (d : Int) : Meter F → Meter F
  | .std m => .std (stdLater d m)
  | m => m
def objLater (d : Int) : Obj F → Obj F
  | .sample s => .sample (sampleLater d s)
  | .meter m => .meter (meterLater d m)
  | o => o
def later (d : Int) (w : World F) : World F := { w with objs := fun r => (w.objs r).map (objLater d) }

variable {d : Int}

theorem timeSub_later (t u : Int) : timeSub (t + d) (u + d) = timeSub t u := by
  unfold timeSub; rw [show t + d - (u + d) = t - u by omega]

/-- `b` does after moving what `a` does before. -/
structure Sh (d : Int) (a b : Act F α) : Prop where
  eq : ∀ w, b (later d w) = (later d (a w).1, (a w).2)

theorem sh_pure (x : α) : Sh d (pure x : Act F α) (pure x) := ⟨fun _ => rfl⟩
theorem sh_fail (p : Panic) : Sh d (Act.fail p : Act F α) (Act.fail p) := ⟨fun _ => rfl⟩
theorem sh_lift (r : Res α) : Sh d (Act.lift r : Act F α) (Act.lift r) := ⟨fun _ => rfl⟩
theorem sh_bind {x y : Act F α} {f g : α → Act F β} (h : Sh d x y) (hf : ∀ a, Sh d (f a) (g a)) : Sh d (x >>= f) (y >>= g) := by
  refine ⟨fun w => ?_⟩
  rw [act_bind, act_bind, h.eq w]
  rcases x w with ⟨w', _ | a⟩
  · rfl
  · exact (hf a).eq w'
theorem sh_get {r : Ref} {f g : Option (Obj F) → Act F β} (hf : ∀ o, Sh d (f o) (g (o.map (objLater d)))) : Sh d (getObj r >>= f) (getObj r >>= g) :=
  ⟨fun w => (hf (w.objs r)).eq w⟩
theorem later_update (w : World F) (r : Ref) (o : Obj F) :
    (fun q => (Function.update w.objs r (some o) q).map (objLater d)) = Function.update (fun q => (w.objs q).map (objLater d)) r (some (objLater d o)) := by
  funext q
  rcases eq_or_ne q r with rfl | h
  · simp
  · simp [Function.update_of_ne h]
theorem sh_set (r : Ref) (o o' : Obj F) (h : o' = objLater d o) : Sh d (setObj r o) (setObj r o') := by
  subst h; refine ⟨fun w => ?_⟩; simp only [setObj, later, later_update]
theorem sh_alloc (o o' : Obj F) (h : o' = objLater d o) : Sh d (alloc o) (alloc o') := by
  subst h; refine ⟨fun w => ?_⟩; simp only [alloc, later, later_update]
theorem sh_getArr (a : ArrId) : Sh d (getArr a : Act F _) (getArr a) := ⟨fun _ => rfl⟩
theorem sh_sortArr (a : ArrId) : Sh d (sortArr a : Act F _) (sortArr a) := ⟨fun _ => rfl⟩
theorem sh_newArr (l : List Int64) (b : Bool) : Sh d (newArr l b : Act F _) (newArr l b) := ⟨fun _ => rfl⟩
theorem sh_add (r : Ref) : Sh d (arbiterAdd r : Act F _) (arbiterAdd r) := ⟨fun _ => rfl⟩
theorem sh_del (r : Ref) : Sh d (arbiterDelete r : Act F _) (arbiterDelete r) := ⟨fun _ => rfl⟩
theorem sh_getReg (i : Nat) : Sh d (getReg i : Act F _) (getReg i) := ⟨fun _ => rfl⟩
theorem sh_setReg (i : Nat) (m : List (Str × Ref)) : Sh d (setReg i m : Act F _) (setReg i m) := ⟨fun _ => rfl⟩
theorem sh_ref (o o' : Obj F) (h : o' = objLater d o) : Sh d (do return .ref (← alloc o) : Act F (Out F)) (do return .ref (← alloc o')) :=
  sh_bind (sh_alloc _ _ h) fun _ => sh_pure _
theorem sh_set_unit (r : Ref) (o o' : Obj F) (h : o' = objLater d o) : Sh d (do setObj r o; return .unit : Act F (Out F)) (do setObj r o'; return .unit) :=
  sh_bind (sh_set _ _ _ h) fun _ => sh_pure _
theorem sh_set_lift (r : Ref) (x : Res α) (f f' : α → Obj F) (h : ∀ a, f' a = objLater d (f a)) :
    Sh d (do setObj r (f (← Act.lift x)); return .unit : Act F (Out F)) (do setObj r (f' (← Act.lift x)); return .unit) :=
  sh_bind (sh_lift _) fun a => sh_set_unit _ _ _ (h a)

theorem clear_later (s : ExpDecaySample F) (t : Int) : (expLater d s).clear (t + d) = expLater d (s.clear t) := by
  simp only [ExpDecaySample.clear, expLater]; congr 1; omega

theorem update_later (s : ExpDecaySample F) (t : Int) (v : Int64) (u : F) :
    (expLater d s).update (t + d) v u = (s.update t v u).map (expLater d) := by
  have hk : ∀ t0, ExpDecaySample.key s.alpha (t0 + d) (t + d) u = ExpDecaySample.key s.alpha t0 t u := fun t0 => by
    simp only [ExpDecaySample.key, timeSub_later]
  have hf : ∀ t0, ExpDecaySample.factor s.alpha (t0 + d) (t + d) = ExpDecaySample.factor s.alpha t0 t := fun t0 => by
    simp only [ExpDecaySample.factor, timeSub_later]
  have h1 : t + d + hour = t + hour + d := by omega
  have main : ∀ h : Heap F, ((do
      let h ← h.push { k := ExpDecaySample.key s.alpha s.t0 t u, v := v }
      if t + d > s.t1 + d then
        let h ← ExpDecaySample.rescaleLoop (ExpDecaySample.factor s.alpha s.t0 t) h.s.length 0 h.clear
        return { s with count := s.count + 1, t0 := t + d, t1 := t + hour + d, values := h }
      else return { s with count := s.count + 1, t0 := s.t0 + d, t1 := s.t1 + d, values := h }) : Res (ExpDecaySample F)) = Except.map (expLater d) (do
      let h ← h.push { k := ExpDecaySample.key s.alpha s.t0 t u, v := v }
      if t > s.t1 then
        let h ← ExpDecaySample.rescaleLoop (ExpDecaySample.factor s.alpha s.t0 t) h.s.length 0 h.clear
        return { s with count := s.count + 1, t0 := t, t1 := t + hour, values := h }
      else return { s with count := s.count + 1, values := h }) := by
    intro h
    rcases h.push _ with _ | h
    · rfl
    · by_cases hb : t > s.t1
      · have hb' : t + d > s.t1 + d := by omega
        simp only [bind, Except.bind, if_pos hb, if_pos hb']
        rcases ExpDecaySample.rescaleLoop _ _ _ _ with _ | h <;> rfl
      · have hb' : ¬ t + d > s.t1 + d := by omega
        simp only [bind, Except.bind, if_neg hb, if_neg hb']
        rfl
  by_cases hr : (s.values.size : Int) = s.reservoirSize
  · simp only [ExpDecaySample.update, expLater, hk, hf, h1, hr, ↓reduceIte]
    rcases s.values.pop with _ | x
    · rfl
    · exact main x.2
  · simp only [ExpDecaySample.update, expLater, hk, hf, h1, hr, ↓reduceIte]
    exact main s.values

theorem sh_sampleCall (env : Env F) (r : Ref) (s : SampleV F) (c : Call F) :
    Sh d (sampleCall env r s c) (sampleCall (envLater d env) r (sampleLater d s) c) := by
  cases s with
  | exp s =>
    cases c <;> try exact sh_pure _
    · exact sh_set_unit _ _ _ (by simp only [objLater, sampleLater, envLater, clear_later])
    · refine sh_bind (sh_set _ _ _ rfl) fun _ => ?_
      refine ⟨fun w => ?_⟩
      show ((Act.lift ((expLater d s).update (env.now + d) _ env.float64) >>= fun s' => _) : Act F _) _ = _
      rw [update_later, act_bind, act_bind]
      rcases s.update env.now _ env.float64 with _ | s'
      · rfl
      · exact (sh_set_unit (d := d) r (.sample (.exp s')) _ rfl).eq w
    · exact sh_lift _
    · exact sh_bind (sh_newArr _ _) fun _ => sh_pure _
    · exact sh_bind (sh_newArr _ _) fun _ => sh_ref _ _ rfl
  | uniform s =>
    cases c <;> try exact sh_pure _
    · exact sh_set_unit _ _ _ rfl
    · exact sh_bind (sh_set _ _ _ rfl) fun _ => sh_bind (sh_lift _) fun _ => sh_set_unit _ _ _ rfl
    · simp only [sampleCall, sampleLater]
      split
      · exact sh_bind (sh_set _ _ _ rfl) fun _ => sh_lift _
      · exact sh_lift _
    · exact sh_bind (sh_newArr _ _) fun _ => sh_pure _
    · exact sh_bind (sh_newArr _ _) fun _ => sh_ref _ _ rfl
  | snap n a =>
    cases c <;> try first | exact sh_pure _ | exact sh_fail _
    · simp only [sampleCall, sampleLater]
      refine sh_bind (sh_getArr _) fun _ => ?_
      split
      · exact sh_bind (sh_sortArr _) fun _ => sh_lift _
      · exact sh_lift _
    · exact sh_bind (sh_getArr _) fun _ => sh_pure _
    · exact sh_bind (sh_getArr _) fun _ => sh_bind (sh_newArr _ _) fun _ => sh_pure _
  | nil =>
    cases c <;> try exact sh_pure _
    exact sh_bind (sh_newArr _ _) fun _ => sh_pure _

theorem sh_callSample (env : Env F) (r : Ref) (c : Call F) : Sh d (callSample env r c) (callSample (envLater d env) r c) :=
  sh_get fun o => by
    rcases o with _ | o
    · exact sh_pure _
    · cases o <;> first | exact sh_pure _ | exact sh_sampleCall ..

theorem sh_histCall (env : Env F) (r : Ref) (h : HistV) (c : Call F) : Sh d (histCall env r h c) (histCall (envLater d env) r h c) := by
  cases h with
  | std s =>
    cases c <;> try first | exact sh_pure _ | exact sh_callSample ..
    refine sh_bind (sh_callSample ..) fun o => ?_
    cases o <;> try exact sh_pure _
    refine sh_get fun o => ?_
    rcases o with _ | o
    · exact sh_fail _
    · cases o <;> try exact sh_fail _
      rename_i s
      cases s <;> first | exact sh_fail _ | exact sh_ref _ _ rfl
  | snap s => cases c <;> first | exact sh_pure _ | exact sh_callSample .. | exact sh_fail _
  | nil => cases c <;> first | exact sh_pure _ | exact sh_ref _ _ rfl

theorem sh_callHist (env : Env F) (r : Ref) (c : Call F) : Sh d (callHist env r c) (callHist (envLater d env) r c) :=
  sh_get fun o => by
    rcases o with _ | o
    · exact sh_pure _
    · cases o <;> first | exact sh_pure _ | exact sh_histCall ..

theorem mark_later (m : StandardMeter F) (n : Int64) (t : Int) : (stdLater d m).mark n (t + d) = stdLater d (m.mark n t) := by
  cases h : m.stopped <;> simp [StandardMeter.mark, stdLater, h, StandardMeter.updateSnapshot, StandardMeter.meanRate, timeSub_later]
theorem tick_later (m : StandardMeter F) (t : Int) : (stdLater d m).tick (t + d) = stdLater d (m.tick t) := by
  simp only [StandardMeter.tick, stdLater, StandardMeter.updateSnapshot, StandardMeter.meanRate, timeSub_later]

theorem sh_meterCall (env : Env F) (r : Ref) (m : Meter F) (c : Call F) :
    Sh d (meterCall env r m c) (meterCall (envLater d env) r (meterLater d m) c) := by
  cases m with
  | std m =>
    cases c <;> try exact sh_pure _
    · exact sh_set_unit r (.meter (.std (m.mark _ env.now))) (.meter (.std ((stdLater d m).mark _ (env.now + d)))) (by simp only [objLater, meterLater, mark_later])
    · simp only [meterCall, meterLater, stdLater]
      split
      · exact sh_pure _
      · exact sh_bind (sh_set _ _ _ rfl) fun _ => sh_bind (sh_del _) fun _ => sh_pure _
    · exact sh_ref _ _ rfl
  | snap s =>
    cases c <;> try exact sh_pure _
    exact sh_fail _
  | nil =>
    cases c <;> try exact sh_pure _
    exact sh_set_unit r (.meter .nil) (.meter .nil) rfl

theorem sh_callMeter (env : Env F) (r : Ref) (c : Call F) : Sh d (callMeter env r c) (callMeter (envLater d env) r c) :=
  sh_get fun o => by
    rcases o with _ | o
    · exact sh_pure _
    · cases o <;> first | exact sh_pure _ | exact sh_meterCall ..

/-- The same call with the instant passed to `UpdateSince` moved. -/
def callLater (d : Int) : Call F → Call F
  | .updateSince ts => .updateSince (ts + d)
  | c => c

theorem sh_timerCall (env : Env F) (r : Ref) (t : TimerV) (c : Call F) :
    Sh d (timerCall env r t c) (timerCall (envLater d env) r t (callLater d c)) := by
  cases t with
  | std h m =>
    cases c <;> try first | exact sh_pure _ | exact sh_callHist .. | exact sh_callMeter ..
    · exact sh_bind (sh_callHist ..) fun _ => sh_callMeter ..
    · simp only [timerCall, callLater, envLater, timeSub_later]
      exact sh_bind (sh_callHist ..) fun _ => sh_callMeter ..
    · refine sh_bind (sh_callHist ..) fun o => ?_
      cases o <;> try exact sh_pure _
      refine sh_get fun o => ?_
      rcases o with _ | o
      · exact sh_fail _
      · cases o <;> try exact sh_fail _
        rename_i s
        cases s <;> try exact sh_fail _
        refine sh_bind (sh_callMeter ..) fun o => ?_
        cases o <;> try exact sh_pure _
        refine sh_get fun o => ?_
        rcases o with _ | o
        · exact sh_fail _
        · cases o <;> try exact sh_fail _
          rename_i s
          cases s <;> first | exact sh_fail _ | exact sh_ref _ _ rfl
  | snap h m => cases c <;> first | exact sh_pure _ | exact sh_fail _ | exact sh_callHist .. | exact sh_callMeter ..
  | nil => cases c <;> exact sh_pure _

theorem sh_call' (env : Env F) (r : Ref) (c : Call F) : Sh d (call env r c) (call (envLater d env) r (callLater d c)) :=
  sh_get fun o => by
    rcases o with _ | o
    · exact sh_pure _
    · cases o with
      | counter x => cases c <;> first | exact sh_pure _ | exact sh_bind (sh_lift _) fun _ => sh_set_unit _ _ _ rfl | exact sh_ref _ _ rfl
      | gauge x => cases c <;> first | exact sh_pure _ | exact sh_bind (sh_lift _) fun _ => sh_set_unit _ _ _ rfl | exact sh_ref _ _ rfl
      | gaugeF x => cases c <;> first | exact sh_pure _ | exact sh_bind (sh_lift _) fun _ => sh_set_unit _ _ _ rfl | exact sh_ref _ _ rfl
      | health x => cases c <;> first | exact sh_pure _ | exact sh_set_unit _ _ _ rfl
      | sample x => cases c <;> first | exact sh_sampleCall .. | (cases x <;> exact sh_pure _)
      | hist x => cases c <;> first | exact sh_histCall .. | (cases x <;> exact sh_pure _)
      | ewma x => cases c <;> first | exact sh_pure _ | exact sh_bind (sh_lift _) fun _ => sh_set_unit _ _ _ rfl | exact sh_ref _ _ rfl
      | meter x => cases c <;> exact sh_meterCall ..
      | timer x => exact sh_timerCall ..

theorem sh_call (env : Env F) (r : Ref) (c : Call F) (hc : callLater d c = c) : Sh d (call env r c) (call (envLater d env) r c) := by
  have := sh_call' (d := d) env r c
  rwa [hc] at this

/-! ### Constructors -/

theorem sh_if {x y x' y' : Act F α} (b : World F → Bool) (hb : ∀ w, b (later d w) = b w) (h : Sh d x x') (h' : Sh d y y') :
    Sh d (fun w => if b w then x w else y w) (fun w => if b w then x' w else y' w) := by
  refine ⟨fun w => ?_⟩
  simp only [hb]
  split
  · exact h.eq w
  · exact h'.eq w

theorem sh_newExp (env : Env F) (k : Int) (a : F) : Sh d (newExp env k a) (newExp (envLater d env) k a) := by
  refine sh_if (fun w => w.useNil) (fun _ => rfl) (sh_alloc _ _ rfl) ?_
  refine ⟨fun w => ?_⟩
  simp only [ExpDecaySample.new, envLater]
  rcases Heap.new (F := F) k with _ | h
  · rfl
  · refine (sh_alloc (d := d) (.sample (.exp _)) (.sample (.exp _)) ?_).eq w
    simp only [objLater, sampleLater, expLater]
    congr 3
    omega

theorem sh_newHist (s : Ref) : Sh (F := F) d (newHist s) (newHist s) := by
  refine sh_if (fun w => w.useNil) (fun _ => rfl) (sh_alloc _ _ rfl) ?_
  refine ⟨fun w => ?_⟩
  simp only [show (later d w).objs s = (w.objs s).map (objLater d) from rfl]
  rcases h : w.objs s with _ | o
  · rfl
  · cases o <;> first | rfl | exact (sh_alloc (d := d) (.hist (.std s)) (.hist (.std s)) rfl).eq w

theorem sh_newMeter (env : Env F) : Sh d (newMeter env) (newMeter (envLater d env)) :=
  sh_if (fun w => w.useNil) (fun _ => rfl) (sh_alloc _ _ rfl) (sh_bind (sh_alloc _ _ rfl) fun _ => sh_bind (sh_add _) fun _ => sh_pure _)

theorem sh_newTimer (h m : Ref) : Sh (F := F) d (newTimer h m) (newTimer h m) := by
  refine sh_if (fun w => w.useNil) (fun _ => rfl) (sh_alloc _ _ rfl) ?_
  refine ⟨fun w => ?_⟩
  simp only [show ∀ s, (later d w).objs s = (w.objs s).map (objLater d) from fun _ => rfl]
  rcases h1 : w.objs h with _ | o
  · rfl
  · rcases h2 : w.objs m with _ | o'
    · cases o <;> rfl
    · cases o <;> cases o' <;> first | rfl | exact (sh_alloc (d := d) (.timer (.std h m)) (.timer (.std h m)) rfl).eq w

theorem sh_construct (env : Env F) (c : NewOp F) : Sh d (construct env c) (construct (envLater d env) c) := by
  cases c with
  | counter => exact ⟨fun w => (sh_alloc (d := d) (.counter (Counter.new w.useNil)) _ rfl).eq w⟩
  | gauge => exact ⟨fun w => (sh_alloc (d := d) (.gauge (Gauge.new w.useNil)) _ rfl).eq w⟩
  | funcGauge f => exact ⟨fun w => (sh_alloc (d := d) (.gauge (Gauge.newFunctional w.useNil f)) _ rfl).eq w⟩
  | gaugeF => exact ⟨fun w => (sh_alloc (d := d) (.gaugeF (GaugeF.new w.useNil)) _ rfl).eq w⟩
  | funcGaugeF f => exact ⟨fun w => (sh_alloc (d := d) (.gaugeF (GaugeF.newFunctional w.useNil f)) _ rfl).eq w⟩
  | health f => exact ⟨fun w => (sh_alloc (d := d) (.health (Health.new w.useNil f)) _ rfl).eq w⟩
  | uniform k => exact sh_if (fun w => w.useNil) (fun _ => rfl) (sh_alloc _ _ rfl) (sh_bind (sh_lift _) fun _ => sh_alloc _ _ rfl)
  | exp k a => exact sh_newExp env k a
  | sampleSnap n a => exact sh_if (fun w => w.shared a) (fun _ => rfl) (sh_alloc _ _ rfl) (sh_bind (sh_newArr _ _) fun _ => sh_alloc _ _ rfl)
  | hist s => exact sh_newHist s
  | ewma a => exact ⟨fun w => (sh_alloc (d := d) (.ewma (Ewma.new w.useNil a)) _ rfl).eq w⟩
  | meter => exact sh_newMeter env
  | timer =>
    exact sh_if (fun w => w.useNil) (fun _ => rfl) (sh_alloc _ _ rfl)
      (sh_bind (sh_newExp ..) fun _ => sh_bind (sh_newHist _) fun _ => sh_bind (sh_newMeter _) fun _ => sh_newTimer ..)
  | customTimer h m => exact sh_newTimer h m

theorem sh_runAll {f g : α → Act F Unit} (h : ∀ a, Sh d (f a) (g a)) : ∀ l, Sh d (runAll f l) (runAll g l)
  | [] => sh_pure _
  | a :: l => sh_bind (h a) fun _ => sh_runAll h l

theorem sh_tickMeters (env : Env F) : Sh d (tickMeters env) (tickMeters (envLater d env)) := by
  refine ⟨fun w => ?_⟩
  refine (sh_runAll (d := d) (f := tickOne env) (g := tickOne (envLater d env)) (fun r => sh_get fun o => ?_) (env.order w.meters)).eq w
  rcases o with _ | o
  · exact sh_pure _
  · cases o <;> try exact sh_pure _
    rename_i m
    refine sh_set _ _ _ ?_
    cases m <;> simp [objLater, meterLater, Meter.tick, envLater, tick_later]

/-! ### Registries -/

theorem isMetric_later (o : Obj F) : (objLater d o).isMetric = o.isMetric := by cases o <;> rfl
theorem stoppable_later (o : Obj F) : (objLater d o).stoppable = o.stoppable := by cases o <;> rfl

theorem sh_register (id : Nat) (name : Str) (v : Val F) : Sh d (register id name v) (register id name v) := by
  refine sh_bind (sh_getReg _) fun m => ?_
  split
  · exact sh_pure _
  · split
    · refine sh_get fun o => ?_
      rcases o with _ | o
      · exact sh_pure _
      · simp only [Option.map_some, isMetric_later]
        split
        · exact sh_bind (sh_setReg _ _) fun _ => sh_pure _
        · exact sh_pure _
    · exact sh_pure _

theorem sh_getOrRegister (env : Env F) (id : Nat) (name : Str) (v : Val F) :
    Sh d (getOrRegister env id name v) (getOrRegister (envLater d env) id name v) := by
  refine sh_bind (sh_getReg _) fun m => ?_
  split
  · exact sh_pure _
  · cases v with
    | ctor c => exact sh_bind (sh_construct ..) fun _ => sh_bind (sh_register ..) fun _ => sh_pure _
    | otherFn => exact sh_pure _
    | badFn => exact sh_fail _
    | obj r => exact sh_bind (sh_register ..) fun _ => sh_pure _
    | other => exact sh_pure _

theorem sh_unregister (env : Env F) (id : Nat) (name : Str) : Sh d (unregister env id name) (unregister (envLater d env) id name) := by
  refine sh_bind (sh_bind (sh_getReg _) fun m => ?_) fun _ => sh_bind (sh_getReg _) fun _ => sh_setReg _ _
  split
  · exact sh_pure _
  · refine sh_get fun o => ?_
    rcases o with _ | o
    · exact sh_pure _
    · simp only [Option.map_some, stoppable_later]
      split
      · exact sh_bind (sh_call _ _ _ rfl) fun _ => sh_pure _
      · exact sh_pure _

theorem sh_regCall (env : Env F) : ∀ (g : Reg) (o : RegOp F), Sh d (regCall env g o) (regCall (envLater d env) g o)
  | .std id, .get name => sh_bind (sh_getReg _) fun m => by split <;> exact sh_pure _
  | .std id, .getOrRegister name v => sh_getOrRegister ..
  | .std id, .register name v => sh_register ..
  | .std id, .unregister name => sh_bind (sh_unregister ..) fun _ => sh_pure _
  | .std id, .unregisterAll => sh_bind (sh_bind (sh_getReg _) fun m => sh_runAll (fun _ => sh_unregister ..) _) fun _ => sh_pure _
  | .std id, .runHealthchecks =>
    sh_bind (sh_bind (sh_getReg _) fun m => sh_runAll (fun e => sh_get fun o => by
      rcases o with _ | o
      · exact sh_pure _
      · cases o <;> first | exact sh_pure _ | exact sh_bind (sh_call _ _ _ rfl) fun _ => sh_pure _) _) fun _ => sh_pure _
  | .prefixed u p, .get name => sh_regCall env u _
  | .prefixed u p, .getOrRegister name v => sh_regCall env u _
  | .prefixed u p, .register name v => sh_regCall env u _
  | .prefixed u p, .unregister name => sh_regCall env u _
  | .prefixed u _, .unregisterAll => sh_regCall env u _
  | .prefixed u _, .runHealthchecks => sh_regCall env u _
  | .foreign, _ => sh_pure _

theorem sh_step (env : Env F) (o : Op F) : Sh d (step env o) (step (envLater d env) (opLater d o)) := by
  cases o with
  | setNil b => exact ⟨fun _ => rfl⟩
  | new c => exact sh_bind (sh_construct ..) fun _ => sh_pure _
  | call r c =>
    have : step (envLater d env) (opLater d (.call r c)) = step (envLater d env) (.call r (callLater d c)) := by cases c <;> rfl
    rw [this]
    exact sh_bind (sh_call' ..) fun _ => sh_pure _
  | slice o =>
    refine sh_bind ?_ fun _ => sh_pure _
    cases o with
    | make l => exact sh_bind (sh_newArr _ _) fun _ => sh_pure _
    | set a i v =>
      refine ⟨fun w => ?_⟩
      show (if w.shared a then _ else _) = _
      simp only [sliceOp]
      split <;> rfl
  | tick => exact sh_bind (sh_tickMeters _) fun _ => sh_pure _
  | reg g o => exact sh_bind (sh_regCall ..) fun _ => sh_pure _

theorem results_later (l : List (Env F × Op F)) (w : World F) : results (later d w) (historyLater d l) = results w l := by
  induction l generalizing w with
  | nil => rfl
  | cons x l ih =>
    show (step (envLater d x.1) (opLater d x.2) (later d w)).2 :: results (step (envLater d x.1) (opLater d x.2) (later d w)).1 _ = _
    rw [(sh_step x.1 x.2).eq w]
    exact congrArg _ (ih _)

theorem run_later (l : List (Env F × Op F)) (w : World F) : (later d w).run (historyLater d l) = later d (w.run l) := by
  induction l generalizing w with
  | nil => rfl
  | cons x l ih =>
    show (step (envLater d x.1) (opLater d x.2) (later d w)).1.run _ = _
    rw [(sh_step x.1 x.2).eq w]
    exact ih _

/-! ### Exports -/

/-- All calls but `UpdateSince`. -/
def plain : Call F → Bool
  | .updateSince _ => false
  | _ => true

theorem sh_plain (env : Env F) (r : Ref) (c : Call F) (hc : plain c = true) : Sh d (call env r c) (call (envLater d env) r c) :=
  sh_call env r c (by cases c <;> first | rfl | exact absurd hc (by simp [plain]))

/-- `g` does after moving what `f` does before. -/
def CSh (d : Int) {U : Type} (f g : Callback F U) : Prop :=
  ∀ name r (w : World F) u, g name r (later d w, u) = ((later d (f name r (w, u)).1.1, (f name r (w, u)).1.2), (f name r (w, u)).2)

theorem csh_visit {U : Type} {f g : Callback F U} (h : CSh d f g) (l : List (Str × Ref)) (w : World F) (u : U) :
    visit g l (later d w, u) = ((later d (visit f l (w, u)).1.1, (visit f l (w, u)).1.2), (visit f l (w, u)).2) := by
  induction l generalizing w u with
  | nil => rfl
  | cons e l ih =>
    simp only [visit, h e.1 e.2 w u]
    rcases f e.1 e.2 (w, u) with ⟨⟨w', u'⟩, _ | p⟩
    · exact ih w' u'
    · rfl

theorem sh_eachList (env : Env F) (r : Reg) : Sh d (eachList env r) (eachList (envLater d env) r) := by
  cases r with
  | std id => exact sh_bind (sh_getReg _) fun _ => sh_pure _
  | prefixed u q =>
    simp only [eachList]
    split
    · exact sh_fail _
    · exact sh_bind (sh_getReg _) fun _ => sh_pure _
  | foreign => exact sh_pure _

theorem csh_each {U : Type} {f g : Callback F U} (h : CSh d f g) (env : Env F) (r : Reg) (w : World F) (u : U) :
    each (envLater d env) r g (later d w, u) = ((later d (each env r f (w, u)).1.1, (each env r f (w, u)).1.2), (each env r f (w, u)).2) := by
  simp only [each, (sh_eachList env r).eq w]
  rcases eachList env r w with ⟨w', _ | _ | l⟩
  · rfl
  · rfl
  · exact csh_visit h l w' u

def exprPlain : Expr F → Bool
  | .get c => plain c
  | .ps _ | .const _ => true
  | .float e | .int e | .divInt e _ | .divFloat e _ => exprPlain e
def argPlain : ArgExpr F → Bool
  | .val e => exprPlain e
  | _ => true
def stmtPlain : Stmt F → Bool
  | .printf _ l => l.all argPlain
  | .postCount _ _ e | .postValue _ _ e => exprPlain e

theorem sh_expr (env : Env F) (x : Ref) (ps : List F) : ∀ e : Expr F, exprPlain e = true → Sh d (e.eval env x ps) (e.eval (envLater d env) x ps)
  | .get c, h => sh_bind (sh_plain env x c h) fun _ => sh_pure _
  | .ps i, _ => sh_lift _
  | .const v, _ => sh_pure _
  | .float e, h => sh_bind (sh_expr env x ps e h) fun _ => sh_pure _
  | .int e, h => sh_expr env x ps e h
  | .divInt e _, h => sh_bind (sh_expr env x ps e h) fun _ => sh_lift _
  | .divFloat e _, h => sh_bind (sh_expr env x ps e h) fun _ => sh_pure _

theorem sh_args (env : Env F) (name : Str) (x : Ref) (ps : List F) : ∀ l : List (ArgExpr F), l.all argPlain = true →
    Sh d (evalArgs env name x ps l) (evalArgs (envLater d env) name x ps l)
  | [], _ => sh_pure _
  | a :: l, h => by
    rw [List.all_cons, Bool.and_eq_true] at h
    refine sh_bind ?_ fun _ => sh_bind (sh_args env name x ps l h.2) fun _ => sh_pure _
    cases a with
    | name => exact sh_pure _
    | str s => exact sh_pure _
    | val e => exact sh_bind (sh_expr env x ps e h.1) fun _ => sh_pure _

theorem sh_stmt (env : Env F) (name : Str) (x : Ref) (ps : List F) (s : Stmt F) (h : stmtPlain s = true) :
    Sh d (s.exec env name x ps) (s.exec (envLater d env) name x ps) := by
  cases s with
  | printf f l => exact sh_bind (sh_args env name x ps l h) fun _ => sh_pure _
  | postCount a b e => exact sh_bind (sh_expr env x ps e h) fun _ => sh_pure _
  | postValue a b e => exact sh_bind (sh_expr env x ps e h) fun _ => sh_pure _

theorem sh_runStmts (env : Env F) (name : Str) (x : Ref) (ps : List F) (l : List (Stmt F)) (h : l.all stmtPlain = true) (w : World F) (u : List (Event F)) :
    runStmts (envLater d env) name x ps l (later d w, u) =
      ((later d (runStmts env name x ps l (w, u)).1.1, (runStmts env name x ps l (w, u)).1.2), (runStmts env name x ps l (w, u)).2) := by
  induction l generalizing w u with
  | nil => rfl
  | cons s l ih =>
    rw [List.all_cons, Bool.and_eq_true] at h
    simp only [runStmts, (sh_stmt env name x ps s h.1).eq w]
    rcases s.exec env name x ps w with ⟨w', p | ev⟩
    · rfl
    · exact ih h.2 w' _

theorem sh_snapshotOf (env : Env F) (r : Ref) : Sh d (snapshotOf env r) (snapshotOf (envLater d env) r) :=
  sh_bind (sh_plain _ _ _ rfl) fun o => by cases o <;> exact sh_pure _

theorem sh_prepare (env : Env F) (c : Case F) (r : Ref) : Sh d (c.prepare env r) (c.prepare (envLater d env) r) := by
  have hp : ∀ (x : Ref) (l : List F), Sh d (do
      match ← call env x (.stat (.percentiles l)) with
      | .floats ps => return (x, ps)
      | _ => return (x, []) : Act F (Ref × List F)) (do
      match ← call (envLater d env) x (.stat (.percentiles l)) with
      | .floats ps => return (x, ps)
      | _ => return (x, [])) := fun x l => sh_bind (sh_plain _ _ _ rfl) fun o => by cases o <;> exact sh_pure _
  have hc : Sh d (call env r .check) (call (envLater d env) r .check) := sh_plain _ _ _ rfl
  obtain ⟨chk, snp, pc, body⟩ := c
  cases chk <;> cases snp <;> cases pc
  · exact sh_pure _
  · exact hp r _
  · exact sh_bind (sh_snapshotOf env r) fun _ => sh_pure _
  · exact sh_bind (sh_snapshotOf env r) fun x => hp x _
  · exact sh_bind hc fun _ => sh_pure _
  · exact sh_bind hc fun _ => hp r _
  · exact sh_bind hc fun _ => sh_bind (sh_snapshotOf env r) fun _ => sh_pure _
  · exact sh_bind hc fun _ => sh_bind (sh_snapshotOf env r) fun x => hp x _

/-- A type switch that looks at the kind of the metric only and does not call `UpdateSince`. -/
structure Blind (sw : Obj F → Option (Case F)) : Prop where
  kind : ∀ d o, sw (objLater d o) = sw o
  calls : ∀ o c, sw o = some c → c.body.all stmtPlain = true

theorem csh_export (env : Env F) {sw : Obj F → Option (Case F)} (h : Blind sw) : CSh d (exportMetric env sw) (exportMetric (envLater d env) sw) := by
  intro name r w u
  simp only [exportMetric, show (later d w).objs r = (w.objs r).map (objLater d) from rfl]
  rcases w.objs r with _ | o
  · rfl
  · simp only [Option.map_some, h.kind]
    rcases hc : sw o with _ | c
    · rfl
    · simp only [runCase, (sh_prepare env c r).eq w]
      rcases c.prepare env r w with ⟨w', p | ⟨x, ps⟩⟩
      · rfl
      · exact sh_runStmts env name x ps c.body (h.calls o c hc) w' u

theorem blind_writer : Blind (writerSwitch : Obj F → _) :=
  ⟨fun _ o => by cases o <;> rfl, fun o c h => by cases o <;> simp only [writerSwitch, Option.some.injEq, reduceCtorEq] at h <;> subst h <;> rfl⟩
theorem blind_log (du : F) (sfx : Str) : Blind (logSwitch du sfx) :=
  ⟨fun _ o => by cases o <;> rfl, fun o c h => by cases o <;> simp only [logSwitch, Option.some.injEq, reduceCtorEq] at h <;> subst h <;> rfl⟩
theorem blind_syslog : Blind (syslogSwitch : Obj F → _) :=
  ⟨fun _ o => by cases o <;> rfl, fun o c h => by cases o <;> simp only [syslogSwitch, Option.some.injEq, reduceCtorEq] at h <;> subst h <;> rfl⟩
theorem blind_stathat (key : Str) : Blind (stathatSwitch key : Obj F → _) :=
  ⟨fun _ o => by cases o <;> rfl, fun o c h => by cases o <;> simp only [stathatSwitch, Option.some.injEq, reduceCtorEq] at h <;> subst h <;> rfl⟩
theorem blind_openTSDB (c : OpenTSDBConfig) : Blind (openTSDBSwitch c : Obj F → _) :=
  ⟨fun _ o => by cases o <;> rfl, fun o c h => by cases o <;> simp only [openTSDBSwitch, Option.some.injEq, reduceCtorEq] at h <;> subst h <;> rfl⟩
theorem plain_percentiles (c : GraphiteConfig F) : (graphitePercentiles c).all stmtPlain = true := by
  simp [graphitePercentiles, stmtPlain, argPlain, exprPlain]
theorem blind_graphite (c : GraphiteConfig F) : Blind (graphiteSwitch c) :=
  ⟨fun _ o => by cases o <;> rfl, fun o c' h => by
    cases o <;> simp only [graphiteSwitch, Option.some.injEq, reduceCtorEq] at h <;> subst h <;>
      simp only [List.all_append, plain_percentiles, Bool.and_true] <;> rfl⟩

theorem csh_collect : CSh (F := F) d collect collect := fun _ _ _ _ => rfl

theorem sh_setField (env : Env F) (k : String) (r : Ref) (c : Call F) (hc : plain c = true) : Sh d (setField env k r c) (setField (envLater d env) k r c) :=
  sh_bind (sh_plain _ _ _ hc) fun _ => sh_pure _

theorem sh_histFields (env : Env F) (q : Ref) : Sh d (histFields env q) (histFields (envLater d env) q) :=
  sh_bind (sh_plain _ _ _ rfl) fun _ => sh_bind (sh_setField _ _ _ _ rfl) fun _ => sh_bind (sh_setField _ _ _ _ rfl) fun _ =>
    sh_bind (sh_setField _ _ _ _ rfl) fun _ => sh_bind (sh_setField _ _ _ _ rfl) fun _ => sh_bind (sh_setField _ _ _ _ rfl) fun _ =>
    sh_bind (sh_lift _) fun _ => sh_bind (sh_lift _) fun _ => sh_bind (sh_lift _) fun _ => sh_bind (sh_lift _) fun _ => sh_bind (sh_lift _) fun _ => sh_pure _

theorem sh_rateFields (env : Env F) (q : Ref) : Sh d (rateFields env q) (rateFields (envLater d env) q) :=
  sh_bind (sh_setField _ _ _ _ rfl) fun _ => sh_bind (sh_setField _ _ _ _ rfl) fun _ => sh_bind (sh_setField _ _ _ _ rfl) fun _ =>
    sh_bind (sh_setField _ _ _ _ rfl) fun _ => sh_pure _

theorem sh_valuesOf (env : Env F) (r : Ref) : Sh d (valuesOf env r) (valuesOf (envLater d env) r) :=
  sh_get fun o => by
    rcases o with _ | o
    · exact sh_pure _
    · cases o with
      | counter _ => exact sh_bind (sh_setField _ _ _ _ rfl) fun _ => sh_pure _
      | gauge _ => exact sh_bind (sh_setField _ _ _ _ rfl) fun _ => sh_pure _
      | gaugeF _ => exact sh_bind (sh_setField _ _ _ _ rfl) fun _ => sh_pure _
      | health _ =>
        refine sh_bind (sh_plain _ _ _ rfl) fun _ => sh_bind (sh_plain _ _ _ rfl) fun o => ?_
        cases o <;> try exact sh_pure _
        rename_i e
        cases e
        · exact sh_pure _
        · refine sh_bind (sh_plain _ _ _ rfl) fun o => ?_
          cases o <;> try exact sh_fail _
          rename_i e
          cases e
          · exact sh_fail _
          · exact sh_pure _
      | sample _ => exact sh_pure _
      | hist _ => exact sh_bind (sh_snapshotOf ..) fun _ => sh_histFields ..
      | ewma _ => exact sh_pure _
      | meter _ => exact sh_bind (sh_snapshotOf ..) fun _ => sh_bind (sh_setField _ _ _ _ rfl) fun _ => sh_bind (sh_rateFields ..) fun _ => sh_pure _
      | timer _ => exact sh_bind (sh_snapshotOf ..) fun _ => sh_bind (sh_histFields ..) fun _ => sh_bind (sh_rateFields ..) fun _ => sh_pure _

theorem csh_getAll (env : Env F) : CSh d (getAllCallback env) (getAllCallback (envLater d env)) := by
  intro name r w u
  simp only [getAllCallback, (sh_valuesOf env r).eq w]
  rcases valuesOf env r w with ⟨w', _ | _⟩ <;> rfl

theorem sh_getAll (env : Env F) : ∀ g : Reg, Sh d (getAll env g) (getAll (envLater d env) g)
  | .std id => ⟨fun w => by
      simp only [getAll, csh_each (csh_getAll env) env (.std id) w []]
      rcases each env (.std id) (getAllCallback env) (w, []) with ⟨⟨w', _⟩, _ | _⟩ <;> rfl⟩
  | .prefixed u _ => ⟨fun w => (sh_getAll env u).eq w⟩
  | .foreign => ⟨fun _ => rfl⟩

theorem sh_readInt (env : Env F) (r : Ref) (c : Call F) (hc : plain c = true) : Sh d (readInt env r c) (readInt (envLater d env) r c) :=
  sh_bind (sh_plain _ _ _ hc) fun o => by cases o <;> exact sh_pure _
theorem sh_readFloat (env : Env F) (r : Ref) (c : Call F) (hc : plain c = true) : Sh d (readFloat env r c) (readFloat (envLater d env) r c) :=
  sh_bind (sh_plain _ _ _ hc) fun o => by cases o <;> exact sh_pure _
theorem sh_readBits (env : Env F) (r : Ref) (c : Call F) (hc : plain c = true) : Sh d (readBits env r c) (readBits (envLater d env) r c) :=
  sh_bind (sh_plain _ _ _ hc) fun o => by cases o <;> exact sh_pure _
theorem sh_sumSquares (env : Env F) (r : Ref) : Sh d (sumSquares env r) (sumSquares (envLater d env) r) :=
  sh_bind (sh_readInt _ _ _ rfl) fun _ => sh_bind (sh_readFloat _ _ _ rfl) fun _ => sh_bind (sh_readFloat _ _ _ rfl) fun _ => by
    dsimp only
    split <;> exact sh_pure _
theorem sh_percentileGauges (env : Env F) (x : Ref) (mk : F → F → Measurement F) : ∀ l : List F,
    Sh d (percentileGauges env x mk l) (percentileGauges (envLater d env) x mk l)
  | [] => sh_pure _
  | _ :: l => sh_bind (sh_readFloat _ _ _ rfl) fun _ => sh_bind (sh_percentileGauges env x mk l) fun _ => sh_pure _
theorem sh_rateGauge (env : Env F) (cfg : Reporter F) (name : Str) (r : Ref) (sfx : String) (c : RateCall) :
    Sh d (rateGauge env cfg name r sfx c) (rateGauge (envLater d env) cfg name r sfx c) :=
  sh_bind (sh_readFloat _ _ _ rfl) fun _ => sh_pure _

theorem sh_libratoMetric (env : Env F) (cfg : Reporter F) (name : Str) (r : Ref) (o : Obj F) :
    Sh d (libratoMetric env cfg name r o) (libratoMetric (envLater d env) cfg name r (objLater d o)) := by
  cases o with
  | counter _ =>
    refine sh_bind (sh_readInt _ _ _ rfl) fun _ => ?_
    split
    · exact sh_bind (sh_readInt _ _ _ rfl) fun _ => sh_pure _
    · exact sh_pure _
  | gauge _ => exact sh_bind (sh_readInt _ _ _ rfl) fun _ => sh_pure _
  | gaugeF _ => exact sh_bind (sh_readBits _ _ _ rfl) fun _ => sh_pure _
  | health _ => exact sh_pure _
  | sample _ => exact sh_pure _
  | ewma _ => exact sh_pure _
  | hist _ =>
    refine sh_bind (sh_readInt _ _ _ rfl) fun _ => ?_
    split
    · refine sh_bind (sh_plain _ _ _ rfl) fun o => ?_
      cases o <;> try exact sh_pure _
      exact sh_bind (sh_readInt _ _ _ rfl) fun _ => sh_bind (sh_readInt _ _ _ rfl) fun _ => sh_bind (sh_readInt _ _ _ rfl) fun _ =>
        sh_bind (sh_readInt _ _ _ rfl) fun _ => sh_bind (sh_sumSquares ..) fun _ => sh_bind (sh_percentileGauges ..) fun _ => sh_pure _
    · exact sh_pure _
  | meter _ =>
    exact sh_bind (sh_readInt _ _ _ rfl) fun _ => sh_bind (sh_rateGauge ..) fun _ => sh_bind (sh_rateGauge ..) fun _ =>
      sh_bind (sh_rateGauge ..) fun _ => sh_pure _
  | timer _ =>
    refine sh_bind (sh_readInt _ _ _ rfl) fun _ => sh_bind (sh_readInt _ _ _ rfl) fun _ => ?_
    split
    · exact sh_bind (sh_readInt _ _ _ rfl) fun _ => sh_bind (sh_readFloat _ _ _ rfl) fun _ => sh_bind (sh_readInt _ _ _ rfl) fun _ =>
        sh_bind (sh_readInt _ _ _ rfl) fun _ => sh_bind (sh_readInt _ _ _ rfl) fun _ => sh_bind (sh_sumSquares ..) fun _ =>
        sh_bind (sh_percentileGauges ..) fun _ => sh_bind (sh_rateGauge ..) fun _ => sh_bind (sh_rateGauge ..) fun _ =>
        sh_bind (sh_rateGauge ..) fun _ => sh_pure _
    · exact sh_pure _

theorem csh_librato (env : Env F) (cfg : Reporter F) : CSh d (libratoCallback env cfg) (libratoCallback (envLater d env) cfg) := by
  intro name r w u
  simp only [libratoCallback, show (later d w).objs r = (w.objs r).map (objLater d) from rfl]
  rcases w.objs r with _ | o
  · rfl
  · simp only [Option.map_some, (sh_libratoMetric env cfg name r o).eq w]
    rcases libratoMetric env cfg name r o w with ⟨w', _ | _⟩ <;> rfl

end GoMetrics.Shift
