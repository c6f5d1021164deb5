import Verif.Spec.NilProgram
import Verif.Lemmas.WorldEffect
import Verif.Lemmas.WorldRead
import Verif.Lemmas.WorldReg
import Verif.Lemmas.Registry

/-! Lemmas for C125: with `UseNilMetrics` there are only stubs. -/

set_option linter.unusedSectionVars false
set_option linter.unusedTactic false
set_option linter.unreachableTactic false

namespace GoMetrics.NilProgram
open Spec

variable {F : Type} {α β : Type}

/-- A stub, or a sample snapshot made by the user. -/
def Mute (o : Obj F) : Prop := isStub o = true ∨ ∃ n a, o = .sample (.snap n a)

/-- There are only stubs (and the user's sample snapshots), and the clock was not started. -/
structure Hushed (w : World F) : Prop where
  objs : ∀ r o, w.objs r = some o → Mute o
  meters : w.meters = []
  started : w.started = false
  nil : w.useNil = true

/-- The action leaves only stubs. -/
def Keeps (a : Act F α) : Prop := ∀ w, Hushed w → Hushed (a w).1
/-- … and returns. -/
def Calm (a : Act F α) : Prop := ∀ w, Hushed w → Hushed (a w).1 ∧ ∃ x, (a w).2 = .ok x

theorem Calm.keeps {a : Act F α} (h : Calm a) : Keeps a := fun w hw => (h w hw).1

theorem k_bind {x : Act F α} {f : α → Act F β} (hx : Keeps x) (hf : ∀ a, Keeps (f a)) : Keeps (x >>= f) := fun w hw => by
  rw [act_bind]
  have h := hx w hw
  generalize x w = y at h
  obtain ⟨w', _ | a⟩ := y
  · exact h
  · exact hf a w' h
theorem k_lift (r : Res α) : Keeps (Act.lift r : Act F α) := fun _ h => h
theorem k_fail (p : Panic) : Keeps (Act.fail p : Act F α) := fun _ h => h

theorem c_pure (x : α) : Calm (pure x : Act F α) := fun _ h => ⟨h, x, rfl⟩
theorem c_bind {x : Act F α} {f : α → Act F β} (hx : Calm x) (hf : ∀ a, Calm (f a)) : Calm (x >>= f) := fun w hw => by
  rw [act_bind]
  obtain ⟨h, a, e⟩ := hx w hw
  generalize x w = y at h e
  obtain ⟨w', r⟩ := y
  cases e
  exact hf a w' h
theorem c_getArr (a : ArrId) : Calm (getArr a : Act F _) := fun _ h => ⟨h, _, rfl⟩
theorem c_getReg (a : Nat) : Calm (getReg a : Act F _) := fun _ h => ⟨h, _, rfl⟩
theorem c_setReg (a : Nat) (m) : Calm (setReg a m : Act F _) := fun _ h => ⟨⟨h.objs, h.meters, h.started, h.nil⟩, _, rfl⟩
theorem c_sortArr (a : ArrId) : Calm (sortArr a : Act F _) := fun _ h => ⟨⟨h.objs, h.meters, h.started, h.nil⟩, _, rfl⟩
theorem c_newArr (l : List Int64) (b : Bool) : Calm (newArr l b : Act F _) := fun _ h => ⟨⟨h.objs, h.meters, h.started, h.nil⟩, _, rfl⟩

theorem hushed_update {w : World F} (h : Hushed w) (r : Ref) (o : Obj F) (ho : Mute o) (q : Ref) (o' : Obj F) (hq : Function.update w.objs r (some o) q = some o') : Mute o' := by
  rcases eq_or_ne q r with rfl | hne
  · rw [Function.update_self] at hq; cases hq; exact ho
  · rw [Function.update_of_ne hne] at hq; exact h.objs q o' hq

theorem c_alloc (o : Obj F) (ho : Mute o) : Calm (alloc o) := fun _ h => ⟨⟨hushed_update h _ o ho, h.meters, h.started, h.nil⟩, _, rfl⟩
theorem c_setObj (r : Ref) (o : Obj F) (ho : Mute o) : Calm (setObj r o) := fun _ h => ⟨⟨hushed_update h _ o ho, h.meters, h.started, h.nil⟩, _, rfl⟩
theorem c_runAll (f : α → Act F Unit) (hf : ∀ a, Calm (f a)) (l : List α) : Calm (runAll f l) := by
  induction l with
  | nil => exact c_pure _
  | cons a l ih => exact c_bind (hf a) fun _ => ih
theorem c_get {r : Ref} {f : Option (Obj F) → Act F β} (h0 : Calm (f none)) (h : ∀ o, Mute o → Calm (f (some o))) : Calm (getObj r >>= f) := fun w hw => by
  rw [act_bind_getObj]
  rcases ho : w.objs r with _ | o
  · exact h0 w hw
  · exact h o (hw.objs r o ho) w hw

variable [GoFloat F] [GoSqrt F] [GoExp F]

theorem c_ref (o : Obj F) (ho : Mute o) : Calm (do return .ref (← alloc o) : Act F (Out F)) := c_bind (c_alloc o ho) fun _ => c_pure _
theorem c_set (r : Ref) (o : Obj F) (ho : Mute o) : Calm (do setObj r o; return .unit : Act F (Out F)) := c_bind (c_setObj r o ho) fun _ => c_pure _

/-- The methods of stubs. -/
theorem c_stub (env : Env F) (r : Ref) (o : Obj F) (ho : isStub o = true) (c : Call F) : Calm (objCall env r o c) := by
  cases o with
  | counter x => cases x <;> simp [isStub] at ho; cases c <;> first | exact c_pure _ | exact c_set _ _ (.inl rfl) | exact c_ref _ (.inl rfl)
  | gauge x => cases x <;> simp [isStub] at ho; cases c <;> first | exact c_pure _ | exact c_set _ _ (.inl rfl) | exact c_ref _ (.inl rfl)
  | gaugeF x => cases x <;> simp [isStub] at ho; cases c <;> first | exact c_pure _ | exact c_set _ _ (.inl rfl) | exact c_ref _ (.inl rfl)
  | health x => cases x <;> simp [isStub] at ho; cases c <;> first | exact c_pure _ | exact c_set _ _ (.inl rfl) | exact c_ref _ (.inl rfl)
  | ewma x => cases x <;> simp [isStub] at ho; cases c <;> first | exact c_pure _ | exact c_set _ _ (.inl rfl) | exact c_ref _ (.inl rfl)
  | sample x => cases x <;> simp [isStub] at ho; cases c <;> first | exact c_pure _ | exact c_bind (c_newArr _ _) fun _ => c_pure _
  | hist x => cases x <;> simp [isStub] at ho; cases c <;> first | exact c_pure _ | exact c_ref _ (.inl rfl)
  | meter x => cases x <;> simp [isStub] at ho; cases c <;> first | exact c_pure _ | exact c_set _ _ (.inl rfl)
  | timer x => cases x <;> simp [isStub] at ho; cases c <;> exact c_pure _

/-- The methods of the user's sample snapshots. -/
theorem k_snap (env : Env F) (r : Ref) (n : Int64) (a : ArrId) (c : Call F) : Keeps (objCall env r (.sample (.snap n a)) c) := by
  cases c <;> try first | exact (c_pure _).keeps | exact k_fail _
  · refine k_bind (c_getArr _).keeps fun l => ?_
    dsimp only
    split
    · exact k_bind (c_sortArr _).keeps fun _ => k_lift _
    · exact k_lift _
  · exact (c_bind (c_getArr _) fun _ => c_pure _).keeps
  · exact (c_bind (c_getArr _) fun _ => c_bind (c_newArr _ _) fun _ => c_pure _).keeps

theorem k_call (env : Env F) (r : Ref) (c : Call F) : Keeps (call env r c) := fun w hw => by
  rcases ho : w.objs r with _ | o
  · rw [call, act_bind_getObj, ho]; exact hw
  · rw [call_obj ho]
    rcases hw.objs r o ho with h | ⟨n, a, rfl⟩
    · exact (c_stub env r o h c).keeps w hw
    · exact k_snap env r n a c w hw

theorem call_ok (env : Env F) (r : Ref) (c : Call F) {w : World F} (hw : Hushed w) (hs : ¬ ∃ n a, w.objs r = some (.sample (.snap n a))) :
    Hushed (call env r c w).1 ∧ ∃ x, (call env r c w).2 = .ok x := by
  rcases ho : w.objs r with _ | o
  · rw [call, act_bind_getObj, ho]; exact ⟨hw, _, rfl⟩
  · rw [call_obj ho]
    rcases hw.objs r o ho with h | ⟨n, a, rfl⟩
    · exact c_stub env r o h c w hw
    · exact absurd ⟨n, a, ho⟩ hs

theorem c_construct (env : Env F) (c : NewOp F) : Calm (construct env c) := fun w hw => by
  have hn := hw.nil
  cases c with
  | counter => simpa [construct, hn, Counter.new] using c_alloc (.counter .nil) (.inl rfl) w hw
  | gauge => simpa [construct, hn, Gauge.new] using c_alloc (.gauge .nil) (.inl rfl) w hw
  | funcGauge f => simpa [construct, hn, Gauge.newFunctional] using c_alloc (.gauge .nil) (.inl rfl) w hw
  | gaugeF => simpa [construct, hn, GaugeF.new] using c_alloc (.gaugeF .nil) (.inl rfl) w hw
  | funcGaugeF f => simpa [construct, hn, GaugeF.newFunctional] using c_alloc (.gaugeF .nil) (.inl rfl) w hw
  | health f => simpa [construct, hn, Health.new] using c_alloc (.health .nil) (.inl rfl) w hw
  | uniform k => simpa [construct, hn] using c_alloc (.sample .nil) (.inl rfl) w hw
  | exp k a => simpa [construct, newExp, hn] using c_alloc (.sample .nil) (.inl rfl) w hw
  | sampleSnap n a =>
    simp only [construct]
    split
    · exact c_alloc _ (.inr ⟨n, a, rfl⟩) w hw
    · exact c_bind (c_newArr _ _) (fun b => c_alloc _ (.inr ⟨n, b, rfl⟩)) w hw
  | hist s => simpa [construct, newHist, hn] using c_alloc (.hist .nil) (.inl rfl) w hw
  | ewma a => simpa [construct, hn, Ewma.new] using c_alloc (.ewma .nil) (.inl rfl) w hw
  | meter => simpa [construct, newMeter, hn] using c_alloc (.meter .nil) (.inl rfl) w hw
  | timer => simpa [construct, hn] using c_alloc (.timer .nil) (.inl rfl) w hw
  | customTimer a b => simpa [construct, newTimer, hn] using c_alloc (.timer .nil) (.inl rfl) w hw

/-! ### The clock and the registries -/

theorem c_tick (env : Env F) : Calm (tickMeters env) := fun w hw => by
  have : env.order w.meters = [] := by
    rw [hw.meters]
    exact List.Perm.eq_nil (env.order_perm _)
  rw [tickMeters, this]
  exact ⟨hw, _, rfl⟩

theorem c_register (id : Nat) (name : Str) (v : Val F) : Calm (register id name v) := by
  refine c_bind (c_getReg _) fun m => ?_
  split
  · exact c_pure _
  · split
    · refine c_get (c_pure _) fun o _ => ?_
      dsimp only
      split
      · exact c_bind (c_setReg _ _) fun _ => c_pure _
      · exact c_pure _
    · exact c_pure _

theorem getOrRegister_ok (env : Env F) (id : Nat) (name : Str) (v : Val F) : Keeps (getOrRegister env id name v) ∧ (v ≠ .badFn → Calm (getOrRegister env id name v)) := by
  have hc : v ≠ .badFn → Calm (getOrRegister env id name v) := fun hv => by
    refine c_bind (c_getReg _) fun m => ?_
    split
    · exact c_pure _
    · cases v with
      | obj r => exact c_bind (c_register _ _ _) fun _ => c_pure _
      | ctor c => exact c_bind (c_construct env c) fun _ => c_bind (c_register _ _ _) fun _ => c_pure _
      | otherFn => exact c_pure _
      | badFn => exact absurd rfl hv
      | other => exact c_pure _
  refine ⟨?_, hc⟩
  by_cases hv : v = .badFn
  · subst hv
    refine k_bind (c_getReg _).keeps fun m => ?_
    split
    · exact (c_pure _).keeps
    · exact k_fail _
  · exact (hc hv).keeps

theorem c_unregister (env : Env F) (id : Nat) (name : Str) : Calm (unregister env id name) := by
  refine c_bind (c_bind (c_getReg _) fun m => ?_) fun _ => c_bind (c_getReg _) fun _ => c_setReg _ _
  split
  · exact c_pure _
  · next r _ =>
    intro w hw
    rw [act_bind_getObj]
    rcases ho : w.objs r with _ | o
    · exact ⟨hw, _, rfl⟩
    · dsimp only
      by_cases hs : o.stoppable = true
      · rw [if_pos hs]
        obtain ⟨h1, x, h2⟩ := call_ok env r .stop hw (by rintro ⟨n, a, e⟩; rw [ho] at e; cases e; cases hs)
        rw [act_bind]
        generalize call env r .stop w = y at h1 h2
        obtain ⟨w', _⟩ := y
        cases h2
        exact ⟨h1, _, rfl⟩
      · rw [if_neg hs]; exact ⟨hw, _, rfl⟩

theorem c_checks (env : Env F) (id : Nat) : Calm (runHealthchecks env id) := by
  refine c_bind (c_getReg _) fun m => c_runAll _ (fun e => ?_) _
  intro w hw
  rw [act_bind_getObj]
  rcases ho : w.objs e.2 with _ | o
  · exact ⟨hw, _, rfl⟩
  · cases o with
    | health h =>
      dsimp only
      obtain ⟨h1, x, h2⟩ := call_ok env e.2 .check hw (by rintro ⟨n, a, e'⟩; rw [ho] at e'; cases e')
      rw [act_bind]
      generalize call env e.2 .check w = y at h1 h2
      obtain ⟨w', _⟩ := y
      cases h2
      exact ⟨h1, _, rfl⟩
    | _ => exact ⟨hw, _, rfl⟩

theorem reg_ok (env : Env F) (g : Reg) (o : RegOp F) : Keeps (regCall env g o) ∧ ((∀ name, o ≠ .getOrRegister name .badFn) → Calm (regCall env g o)) := by
  have mk : ∀ {a : Act F (RegOut F)}, Calm a → Keeps a ∧ ((∀ name, o ≠ .getOrRegister name .badFn) → Calm a) := fun h => ⟨h.keeps, fun _ => h⟩
  cases o with
  | get name =>
    rw [(regCall_prefix env g).1]
    cases base g with
    | none => exact mk (c_pure _)
    | some id => refine mk (c_bind (c_getReg _) fun m => ?_); split <;> exact c_pure _
  | getOrRegister name v =>
    rw [(regCall_prefix env g).2.1]
    cases base g with
    | none => exact mk (c_pure _)
    | some id =>
      obtain ⟨h1, h2⟩ := getOrRegister_ok env id (fullName g name) v
      exact ⟨h1, fun h => h2 fun e => h name (by rw [e])⟩
  | register name v =>
    rw [(regCall_prefix env g).2.2.1]
    cases base g with
    | none => exact mk (c_pure _)
    | some id => exact mk (c_register _ _ _)
  | unregister name =>
    rw [(regCall_prefix env g).2.2.2.1]
    cases base g with
    | none => exact mk (c_pure _)
    | some id => exact mk (c_bind (c_unregister env _ _) fun _ => c_pure _)
  | unregisterAll =>
    rw [(regCall_prefix env g).2.2.2.2.1]
    cases base g with
    | none => exact mk (c_pure _)
    | some id => exact mk (c_bind (c_bind (c_getReg _) fun m => c_runAll _ (c_unregister env _) _) fun _ => c_pure _)
  | runHealthchecks =>
    rw [(regCall_prefix env g).2.2.2.2.2]
    cases base g with
    | none => exact mk (c_pure _)
    | some id => exact mk (c_bind (c_checks env _) fun _ => c_pure _)

theorem c_slice (o : SliceOp) : Calm (sliceOp o : Act F _) := by
  cases o with
  | make l => exact c_bind (c_newArr _ _) fun _ => c_pure _
  | set a i v =>
    intro w hw
    simp only [sliceOp]
    split
    · exact ⟨⟨hw.objs, hw.meters, hw.started, hw.nil⟩, _, rfl⟩
    · exact ⟨hw, _, rfl⟩

theorem step_keeps (env : Env F) (o : Op F) (ho : o ≠ .setNil false) : Keeps (step env o) := by
  cases o with
  | setNil b =>
    intro w hw
    cases b with
    | false => exact absurd rfl ho
    | true => exact ⟨hw.objs, hw.meters, hw.started, rfl⟩
  | new c => exact (c_bind (c_construct env c) fun _ => c_pure _).keeps
  | call r c => exact k_bind (k_call env r c) fun _ => (c_pure _).keeps
  | slice o => exact (c_bind (c_slice o) fun _ => c_pure _).keeps
  | tick => exact (c_bind (c_tick env) fun _ => c_pure _).keeps
  | reg g o => exact k_bind (reg_ok env g o).1 fun _ => (c_pure _).keeps

theorem step_ok (env : Env F) (o : Op F) {w : World F} (hw : Hushed w) (hm : ¬ mayPanic w o) : ∃ x, (step env o w).2 = .ok x := by
  cases o with
  | setNil b => exact ⟨_, rfl⟩
  | new c => exact (c_bind (c_construct env c) (fun _ => c_pure _) w hw).2
  | call r c =>
    obtain ⟨h1, x, h2⟩ := call_ok env r c hw hm
    simp only [step, act_bind]
    generalize call env r c w = y at h1 h2
    obtain ⟨w', _⟩ := y
    cases h2
    exact ⟨_, rfl⟩
  | slice o => exact (c_bind (c_slice o) (fun _ => c_pure _) w hw).2
  | tick => exact (c_bind (c_tick env) (fun _ => c_pure _) w hw).2
  | reg g o =>
    have h := (reg_ok env g o).2 fun name e => hm (by rw [e]; trivial)
    exact (c_bind h (fun _ => c_pure _) w hw).2

theorem run_hushed (l : List (Env F × Op F)) (hl : ∀ x ∈ l, x.2 ≠ .setNil false) {w : World F} (hw : Hushed w) : Hushed (w.run l) := by
  induction l generalizing w with
  | nil => exact hw
  | cons x l ih => exact ih (fun y hy => hl y (List.mem_cons_of_mem _ hy)) (step_keeps x.1 x.2 (hl x List.mem_cons_self) w hw)

theorem hushed (h : List (Env F × Op F)) (hn : NilProgram h) : Hushed (World.init.run h : World F) := by
  rcases h with _ | ⟨⟨env, o⟩, l⟩
  · exact absurd hn id
  · cases o with
    | setNil b =>
      cases b with
      | false => exact absurd hn id
      | true => exact run_hushed l hn ⟨(fun r o h => nomatch h), rfl, rfl, rfl⟩
    | _ => exact absurd hn id

/-! ### What the stubs say -/

theorem stub_of {w : World F} (hw : Hushed w) {r : Ref} {o : Obj F} (ho : w.objs r = some o) (hm : o.isMetric = true) : isStub o = true := by
  rcases hw.objs r o ho with h | ⟨n, a, rfl⟩
  · exact h
  · cases hm

theorem recorded_none {w : World F} (hw : Hushed w) (r : Ref) : recorded w r = none := by
  have hh : ∀ q, histRecorded w q = none := by
    intro q
    unfold histRecorded
    rcases ho : w.objs q with _ | o
    · rfl
    · rcases hw.objs q o ho with h | ⟨n, a, rfl⟩
      · cases o with
        | hist x => cases x <;> simp [isStub] at h; rfl
        | _ => rfl
      · rfl
  unfold recorded
  rcases ho : w.objs r with _ | o
  · exact hh r
  · rcases hw.objs r o ho with h | ⟨n, a, rfl⟩
    · cases o with
      | timer x => cases x <;> simp [isStub] at h; exact hh r
      | _ => exact hh r
    · exact hh r

theorem stub_reads {w : World F} {r : Ref} {o : Obj F} (hr : w.objs r = some o) (ho : isStub o = true) (env : Env F) (a : Call F) (ha : has o a = true) :
    ∃ z, observe w env r a = .ok z ∧ isZero a z := by
  have hacc : accessor a = true := by cases o <;> cases a <;> simp_all [has, accessor]
  rw [read_obj hr a hacc]
  cases o with
  | counter x => cases x <;> simp [isStub] at ho; cases a <;> simp [has] at ha; exact ⟨_, rfl, .inl rfl⟩
  | gauge x => cases x <;> simp [isStub] at ho; cases a <;> simp [has] at ha; exact ⟨_, rfl, .inl rfl⟩
  | gaugeF x => cases x <;> simp [isStub] at ho; cases a <;> simp [has] at ha; exact ⟨_, rfl, .inr (.inr (.inl rfl))⟩
  | health x => cases x <;> simp [isStub] at ho; cases a <;> simp [has] at ha; exact ⟨_, rfl, .inr (.inr (.inr (.inr rfl)))⟩
  | ewma x => cases x <;> simp [isStub] at ho; cases a <;> simp [has] at ha; exact ⟨_, rfl, .inr (.inl rfl)⟩
  | sample x =>
    cases x <;> simp [isStub] at ho
    cases a with
    | stat s => cases s <;> simp [objVal, sampleVal, nilStat, isZero]
    | _ => simp [has] at ha <;> simp [objVal, sampleVal, sampleVals, isZero]
  | hist x =>
    cases x <;> simp [isStub] at ho
    cases a with
    | stat s => cases s <;> simp [objVal, histVal, nilStat, isZero]
    | _ => simp [has] at ha <;> simp [objVal, histVal, isZero]
  | meter x =>
    cases x <;> simp [isStub] at ho
    cases a with
    | rates s => cases s <;> exact ⟨_, rfl, .inr (.inl rfl)⟩
    | count => exact ⟨_, rfl, .inl rfl⟩
    | _ => simp [has] at ha
  | timer x =>
    cases x <;> simp [isStub] at ho
    cases a with
    | stat s => cases s <;> simp [objVal, timerVal, nilStat, isZero]
    | rates s => exact ⟨_, rfl, .inr (.inl rfl)⟩
    | _ => simp [has] at ha <;> simp [objVal, timerVal, isZero]

theorem stats_has (ps : List F) (o : Obj F) (c : Call F) (hc : c ∈ statsOf ps o) : has o c = true := by
  cases o <;> simp [statsOf, Spec.distribution, allRates] at hc <;> try (subst hc; rfl)
  · rcases hc with rfl | rfl | rfl | rfl | rfl | ⟨p, -, rfl⟩ <;> rfl
  · rcases hc with rfl | rfl | rfl | rfl | rfl <;> rfl
  · rcases hc with rfl | rfl | rfl | rfl | rfl | ⟨p, -, rfl⟩ | rfl | rfl | rfl | rfl <;> rfl

/-- A statistic of a stub holds only a zero. -/
theorem holds_zero {w : World F} (hw : Hushed w) {env : Env F} {r : Ref} {o : Obj F} (hr : w.objs r = some o) (hm : o.isMetric = true) (ps : List F) {c : Call F} (hc : c ∈ statsOf ps o)
    {v : GoMetrics.Field F} (hv : Holds w env r c v) : isNothing v := by
  have hs := stub_of hw hr hm
  by_cases hd : c = .stat .stdDev
  · rw [hv.1 hd, recorded_none hw r]
    exact .inr (.inl rfl)
  · have h := hv.2 hd
    have hr' : (checked env w r).objs r = some o := by
      unfold checked
      rw [hr]
      cases o with
      | health x =>
        cases x <;> simp [isStub] at hs
        dsimp only
        rw [call_obj hr]
        exact Function.update_self ..
      | _ => exact hr
    obtain ⟨z, e, hz⟩ := stub_reads hr' hs env c (stats_has ps o c hc)
    rw [e] at h
    have hpct : ∀ l, c ≠ .stat (.percentiles l) := by
      rintro l rfl
      cases o <;> simp [statsOf, Spec.distribution, allRates] at hc
    have hz' : z = .int 0 ∨ z = .float (GoFloat.lit 0) ∨ z = .bits 0 ∨ z = .size 0 ∨ z = .err none := by
      unfold isZero at hz
      split at hz
      · exact absurd rfl (hpct _)
      · exact hz
    rcases hz' with rfl | rfl | rfl | rfl | rfl
    · exact .inl h
    · exact .inr (.inl h)
    · exact .inr (.inr (.inl h))
    · exact absurd h id
    · exact .inr (.inr (.inr h))

theorem allZero {w : World F} (hw : Hushed w) {env : Env F} {r : Ref} {o : Obj F} (hr : w.objs r = some o) (hm : o.isMetric = true) {ps : List F}
    {conv : Call F → GoMetrics.Field F → GoMetrics.Field F} {rows : List (String × GoMetrics.Field F)} (h : Complete w env r o ps conv rows) : AllZero o ps conv rows := by
  refine ⟨h.1, fun x hx => ?_⟩
  have hmem := h.1.mem_iff.1 (List.mem_map_of_mem hx)
  obtain ⟨c, hc, e⟩ := List.mem_map.1 hmem
  obtain ⟨v, hv, hx'⟩ := h.2 x hx c e.symm
  exact ⟨c, v, e.symm, holds_zero hw hr hm ps hc hv, hx'⟩

end GoMetrics.NilProgram
