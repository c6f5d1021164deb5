import Verif.Lemmas.World

/-! Every operation keeps the invariant of the store. -/

set_option linter.unusedSimpArgs false
set_option linter.unnecessarySeqFocus false
set_option linter.unusedSectionVars false
set_option linter.unnecessarySimpa false

namespace GoMetrics

variable {F : Type} [GoFloat F] [GoSqrt F] [GoExp F] {S : Ref → Prop}

/-- A call that ends in `setObj` of the result of a computation that cannot change the kind. -/
theorem safe_liftSet {α : Type} {P : World F → Prop} {r : Ref} {x : Res α} {f : α → Obj F} {out : Out F}
    (h : ∀ a, x = .ok a → ∀ w, P w → ∃ o0, w.objs r = some o0 ∧ OkSet o0 (f a)) :
    Safe S P (do setObj r (f (← Act.lift x)); return out : Act F (Out F)) := by
  intro w hw hp
  cases x with
  | error p => exact ⟨hw, .refl w⟩
  | ok a => exact safe_setObj (h a rfl) w hw hp

theorem safe_setRet {P : World F → Prop} {r : Ref} {o : Obj F} {out : Out F}
    (h : ∀ w, P w → ∃ o0, w.objs r = some o0 ∧ OkSet o0 o) :
    Safe S P (do setObj r o; return out : Act F (Out F)) := fun w hw hp => safe_setObj h w hw hp

theorem safe_allocRet {P : World F → Prop} {o : Obj F} (hm : o.live ≠ some .meter) (ha : ∀ w, P w → RefsOk w o) :
    Safe S P (do return .ref (← alloc o) : Act F (Out F)) := fun w hw hp => safe_alloc hm ha w hw hp

theorem safe_newArrRet {P : World F → Prop} (l : List Int64) (b : Bool) :
    Safe S P (do return .slice (← newArr l b) : Act F (Out F)) := fun w hw hp => safe_newArr l b w hw hp

/-- The object at `r` is `o`. -/
def At (r : Ref) (o : Obj F) (w : World F) : Prop := w.objs r = some o

theorem counterCall_safe (r : Ref) (x : Counter) (c : Call F) : Safe S (At r (.counter x)) (counterCall r x c) := by
  cases c <;> simp only [counterCall] <;> try exact safe_pure _
  all_goals try (refine safe_allocRet ?_ ?_ <;> cases x <;> simp [Counter.snapshot, Obj.live, RefsOk])
  all_goals
    refine safe_liftSet fun a ha w hw => ⟨_, hw, ?_⟩
    cases x <;> simp [Counter.clear, Counter.inc, Counter.dec] at ha <;> subst ha
    · exact .inr ⟨.counter, rfl, rfl⟩
    · exact .inl rfl

theorem gaugeCall_safe (env : Env F) (r : Ref) (x : Gauge) (c : Call F) : Safe S (At r (.gauge x)) (gaugeCall env r x c) := by
  cases c <;> simp only [gaugeCall] <;> try exact safe_pure _
  all_goals try (refine safe_allocRet ?_ ?_ <;> cases x <;> simp [Gauge.snapshot, Obj.live, RefsOk])
  all_goals
    refine safe_liftSet fun a ha w hw => ⟨_, hw, ?_⟩
    cases x <;> simp [Gauge.update] at ha <;> subst ha
    · exact .inr ⟨.gauge, rfl, rfl⟩
    · exact .inl rfl

theorem gaugeFCall_safe (env : Env F) (r : Ref) (x : GaugeF) (c : Call F) : Safe S (At r (.gaugeF x)) (gaugeFCall env r x c) := by
  cases c <;> simp only [gaugeFCall] <;> try exact safe_pure _
  all_goals try (refine safe_allocRet ?_ ?_ <;> cases x <;> simp [GaugeF.snapshot, Obj.live, RefsOk])
  all_goals
    refine safe_liftSet fun a ha w hw => ⟨_, hw, ?_⟩
    cases x <;> simp [GaugeF.update] at ha <;> subst ha
    · exact .inr ⟨.gaugeF, rfl, rfl⟩
    · exact .inl rfl

theorem verdicts_live (l : List Verdict) (e : GoError) (f : Nat) :
    ((.health (l.foldl Health.verdict (.std e f)) : Obj F)).live = some .health := by
  induction l generalizing e with
  | nil => rfl
  | cons v l ih => cases v <;> simpa [List.foldl_cons, Health.verdict, Health.healthy, Health.unhealthy] using ih _

theorem healthCall_safe (env : Env F) (r : Ref) (x : Health) (c : Call F) : Safe S (At r (.health x)) (healthCall env r x c) := by
  cases c <;> simp only [healthCall] <;> try exact safe_pure _
  all_goals
    refine safe_setRet fun w hw => ⟨_, hw, ?_⟩
    cases x <;> simp only [Health.check, Health.healthy, Health.unhealthy]
    · first
        | exact .inr ⟨.health, rfl, rfl⟩
        | exact .inr ⟨.health, rfl, verdicts_live _ _ _⟩
    · exact .inl rfl

theorem ewmaCall_safe (r : Ref) (x : Ewma F) (c : Call F) : Safe S (At r (.ewma x)) (ewmaCall r x c) := by
  cases c <;> simp only [ewmaCall] <;> try exact safe_pure _
  all_goals try (refine safe_allocRet ?_ ?_ <;> cases x <;> simp [Ewma.snapshot, Obj.live, RefsOk])
  all_goals
    refine safe_liftSet fun a ha w hw => ⟨_, hw, ?_⟩
    cases x <;> simp [Ewma.tick, Ewma.update] at ha <;> subst ha
    · exact .inr ⟨.ewma, rfl, rfl⟩
    · exact .inl rfl

theorem at_live {r : Ref} {o : Obj F} {k : LiveKind} (h : o.live = some k) : ∀ w : World F, At r o w → LiveAt r k w :=
  fun _ hw => ⟨o, hw, h⟩

theorem safe_sortArr {P : World F → Prop} (a : ArrId) : Safe S P (sortArr a : Act F Unit) := fun w hw _ =>
  ⟨hw.arrs _, World.Le.arrs w a _ fun _ => .inr rfl⟩

theorem safe_snapRet {P : World F → Prop} (hP : Stable P) (l : List Int64) (n : Int64) :
    Safe S P (do let a ← newArr l false; return .ref (← alloc (.sample (.snap n a))) : Act F (Out F)) :=
  safe_newSnap l false n hP fun _ => safe_pure _

theorem sampleCall_safe (env : Env F) (r : Ref) (x : SampleV F) (c : Call F) : Safe S (At r (.sample x)) (sampleCall env r x c) := by
  cases x with
  | uniform s =>
    refine safe_weaken ?_ (at_live (k := .uniform) rfl)
    have hst : Stable (LiveAt r .uniform : World F → Prop) := LiveAt.stable (by decide)
    cases c <;> simp only [sampleCall] <;> try exact safe_pure _
    · exact safe_bind hst (safe_setLive rfl) fun _ => safe_pure _
    · exact safe_bind hst (safe_setLive rfl) fun _ => safe_bind hst (safe_lift _) fun _ =>
        safe_bind hst (safe_setLive rfl) fun _ => safe_pure _
    · split
      · exact safe_bind hst (safe_setLive rfl) fun _ => safe_lift _
      · exact safe_lift _
    · exact safe_newArrRet _ _
    · exact safe_snapRet hst _ _
  | exp s =>
    refine safe_weaken ?_ (at_live (k := .exp) rfl)
    have hst : Stable (LiveAt r .exp : World F → Prop) := LiveAt.stable (by decide)
    cases c <;> simp only [sampleCall] <;> try exact safe_pure _
    · exact safe_bind hst (safe_setLive rfl) fun _ => safe_pure _
    · exact safe_bind hst (safe_setLive rfl) fun _ => safe_bind hst (safe_lift _) fun _ =>
        safe_bind hst (safe_setLive rfl) fun _ => safe_pure _
    · exact safe_lift _
    · exact safe_newArrRet _ _
    · exact safe_snapRet hst _ _
  | snap n a =>
    refine safe_weaken (Q := fun _ => True) ?_ (fun _ _ => trivial)
    cases c <;> simp only [sampleCall] <;> try first | exact safe_pure _ | exact safe_fail _
    · refine safe_getArr fun l => ?_
      split
      · exact safe_bind stable_true (safe_sortArr a) fun _ => safe_lift _
      · exact safe_lift _
    · exact safe_getArr fun l => safe_pure _
    · exact safe_getArr fun l => safe_newArrRet _ _
  | nil =>
    refine safe_weaken (Q := fun _ => True) ?_ (fun _ _ => trivial)
    cases c <;> simp only [sampleCall] <;> try first | exact safe_pure _ | exact safe_fail _
    exact safe_newArrRet _ _

theorem callSample_safe (env : Env F) (r : Ref) (c : Call F) : Safe S (fun _ => True) (callSample env r c) := by
  refine safe_getObj fun o => ?_
  split
  · exact safe_weaken (sampleCall_safe env r _ c) fun w hw => hw.2
  · exact safe_pure _

theorem safe_histSnap {P : World F → Prop} (q : Ref) (h : ∀ w, P w → ∃ n a, w.objs q = some (.sample (.snap n a))) :
    Safe S P (do return .ref (← alloc (.hist (.snap q))) : Act F (Out F)) :=
  safe_allocRet (by simp [Obj.live]) (by simpa [RefsOk] using h)

theorem histCall_safe (env : Env F) (r : Ref) (x : HistV) (c : Call F) : Safe S (fun _ => True) (histCall env r x c) := by
  cases x with
  | std s =>
    cases c <;> simp only [histCall] <;> try first | exact safe_pure _ | exact callSample_safe env s _
    refine safe_bind stable_true (callSample_safe env s _) fun o => ?_
    split
    · refine safe_weaken (Q := fun _ => True) (safe_getObj fun o => ?_) fun _ h => h
      split
      · exact safe_histSnap _ fun w hw => ⟨_, _, hw.2⟩
      · exact safe_fail _
    · exact safe_pure _
  | snap s =>
    cases c <;> simp only [histCall] <;> first | exact safe_pure _ | exact safe_fail _ | exact callSample_safe env s _
  | nil =>
    cases c <;> simp only [histCall] <;> try exact safe_pure _
    exact safe_allocRet (by simp [Obj.live]) (by simp [RefsOk])

theorem callHist_safe (env : Env F) (r : Ref) (c : Call F) : Safe S (fun _ => True) (callHist env r c) := by
  refine safe_getObj fun o => ?_
  split
  · exact safe_weaken (histCall_safe env r _ c) fun w hw => trivial
  · exact safe_pure _

/-- Stopping a live meter: the flag and the removal from the clock's set. -/
theorem stop_safe (r : Ref) (s : StandardMeter F) (hS : S r) :
    Safe S (At r (.meter (.std s))) (do setObj r (.meter (.std s.stop)); arbiterDelete r; return .unit : Act F (Out F)) := by
  intro w hw hp
  have hp : w.objs r = some (.meter (.std s)) := hp
  have hlt : r < w.nextObj := by
    by_contra hc
    rw [hw.obj r (by omega)] at hp
    simp at hp
  show World.Ok { w with objs := Function.update w.objs r (some (.meter (.std s.stop))), meters := w.meters.filter (· ≠ r) } ∧
    w.Le S { w with objs := Function.update w.objs r (some (.meter (.std s.stop))), meters := w.meters.filter (· ≠ r) }
  have hle : w.Le S { w with objs := Function.update w.objs r (some (.meter (.std s.stop))), meters := w.meters.filter (· ≠ r) } := by
    refine ⟨le_refl _, le_refl _, ?_, ?_, fun _ _ => ⟨rfl, fun _ => .inl rfl⟩⟩
    · intro q o' hq hl
      by_cases hqr : q = r
      · subst hqr
        rw [hp] at hq
        cases hq
        have : s.stopped = true := by simpa [Obj.live] using hl
        simp only [Function.update_self, StandardMeter.stop]
        cases s
        simp_all
      · simpa [Function.update_of_ne hqr] using hq
    · intro q o' k hq hl
      by_cases hqr : q = r
      · subst hqr
        rw [hp] at hq
        cases hq
        refine ⟨.meter (.std s.stop), by simp [Function.update_self], .inr ⟨?_, ?_, hS⟩⟩
        · simp [Obj.live] at hl; exact hl.2.symm
        · simp [Obj.stoppedMeter, StandardMeter.stop]
      · exact ⟨o', by simpa [Function.update_of_ne hqr] using hq, .inl hl⟩
  refine ⟨?_, hle⟩
  refine { obj := ?_, arr := hw.arr, meters := ?_, nodup := hw.nodup.filter _, started := ?_, keys := hw.keys, metric := ?_, refs := ?_ }
  · intro q hq
    have : q ≠ r := by rintro rfl; exact absurd hlt (not_lt.2 hq)
    simp only [Function.update_of_ne this]
    exact hw.obj q hq
  · intro q
    simp only [List.mem_filter, hw.meters q]
    by_cases hq : q = r
    · subst hq; simp [Function.update_self, Obj.live, StandardMeter.stop]
    · simp [Function.update_of_ne hq, hq]
  · intro h
    refine hw.started fun hc => h ?_
    simp [hc]
  · intro i e he
    obtain ⟨o', h1, h2⟩ := hw.metric i e he
    by_cases hq : e.2 = r
    · simp only [hq, Function.update_self]
      exact ⟨_, rfl, rfl⟩
    · simp only [Function.update_of_ne hq]
      exact ⟨o', h1, h2⟩
  · intro q o' hq
    by_cases hqr : q = r
    · subst hqr
      simp only [Function.update_self] at hq
      cases hq
      trivial
    · simp only [Function.update_of_ne hqr] at hq
      exact hle.refsOk (hw.refs q o' hq)

theorem mark_okSet (s : StandardMeter F) (n : Int64) (now : Instant) :
    OkSet (.meter (.std s) : Obj F) (.meter (.std (s.mark n now))) := by
  by_cases h : s.stopped
  · left; simp [StandardMeter.mark, h]
  · right
    exact ⟨.meter, by simp [Obj.live, h], by simp [Obj.live, StandardMeter.mark, StandardMeter.updateSnapshot, h]⟩

theorem meterCall_safe (env : Env F) (r : Ref) (x : Meter F) (c : Call F) (hS : c = .stop → S r) : Safe S (At r (.meter x)) (meterCall env r x c) := by
  cases c <;> simp only [meterCall] <;> try exact safe_pure _
  · refine safe_liftSet fun a ha w hw => ⟨_, hw, ?_⟩
    cases x <;> simp [Meter.mark] at ha <;> subst ha
    · exact mark_okSet _ _ _
    · exact .inl rfl
  · cases x with
    | std s =>
      simp only
      split
      · exact safe_pure _
      · exact stop_safe r s (hS rfl)
    | _ => exact safe_pure _
  · cases x with
    | std s => exact safe_allocRet (by simp [Meter.snapshot, Obj.live]) (by simp [RefsOk])
    | _ => exact safe_pure _

theorem callMeter_safe (env : Env F) (r : Ref) (c : Call F) (hS : c = .stop → S r) : Safe S (fun _ => True) (callMeter env r c) := by
  refine safe_getObj fun o => ?_
  split
  · exact safe_weaken (meterCall_safe env r _ c hS) fun w hw => hw.2
  · exact safe_pure _

theorem timerCall_safe (env : Env F) (r : Ref) (x : TimerV) (c : Call F) (hS : c = .stop → ∀ h m, x = .std h m → S m) : Safe S (fun _ => True) (timerCall env r x c) := by
  have hw : ∀ {P : World F → Prop} {x : Act F (Out F)}, Safe S (fun _ => True) x → Safe S P x := fun h => safe_weaken h fun _ _ => trivial
  cases x with
  | std h m =>
    cases c <;> simp only [timerCall] <;> try first | exact safe_pure _ | exact callHist_safe env h _ | exact callMeter_safe env m _ (by first | (intro hc; cases hc; done) | exact fun _ => hS rfl _ _ rfl)
    · exact safe_bind stable_true (callHist_safe env h _) fun _ => callMeter_safe env m _ (by intro hc; cases hc)
    · exact safe_bind stable_true (callHist_safe env h _) fun _ => callMeter_safe env m _ (by intro hc; cases hc)
    · refine safe_bind stable_true (callHist_safe env h _) fun o => ?_
      split
      · rename_i qh
        refine safe_getObj fun o => ?_
        split
        · refine safe_weaken (Q := fun w => ∃ s, w.objs qh = some (.hist (.snap s))) (safe_bind (fun _ _ _ h ⟨s, e⟩ => ⟨s, h.frozen _ _ e rfl⟩) (hw (callMeter_safe env m _ (by intro hc; cases hc))) fun o => ?_)
            fun w h => ⟨_, h.2⟩
          split
          · refine safe_getObj fun o => ?_
            split
            · exact safe_allocRet (by simp [Obj.live]) fun w h => ⟨h.1, _, h.2⟩
            · exact safe_fail _
          · exact safe_pure _
        · exact safe_fail _
      · exact safe_pure _
  | snap h m =>
    cases c <;> simp only [timerCall] <;> first | exact safe_pure _ | exact safe_fail _ | exact callHist_safe env h _ | exact callMeter_safe env m _ (by first | (intro hc; cases hc; done) | exact fun _ => hS rfl _ _ rfl)
  | nil =>
    cases c <;> simp only [timerCall] <;> exact safe_pure _

/-- Stopping the object at `r` stops at most meters in `S`. -/
def StopsIn (S : Ref → Prop) (r : Ref) (w : World F) : Prop := S r ∧ ∀ h m, w.objs r = some (.timer (.std h m)) → S m

/-- Every method of every metric. -/
theorem call_safe (env : Env F) (r : Ref) (c : Call F) : Safe S (fun w => c = .stop → StopsIn S r w) (call env r c) := by
  refine safe_getObj fun o => ?_
  split
  · exact safe_weaken (counterCall_safe r _ c) fun w hw => hw.2
  · exact safe_weaken (gaugeCall_safe env r _ c) fun w hw => hw.2
  · exact safe_weaken (gaugeFCall_safe env r _ c) fun w hw => hw.2
  · exact safe_weaken (healthCall_safe env r _ c) fun w hw => hw.2
  · exact safe_weaken (sampleCall_safe env r _ c) fun w hw => hw.2
  · exact safe_weaken (histCall_safe env r _ c) fun w hw => trivial
  · exact safe_weaken (ewmaCall_safe r _ c) fun w hw => hw.2
  · rintro w hw ⟨h1, h2⟩
    exact meterCall_safe env r _ c (fun hc => (h1 hc).1) w hw h2
  · rintro w hw ⟨h1, h2⟩
    exact timerCall_safe env r _ c (fun hc h m hx => (h1 hc).2 h m (by rw [h2, hx])) w hw trivial
  · exact safe_pure _

/-! ### Constructors -/

/-- Allocation of a live meter and entry into the clock's set. -/
theorem newMeter_safe (env : Env F) : Safe S (fun _ => True) (newMeter env : Act F Ref) := by
  intro w hw _
  by_cases hn : w.useNil
  · have : newMeter env w = alloc (.meter .nil) w := by simp [newMeter, hn]
    rw [this]
    exact safe_alloc (P := fun _ => True) (by simp [Obj.live]) (by simp [RefsOk]) w hw trivial
  · set o : Obj F := .meter (.std (StandardMeter.new env.now)) with ho
    have hlive : o.live = some .meter := by simp [ho, Obj.live, StandardMeter.new]
    have hnew : (newMeter env w).1 = { w with objs := Function.update w.objs w.nextObj (some o), nextObj := w.nextObj + 1, meters := w.nextObj :: w.meters, started := true } := by
      rw [newMeter, if_neg hn]; rfl
    rw [hnew]
    have hmem : w.nextObj ∉ w.meters := by
      rw [hw.meters]
      rintro ⟨o', h, -⟩
      rw [hw.obj _ (le_refl _)] at h
      simp at h
    have hle : w.Le S { w with objs := Function.update w.objs w.nextObj (some o), nextObj := w.nextObj + 1, meters := w.nextObj :: w.meters, started := true } :=
      (World.Le.alloc (S := S) hw o).trans (World.Le.same rfl rfl rfl rfl rfl)
    constructor
    · refine { obj := ?_, arr := hw.arr, meters := ?_, nodup := by simp [hmem, hw.nodup], started := fun _ => rfl, keys := hw.keys, metric := ?_, refs := ?_ }
      · intro q hq
        simp only at hq
        have : q ≠ w.nextObj := by omega
        simp only [Function.update_of_ne this]
        exact hw.obj q (by omega)
      · intro q
        simp only [List.mem_cons, hw.meters q]
        by_cases hq : q = w.nextObj
        · subst hq
          simp [Function.update_self, hlive]
        · simp [Function.update_of_ne hq, hq]
      · intro i e he
        obtain ⟨o', h1, h2⟩ := hw.metric i e he
        have : e.2 ≠ w.nextObj := by
          intro hc
          rw [hc, hw.obj _ (le_refl _)] at h1
          simp at h1
        simp only [Function.update_of_ne this]
        exact ⟨o', h1, h2⟩
      · intro q o' hq
        by_cases hqr : q = w.nextObj
        · subst hqr
          simp only [Function.update_self, ho] at hq
          cases hq
          trivial
        · simp only [Function.update_of_ne hqr] at hq
          exact hle.refsOk (hw.refs q o' hq)
    · exact hle

theorem newExp_safe (env : Env F) (k : Int) (alpha : F) : Safe S (fun _ => True) (newExp env k alpha : Act F Ref) := by
  intro w hw _
  simp only [newExp]
  split
  · exact safe_alloc (P := fun _ => True) (by simp [Obj.live]) (by simp [RefsOk]) w hw trivial
  · exact safe_bind stable_true (safe_lift _) (fun _ => safe_alloc (by simp [Obj.live]) (by simp [RefsOk])) w hw trivial

theorem newHist_safe (s : Ref) : Safe S (fun _ => True) (newHist s : Act F Ref) := by
  intro w hw _
  simp only [newHist]
  split
  · exact safe_alloc (P := fun _ => True) (by simp [Obj.live]) (by simp [RefsOk]) w hw trivial
  · split
    · rename_i x hx
      exact ⟨hw.alloc (by simp [Obj.live]) ⟨_, hx, rfl⟩, World.Le.alloc hw _⟩
    · exact ⟨hw, .refl w⟩

theorem newTimer_safe (h m : Ref) : Safe S (fun _ => True) (newTimer h m : Act F Ref) := by
  intro w hw _
  simp only [newTimer]
  split
  · exact safe_alloc (P := fun _ => True) (by simp [Obj.live]) (by simp [RefsOk]) w hw trivial
  · split
    · rename_i x y hx hy
      exact ⟨hw.alloc (by simp [Obj.live]) ⟨⟨_, hx, rfl⟩, _, hy, rfl⟩, World.Le.alloc hw _⟩
    · exact ⟨hw, .refl w⟩

theorem construct_safe (env : Env F) (c : NewOp F) : Safe S (fun _ => True) (construct env c) := by
  have al : ∀ {o : Obj F}, o.live ≠ some .meter → (∀ w, RefsOk w o) → Safe S (fun _ => True) (alloc o : Act F Ref) :=
    fun h1 h2 => safe_alloc h1 fun w _ => h2 w
  cases c with
  | counter => intro w hw _; exact al (by cases w.useNil <;> simp [Counter.new, Obj.live]) (by simp [RefsOk]) w hw trivial
  | gauge => intro w hw _; exact al (by cases w.useNil <;> simp [Gauge.new, Obj.live]) (by simp [RefsOk]) w hw trivial
  | funcGauge f => intro w hw _; exact al (by cases w.useNil <;> simp [Gauge.newFunctional, Obj.live]) (by simp [RefsOk]) w hw trivial
  | gaugeF => intro w hw _; exact al (by cases w.useNil <;> simp [GaugeF.new, Obj.live]) (by simp [RefsOk]) w hw trivial
  | funcGaugeF f => intro w hw _; exact al (by cases w.useNil <;> simp [GaugeF.newFunctional, Obj.live]) (by simp [RefsOk]) w hw trivial
  | health f => intro w hw _; exact al (by cases w.useNil <;> simp [Health.new, Obj.live]) (by simp [RefsOk]) w hw trivial
  | uniform k =>
    intro w hw _
    simp only [construct]
    split
    · exact al (by simp [Obj.live]) (by simp [RefsOk]) w hw trivial
    · exact safe_bind stable_true (safe_lift _) (fun _ => al (by simp [Obj.live]) (by simp [RefsOk])) w hw trivial
  | exp k alpha => exact newExp_safe env k alpha
  | sampleSnap n a =>
    intro w hw _
    simp only [construct]
    split
    · rename_i hs
      have ha : a < w.nextArr := by
        by_contra hc
        rw [hw.arr a (by omega)] at hs
        simp at hs
      exact ⟨hw.alloc (by simp [Obj.live]) ha, World.Le.alloc hw _⟩
    · have := safe_newSnap (F := F) (S := S) (P := fun _ => True) [] false n stable_true (fun q => safe_pure q) w hw trivial
      exact this
  | hist s => exact newHist_safe s
  | ewma alpha => intro w hw _; exact al (by cases w.useNil <;> simp [Ewma.new, Obj.live]) (by simp [RefsOk]) w hw trivial
  | meter => exact newMeter_safe env
  | timer =>
    intro w hw _
    simp only [construct]
    split
    · exact al (by simp [Obj.live]) (by simp [RefsOk]) w hw trivial
    · exact safe_bind stable_true (newExp_safe env _ _) (fun s => safe_bind stable_true (newHist_safe s) fun h =>
        safe_bind stable_true (newMeter_safe env) fun m => newTimer_safe h m) w hw trivial
  | customTimer h m => exact newTimer_safe h m

/-! ### The clock -/

theorem runAll_safe {α : Type} {P : World F → Prop} (hP : Stable P) (f : α → Act F Unit) (l : List α) (h : ∀ a ∈ l, Safe S P (f a)) :
    Safe S P (runAll f l) := by
  induction l with
  | nil => exact safe_pure _
  | cons a l ih =>
    exact safe_bind hP (h a (by simp)) fun _ => ih fun b hb => h b (by simp [hb])

/-- A live meter ticks and stays live. -/
theorem tickOne_safe (env : Env F) (r : Ref) :
    Safe S (LiveAt r .meter) (tickOne env r : Act F Unit) := by
  rintro w hw ⟨o, ho, hl⟩
  obtain ⟨m, rfl⟩ : ∃ m, o = .meter (.std m) := by
    cases o with
    | meter m => cases m <;> simp_all [Obj.live]
    | counter x => cases x <;> simp [Obj.live] at hl
    | gauge x => cases x <;> simp [Obj.live] at hl
    | gaugeF x => cases x <;> simp [Obj.live] at hl
    | health x => cases x <;> simp [Obj.live] at hl
    | sample x => cases x <;> simp [Obj.live] at hl
    | ewma x => cases x <;> simp [Obj.live] at hl
    | hist x => simp [Obj.live] at hl
    | timer x => simp [Obj.live] at hl
  have hs : m.stopped = false := by simpa [Obj.live] using hl
  have e : tickOne env r w = setObj r (.meter (.std (m.tick env.now))) w := by
    simp [tickOne, act_bind_getObj, ho, Meter.tick]
  rw [e]
  exact safe_setObj (P := fun w => w.objs r = some (.meter (.std m)))
    (fun w h => ⟨_, h, .inr ⟨.meter, hl, by simp [Obj.live, StandardMeter.tick, StandardMeter.updateSnapshot, hs]⟩⟩) w hw ho

/-- Ticking keeps every live meter live. -/
theorem tickOne_meters (env : Env F) (r : Ref) (w : World F) (hr : LiveAt r .meter w) :
    (tickOne env r w).1.meters = w.meters := by
  obtain ⟨o, ho, hl⟩ := hr
  simp only [tickOne, act_bind_getObj, ho]
  cases o <;> rfl

theorem tickAll_safe (env : Env F) (l : List Ref) (w : World F) (hw : w.Ok) (hl : ∀ r ∈ l, r ∈ w.meters) :
    (runAll (tickOne env) l w).1.Ok ∧ w.Le S (runAll (tickOne env) l w).1 ∧ (runAll (tickOne env) l w).1.meters = w.meters := by
  induction l generalizing w with
  | nil => exact ⟨hw, .refl w, rfl⟩
  | cons r l ih =>
    have hr : LiveAt r .meter w := (hw.meters r).1 (hl r (by simp))
    obtain ⟨h1, h2⟩ := tickOne_safe env r w hw hr
    have h3 := tickOne_meters env r w hr
    have e : runAll (tickOne env) (r :: l) w = runAll (tickOne env) l (tickOne env r w).1 := by
      obtain ⟨o, ho, hl⟩ := hr
      simp only [runAll, act_bind, tickOne, act_getObj, ho]
      cases o <;> rfl
    rw [e]
    obtain ⟨h4, h5, h6⟩ := ih (tickOne env r w).1 h1 (fun q hq => by rw [h3]; exact hl q (by simp [hq]))
    exact ⟨h4, h2.trans h5, h6.trans h3⟩

theorem tickMeters_safe (env : Env F) : Safe S (fun _ => True) (tickMeters env : Act F Unit) := by
  intro w hw _
  obtain ⟨h1, h2, -⟩ := tickAll_safe env (env.order w.meters) w hw fun r hr => (env.order_perm w.meters).mem_iff.1 hr
  exact ⟨h1, h2⟩

theorem sliceOp_safe (o : SliceOp) : Safe S (fun _ => True) (sliceOp o : Act F (Out F)) := by
  cases o with
  | make l => exact safe_newArrRet _ _
  | set a i v =>
    intro w hw _
    simp only [sliceOp]
    split
    · rename_i h
      exact ⟨hw.arrs _, World.Le.arrs w a _ (by simp [h])⟩
    · exact ⟨hw, .refl w⟩

/-! ### Registries -/

theorem lookup_none {m : List (Str × Ref)} {name : Str} : lookup m name = none ↔ name ∉ m.map Prod.fst := by
  simp only [lookup, Option.map_eq_none_iff, List.find?_eq_none, List.mem_map]
  constructor
  · rintro h ⟨e, he, rfl⟩
    exact h e he (by simp)
  · rintro h e he hc
    exact h ⟨e, he, by simpa using hc⟩

theorem lookup_some_mem {m : List (Str × Ref)} {name : Str} {r : Ref} (h : lookup m name = some r) : (name, r) ∈ m := by
  simp only [lookup, Option.map_eq_some_iff] at h
  obtain ⟨e, he, rfl⟩ := h
  have h1 := List.find?_some he
  have h2 := List.mem_of_find?_eq_some he
  have : e.1 = name := by simpa using h1
  subst this
  exact h2

theorem lookup_of_mem {m : List (Str × Ref)} {name : Str} {r : Ref} (hn : (m.map Prod.fst).Nodup) (h : (name, r) ∈ m) :
    lookup m name = some r := by
  induction m with
  | nil => simp at h
  | cons e m ih =>
    simp only [List.map_cons, List.nodup_cons] at hn
    simp only [List.mem_cons] at h
    rcases h with rfl | h
    · simp [lookup]
    · have : e.1 ≠ name := by
        rintro rfl
        exact hn.1 (List.mem_map.2 ⟨_, h, rfl⟩)
      have := ih hn.2 h
      simp only [lookup] at this ⊢
      rw [List.find?_cons_of_neg (by simpa using ‹e.1 ≠ name›)]
      exact this

theorem register_safe (id : Nat) (name : Str) (v : Val F) : Safe S (fun _ => True) (register id name v) := by
  refine safe_getReg fun m => ?_
  cases hl : lookup m name with
  | some r => exact safe_pure _
  | none =>
    cases v with
    | obj r =>
      refine safe_getObj fun o => ?_
      cases o with
      | none => exact safe_pure _
      | some o =>
        by_cases hm : o.isMetric
        · rintro w hw ⟨⟨-, hreg⟩, ho⟩
          simp only [hm]
          show World.Ok { w with regs := Function.update w.regs id ((name, r) :: m) } ∧ w.Le S { w with regs := Function.update w.regs id ((name, r) :: m) }
          refine ⟨hw.regs id _ ?_ ?_, World.Le.same rfl rfl rfl rfl rfl⟩
          · simp only [List.map_cons, List.nodup_cons]
            exact ⟨lookup_none.1 hl, hreg ▸ hw.keys id⟩
          · intro e he
            simp only [List.mem_cons] at he
            rcases he with rfl | he
            · exact ⟨o, ho, hm⟩
            · exact hw.metric id e (hreg ▸ he)
        · simp only [hm]
          exact safe_pure _
    | _ => exact safe_pure _

theorem getOrRegister_safe (env : Env F) (id : Nat) (name : Str) (v : Val F) : Safe S (fun _ => True) (getOrRegister env id name v) := by
  refine safe_getReg fun m => safe_weaken (Q := fun _ => True) ?_ fun _ _ => trivial
  cases lookup m name with
  | some r => exact safe_pure _
  | none =>
    cases v with
    | obj r => exact safe_bind stable_true (register_safe _ _ _) fun _ => safe_pure _
    | ctor c => exact safe_bind stable_true (construct_safe env c) fun _ => safe_bind stable_true (register_safe _ _ _) fun _ => safe_pure _
    | otherFn => exact safe_pure _
    | badFn => exact safe_fail _
    | other => exact safe_pure _

theorem safe_void {α : Type} {P : World F → Prop} {x : Act F α} (h : Safe S P x) : Safe S P (do let _ ← x; return () : Act F Unit) := by
  intro w hw hp
  have := h w hw hp
  rw [act_bind]
  generalize x w = y at this
  obtain ⟨w', r⟩ := y
  cases r <;> exact this

theorem stopNamed_safe (env : Env F) (id : Nat) (name : Str) :
    Safe S (fun w => ∀ r, lookup (w.regs id) name = some r → StopsIn S r w) (stopNamed env id name) := by
  refine safe_getReg fun m => ?_
  split
  · exact safe_pure _
  · rename_i r hr
    refine safe_weaken (Q := fun w => StopsIn S r w) (safe_getObj fun o => ?_) fun w hw => hw.1 r (by rw [hw.2]; exact hr)
    split
    · split
      · exact safe_void (safe_weaken (call_safe env _ _) fun w hw _ => hw.1)
      · exact safe_pure _
    · exact safe_pure _

theorem deleteName_safe (id : Nat) (name : Str) : Safe S (fun _ => True) (deleteName id name : Act F Unit) := by
  intro w hw _
  refine ⟨hw.regs id _ ?_ fun e he => hw.metric id e (List.mem_filter.1 he).1, World.Le.same rfl rfl rfl rfl rfl⟩
  exact ((hw.keys id).sublist (List.Sublist.map _ List.filter_sublist))

theorem safe_bind' {α β : Type} {P : World F → Prop} {x : Act F α} {f : α → Act F β} (hx : Safe S P x)
    (hf : ∀ a, Safe S (fun _ => True) (f a)) : Safe S P (x >>= f) := by
  intro w hw hp
  obtain ⟨h1, h2⟩ := hx w hw hp
  rw [act_bind]
  generalize hxw : x w = y at h1 h2
  obtain ⟨w', r⟩ := y
  cases r with
  | error p => exact ⟨h1, h2⟩
  | ok a =>
    obtain ⟨h3, h4⟩ := hf a w' h1 trivial
    exact ⟨h3, h2.trans h4⟩

theorem unregister_safe (env : Env F) (id : Nat) (name : Str) :
    Safe S (fun w => ∀ r, lookup (w.regs id) name = some r → StopsIn S r w) (unregister env id name) :=
  safe_bind' (stopNamed_safe env id name) fun _ => deleteName_safe id name

theorem stopsIn_all (r : Ref) (w : World F) : StopsIn (fun _ => True) r w := ⟨trivial, fun _ _ _ => trivial⟩

theorem unregisterAll_safe (env : Env F) (id : Nat) : Safe (fun _ => True) (fun _ => True) (unregisterAll env id) :=
  safe_getReg fun _ => safe_weaken (Q := fun _ => True) (runAll_safe stable_true _ _ fun _ _ =>
    safe_weaken (unregister_safe _ _ _) fun w _ r _ => stopsIn_all r w) fun _ _ => trivial

theorem runHealthchecks_safe (env : Env F) (id : Nat) : Safe S (fun _ => True) (runHealthchecks env id) := by
  refine safe_getReg fun _ => safe_weaken (Q := fun _ => True) (runAll_safe stable_true _ _ fun _ _ => ?_) fun _ _ => trivial
  refine safe_getObj fun o => safe_weaken (Q := fun _ => True) ?_ fun _ _ => trivial
  split
  · exact safe_bind stable_true (safe_weaken (call_safe env _ _) fun w _ hc => by cases hc) fun _ => safe_pure _
  · exact safe_pure _

/-- The registry calls that do not stop metrics. -/
def RegOp.noStop : RegOp F → Prop
  | .unregister _ | .unregisterAll => False
  | _ => True

theorem regCall_safe (env : Env F) (g : Reg) (o : RegOp F) (ho : o.noStop ∨ S = fun _ => True) : Safe S (fun _ => True) (regCall env g o) := by
  induction g generalizing o with
  | foreign => cases o <;> exact safe_pure _
  | prefixed u p ih => cases o <;> exact ih _ (by simpa [RegOp.noStop] using ho)
  | std id =>
    cases o with
    | get name =>
      refine safe_getReg fun m => safe_weaken (Q := fun _ => True) ?_ fun _ _ => trivial
      split <;> exact safe_pure _
    | getOrRegister name v => exact getOrRegister_safe env id name v
    | register name v => exact register_safe id name v
    | unregister name =>
      obtain rfl : S = fun _ => True := by simpa [RegOp.noStop] using ho
      exact safe_bind stable_true (safe_weaken (unregister_safe env id name) fun w _ r _ => stopsIn_all r w) fun _ => safe_pure _
    | unregisterAll =>
      obtain rfl : S = fun _ => True := by simpa [RegOp.noStop] using ho
      exact safe_bind stable_true (unregisterAll_safe env id) fun _ => safe_pure _
    | runHealthchecks => exact safe_bind stable_true (runHealthchecks_safe env id) fun _ => safe_pure _

/-! ### Histories -/

/-- The operations that do not stop metrics. -/
def Op.noStop : Op F → Prop
  | .call _ .stop => False
  | .reg _ o => o.noStop
  | _ => True

theorem step_safe (env : Env F) (o : Op F) (ho : o.noStop ∨ S = fun _ => True) : Safe S (fun _ => True) (step env o) := by
  cases o with
  | setNil b =>
    intro w hw _
    exact ⟨{ obj := hw.obj, arr := hw.arr, meters := hw.meters, nodup := hw.nodup, started := hw.started, keys := hw.keys, metric := hw.metric, refs := fun r o hr => RefsOk.mono (fun _ _ h => h) (fun _ _ h _ => h) (le_refl _) (hw.refs r o hr) },
      World.Le.same rfl rfl rfl rfl rfl⟩
  | new c => exact safe_bind stable_true (construct_safe env c) fun _ => safe_pure _
  | call r c =>
    refine safe_bind stable_true (safe_weaken (call_safe env r c) fun w _ hc => ?_) fun _ => safe_pure _
    subst hc
    obtain rfl : S = fun _ => True := by simpa [Op.noStop] using ho
    exact stopsIn_all r w
  | slice o => exact safe_bind stable_true (sliceOp_safe o) fun _ => safe_pure _
  | tick => exact safe_bind stable_true (tickMeters_safe env) fun _ => safe_pure _
  | reg g o => exact safe_bind stable_true (regCall_safe env g o (by simpa [Op.noStop] using ho)) fun _ => safe_pure _

/-- What every history keeps. -/
abbrev World.Leq (w w' : World F) : Prop := w.Le (fun _ => True) w'

theorem World.Ok.step {w : World F} (h : w.Ok) (env : Env F) (o : Op F) : (GoMetrics.step env o w).1.Ok ∧ w.Leq (GoMetrics.step env o w).1 :=
  step_safe env o (.inr rfl) w h trivial

theorem World.Ok.run {w : World F} (h : w.Ok) (l : List (Env F × Op F)) : (w.run l).Ok ∧ w.Leq (w.run l) := by
  induction l generalizing w with
  | nil => exact ⟨h, .refl w⟩
  | cons x l ih =>
    obtain ⟨env, o⟩ := x
    obtain ⟨h1, h2⟩ := h.step env o
    obtain ⟨h3, h4⟩ := ih h1
    exact ⟨h3, h2.trans h4⟩

theorem run_ok (l : List (Env F × Op F)) : ((World.init : World F).run l).Ok := (World.Ok.init.run l).1

theorem World.Ok.call {w : World F} (h : w.Ok) (env : Env F) (r : Ref) (c : Call F) :
    (GoMetrics.call env r c w).1.Ok ∧ w.Leq (GoMetrics.call env r c w).1 :=
  call_safe env r c w h fun _ => stopsIn_all r w

theorem World.Ok.construct {w : World F} (h : w.Ok) (env : Env F) (c : NewOp F) :
    (GoMetrics.construct env c w).1.Ok ∧ w.Leq (GoMetrics.construct env c w).1 :=
  construct_safe env c w h trivial

theorem step_call_fst (env : Env F) (r : Ref) (c : Call F) (w : World F) : (step env (.call r c) w).1 = (call env r c w).1 := by
  show ((call env r c >>= fun o => pure (OpOut.out o)) w).1 = _
  rw [act_bind]
  rcases call env r c w with ⟨w', _ | a⟩ <;> rfl

theorem step_new_fst (env : Env F) (c : NewOp F) (w : World F) : (step env (.new c) w).1 = (construct env c w).1 := by
  show ((construct env c >>= fun o => pure (OpOut.out (Out.ref o))) w).1 = _
  rw [act_bind]
  rcases construct env c w with ⟨w', _ | a⟩ <;> rfl

theorem World.run_append (w : World F) (a b : List (Env F × Op F)) : w.run (a ++ b) = (w.run a).run b := by
  induction a generalizing w with
  | nil => rfl
  | cons x a ih => obtain ⟨env, o⟩ := x; exact ih _

end GoMetrics
