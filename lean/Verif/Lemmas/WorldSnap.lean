import Verif.Lemmas.WorldRead

/-! Snapshots: what they contain, and that they stay as they are. -/

set_option linter.unusedSimpArgs false
set_option linter.unnecessarySeqFocus false
set_option linter.unusedSectionVars false
set_option linter.unnecessarySimpa false

namespace GoMetrics
open Spec

variable {F : Type} [GoFloat F] [GoSqrt F] [GoExp F]

/-- `P`: the values are not in a slice that user code still holds. -/
def FrozenSample (P : Prop) (w : World F) (r : Ref) : Prop :=
  (∃ n a, w.objs r = some (.sample (.snap n a)) ∧ (P → w.shared a = false) ∧ a < w.nextArr) ∨ w.objs r = some (.sample .nil)
def FrozenHist (P : Prop) (w : World F) (r : Ref) : Prop :=
  (∃ s, w.objs r = some (.hist (.snap s)) ∧ FrozenSample P w s) ∨ w.objs r = some (.hist .nil)
def FrozenMeter (w : World F) (r : Ref) : Prop := (∃ s, w.objs r = some (.meter (.snap s))) ∨ w.objs r = some (.meter .nil)
def FrozenTimer (P : Prop) (w : World F) (r : Ref) : Prop :=
  (∃ h m, w.objs r = some (.timer (.snap h m)) ∧ FrozenHist P w h ∧ FrozenMeter w m) ∨ w.objs r = some (.timer .nil)
/-- Counters, gauges and averages. -/
def FrozenScalar : Obj F → Prop
  | .counter (.snap _) | .counter .nil | .gauge (.snap _) | .gauge .nil | .gaugeF (.snap _) | .gaugeF .nil | .ewma (.snap _) | .ewma .nil => True
  | _ => False
def FrozenIf (P : Prop) (w : World F) (r : Ref) : Prop :=
  (∃ o, w.objs r = some o ∧ FrozenScalar o) ∨ FrozenSample P w r ∨ FrozenHist P w r ∨ FrozenMeter w r ∨ FrozenTimer P w r
abbrev Frozen (w : World F) (r : Ref) : Prop := FrozenIf True w r

section le
variable {S : Ref → Prop} {w w' : World F}

theorem FrozenSample.le (hle : w.Le S w') {r : Ref} (h : FrozenSample True w r) :
    FrozenSample True w' r ∧ ∀ c, ReadOK c → sampleRef w' r c = sampleRef w r c := by
  rcases h with ⟨n, a, h1, h2, h3⟩ | h
  · have h1' := hle.frozen r _ h1 rfl
    have e := (hle.arr a h3).1
    have p := hle.perm h3 (S := S) (w' := w')
    refine ⟨.inl ⟨n, a, h1', fun _ => e.trans (h2 trivial), lt_of_lt_of_le h3 hle.nextA⟩, fun c hc => ?_⟩
    simp only [sampleRef, h1, h1']
    cases c <;> try rfl
    · exact hc.2 _ rfl _ _ (p (h2 trivial))
    · simp [sampleVal, sampleVals, (p (h2 trivial)).length_eq]
  · have h' := hle.frozen r _ h rfl
    refine ⟨.inr h', fun c hc => ?_⟩
    simp only [sampleRef, h, h']
    cases c <;> rfl

theorem FrozenHist.le (hle : w.Le S w') {r : Ref} (h : FrozenHist True w r) :
    FrozenHist True w' r ∧ ∀ c, ReadOK c → histRef w' r c = histRef w r c := by
  rcases h with ⟨s, h1, h2⟩ | h
  · have h1' := hle.frozen r _ h1 rfl
    obtain ⟨h3, h4⟩ := h2.le hle
    refine ⟨.inl ⟨s, h1', h3⟩, fun c hc => ?_⟩
    simp only [histRef, h1, h1']
    cases c <;> try rfl
    · exact h4 .count readOK_count
    · exact h4 (.stat _) hc
  · have h' := hle.frozen r _ h rfl
    refine ⟨.inr h', fun c hc => ?_⟩
    simp only [histRef, h, h']
    cases c <;> rfl

theorem FrozenMeter.le (hle : w.Le S w') {r : Ref} (h : FrozenMeter w r) :
    FrozenMeter w' r ∧ ∀ c, meterRef w' r c = meterRef w r c := by
  rcases h with ⟨s, h⟩ | h
  · have h' := hle.frozen r _ h rfl
    exact ⟨.inl ⟨s, h'⟩, fun c => by simp only [meterRef, h, h']⟩
  · have h' := hle.frozen r _ h rfl
    exact ⟨.inr h', fun c => by simp only [meterRef, h, h']⟩

theorem frozenScalar_live {o : Obj F} (h : FrozenScalar o) : o.live = none := by
  cases o with
  | counter x => cases x <;> simp_all [FrozenScalar, Obj.live]
  | gauge x => cases x <;> simp_all [FrozenScalar, Obj.live]
  | gaugeF x => cases x <;> simp_all [FrozenScalar, Obj.live]
  | ewma x => cases x <;> simp_all [FrozenScalar, Obj.live]
  | _ => simp [FrozenScalar] at h

theorem frozenScalar_val {o : Obj F} (h : FrozenScalar o) (env env' : Env F) (c : Call F) : objVal w' env' o c = objVal w env o c := by
  cases o with
  | counter x => cases x <;> cases c <;> rfl
  | gauge x => cases x <;> simp [FrozenScalar] at h <;> cases c <;> rfl
  | gaugeF x => cases x <;> simp [FrozenScalar] at h <;> cases c <;> rfl
  | ewma x => cases x <;> cases c <;> rfl
  | _ => simp [FrozenScalar] at h

/-- A frozen object stays frozen and its accessors keep their results. -/
theorem FrozenIf.le (hle : w.Le S w') {r : Ref} (h : Frozen w r) :
    Frozen w' r ∧ ∀ env env' c, ReadOK c → observe w' env' r c = observe w env r c := by
  rcases h with ⟨o, h, ho⟩ | h | h | h | h
  · have h' := hle.frozen r _ h (frozenScalar_live ho)
    refine ⟨.inl ⟨o, h', ho⟩, fun env env' c hc => ?_⟩
    rw [read_obj h c (hc.1), read_obj h' c (hc.1), frozenScalar_val ho]
  · obtain ⟨h', e⟩ := h.le hle
    refine ⟨.inr (.inl h'), fun env env' c hc => ?_⟩
    have ha := hc.1
    obtain ⟨o, ho, e1⟩ : ∃ x, w.objs r = some (.sample x) ∧ True := by rcases h with ⟨n, a, h, -⟩ | h <;> exact ⟨_, h, trivial⟩
    obtain ⟨o', ho', e1'⟩ : ∃ x, w'.objs r = some (.sample x) ∧ True := by rcases h' with ⟨n, a, h, -⟩ | h <;> exact ⟨_, h, trivial⟩
    rw [read_obj ho c ha, read_obj ho' c ha]
    have := e c hc
    simp only [sampleRef, ho, ho'] at this
    exact this
  · obtain ⟨h', e⟩ := h.le hle
    refine ⟨.inr (.inr (.inl h')), fun env env' c hc => ?_⟩
    have ha := hc.1
    obtain ⟨o, ho, e1⟩ : ∃ x, w.objs r = some (.hist x) ∧ True := by rcases h with ⟨a, h, -⟩ | h <;> exact ⟨_, h, trivial⟩
    obtain ⟨o', ho', e1'⟩ : ∃ x, w'.objs r = some (.hist x) ∧ True := by rcases h' with ⟨a, h, -⟩ | h <;> exact ⟨_, h, trivial⟩
    rw [read_obj ho c ha, read_obj ho' c ha]
    have := e c hc
    simp only [histRef, ho, ho'] at this
    exact this
  · obtain ⟨h', e⟩ := h.le hle
    refine ⟨.inr (.inr (.inr (.inl h'))), fun env env' c hc => ?_⟩
    have ha := hc.1
    obtain ⟨o, ho, e1⟩ : ∃ x, w.objs r = some (.meter x) ∧ True := by rcases h with ⟨a, h⟩ | h <;> exact ⟨_, h, trivial⟩
    obtain ⟨o', ho', e1'⟩ : ∃ x, w'.objs r = some (.meter x) ∧ True := by rcases h' with ⟨a, h⟩ | h <;> exact ⟨_, h, trivial⟩
    rw [read_obj ho c ha, read_obj ho' c ha]
    have := e c
    simp only [meterRef, ho, ho'] at this
    exact this
  · rcases h with ⟨x, m, h, hh, hm⟩ | h
    · have h' := hle.frozen r _ h rfl
      obtain ⟨hh', eh⟩ := hh.le hle
      obtain ⟨hm', em⟩ := hm.le hle
      refine ⟨.inr (.inr (.inr (.inr (.inl ⟨x, m, h', hh', hm'⟩)))), fun env env' c hc => ?_⟩
      have ha := hc.1
      rw [read_obj h c ha, read_obj h' c ha]
      cases c <;> try rfl
      · exact eh .count readOK_count
      · exact eh (.stat _) hc
      · exact em _
    · have h' := hle.frozen r _ h rfl
      refine ⟨.inr (.inr (.inr (.inr (.inr h')))), fun env env' c hc => ?_⟩
      have ha := hc.1
      rw [read_obj h c ha, read_obj h' c ha]
      cases c <;> rfl

end le

/-! ### Pure extensions of the store -/

theorem Ext.refl (w : World F) : Ext w w := ⟨fun _ _ => rfl, le_refl _, fun _ _ => ⟨rfl, rfl⟩, le_refl _, rfl, rfl, rfl, rfl⟩
theorem Ext.trans {w w' w'' : World F} (h : Ext w w') (h' : Ext w' w'') : Ext w w'' :=
  ⟨fun r hr => (h'.objs r (lt_of_lt_of_le hr h.next)).trans (h.objs r hr), h.next.trans h'.next,
    fun a ha => ⟨(h'.arrs a (lt_of_lt_of_le ha h.nextA)).1.trans (h.arrs a ha).1, (h'.arrs a (lt_of_lt_of_le ha h.nextA)).2.trans (h.arrs a ha).2⟩,
    h.nextA.trans h'.nextA, h'.meters.trans h.meters, h'.regs.trans h.regs, h'.started.trans h.started, h'.useNil.trans h.useNil⟩
theorem Ext.alloc (w : World F) (o : Obj F) :
    Ext w { w with objs := Function.update w.objs w.nextObj (some o), nextObj := w.nextObj + 1 } := by
  refine ⟨fun r hr => ?_, by simp, fun _ _ => ⟨rfl, rfl⟩, le_refl _, rfl, rfl, rfl, rfl⟩
  have : r ≠ w.nextObj := by omega
  simp [Function.update_of_ne this]
theorem Ext.newArr (w : World F) (l : List Int64) (b : Bool) :
    Ext w { w with arrs := Function.update w.arrs w.nextArr l, shared := Function.update w.shared w.nextArr b, nextArr := w.nextArr + 1 } := by
  refine ⟨fun r hr => rfl, le_refl _, fun a ha => ?_, by simp, rfl, rfl, rfl, rfl⟩
  have : a ≠ w.nextArr := by omega
  simp [Function.update_of_ne this]

theorem World.Ok.lt {w : World F} (h : w.Ok) {r : Ref} {o : Obj F} (hr : w.objs r = some o) : r < w.nextObj := by
  by_contra hc
  rw [h.obj r (by omega)] at hr
  simp at hr

theorem Ext.keep {w w' : World F} (hx : Ext w w') (h : w.Ok) {r : Ref} {o : Obj F} (hr : w.objs r = some o) : w'.objs r = some o := by
  rw [hx.objs r (h.lt hr), hr]

theorem Ext.sampleVal {w w' : World F} (hx : Ext w w') (h : w.Ok) {r : Ref} {x : SampleV F} (hr : w.objs r = some (.sample x)) (c : Call F) :
    sampleVal w' x c = sampleVal w x c := by
  cases x with
  | snap n a =>
    have : a < w.nextArr := h.refs r _ hr
    cases c <;> simp [GoMetrics.sampleVal, sampleVals, (hx.arrs a this).1]
  | _ => cases c <;> rfl

theorem Ext.sampleRef {w w' : World F} (hx : Ext w w') (h : w.Ok) {r : Ref} (hr : HasTy w r .sample) (c : Call F) :
    sampleRef w' r c = sampleRef w r c := by
  obtain ⟨o, ho, ht⟩ := hr
  cases o <;> simp [Obj.ty] at ht
  rename_i x
  simp only [GoMetrics.sampleRef, ho, hx.keep h ho]
  exact hx.sampleVal h ho c

theorem Ext.histRef {w w' : World F} (hx : Ext w w') (h : w.Ok) {r : Ref} (hr : HasTy w r .hist) (c : Call F) :
    histRef w' r c = histRef w r c := by
  obtain ⟨o, ho, ht⟩ := hr
  cases o <;> simp [Obj.ty] at ht
  rename_i x
  simp only [GoMetrics.histRef, ho, hx.keep h ho]
  have hs := h.refs r _ ho
  have hs' : ∀ s, x = .std s ∨ x = .snap s → HasTy w s .sample := by
    rintro s (rfl | rfl)
    · exact hs
    · obtain ⟨n, a, e⟩ := hs; exact ⟨_, e, rfl⟩
  cases x <;> cases c <;> first | rfl | exact hx.sampleRef h (hs' _ (.inl rfl)) _ | exact hx.sampleRef h (hs' _ (.inr rfl)) _

theorem Ext.meterRef {w w' : World F} (hx : Ext w w') (h : w.Ok) {r : Ref} (hr : HasTy w r .meter) (c : Call F) :
    meterRef w' r c = meterRef w r c := by
  obtain ⟨o, ho, ht⟩ := hr
  cases o <;> simp [Obj.ty] at ht
  simp only [GoMetrics.meterRef, ho, hx.keep h ho]

/-- New objects do not change what accessors of the old ones return. -/
theorem Ext.observe {w w' : World F} (hx : Ext w w') (h : w.Ok) {r : Ref} {o : Obj F} (hr : w.objs r = some o) (env : Env F) (c : Call F)
    (hc : accessor c = true) : observe w' env r c = observe w env r c := by
  rw [read_obj hr c hc, read_obj (hx.keep h hr) c hc]
  have hs := h.refs r _ hr
  cases o with
  | sample x => exact hx.sampleVal h hr c
  | hist x =>
    have := hx.histRef h ⟨_, hr, rfl⟩ c
    simp only [GoMetrics.histRef, hr, hx.keep h hr] at this
    exact this
  | timer x =>
    have hs' : ∀ a b, x = .std a b ∨ x = .snap a b → HasTy w a .hist ∧ HasTy w b .meter := by
      rintro a b (rfl | rfl)
      · exact hs
      · obtain ⟨⟨n, e⟩, m, e'⟩ := hs; exact ⟨⟨_, e, rfl⟩, _, e', rfl⟩
    cases x with
    | nil => cases c <;> rfl
    | std a b => cases c <;> first | rfl | exact hx.histRef h (hs' a b (.inl rfl)).1 _ | exact hx.meterRef h (hs' a b (.inl rfl)).2 _
    | snap a b => cases c <;> first | rfl | exact hx.histRef h (hs' a b (.inr rfl)).1 _ | exact hx.meterRef h (hs' a b (.inr rfl)).2 _
  | _ => cases c <;> rfl

theorem Ext.frozenSample {P : Prop} {w w' : World F} (hx : Ext w w') (h : w.Ok) {r : Ref} (hr : FrozenSample P w r) : FrozenSample P w' r := by
  rcases hr with ⟨n, a, h1, h2, h3⟩ | h1
  · exact .inl ⟨n, a, hx.keep h h1, fun p => (hx.arrs a h3).2.trans (h2 p), lt_of_lt_of_le h3 hx.nextA⟩
  · exact .inr (hx.keep h h1)

theorem Ext.frozenHist {P : Prop} {w w' : World F} (hx : Ext w w') (h : w.Ok) {r : Ref} (hr : FrozenHist P w r) : FrozenHist P w' r := by
  rcases hr with ⟨s, h1, h2⟩ | h1
  · exact .inl ⟨s, hx.keep h h1, hx.frozenSample h h2⟩
  · exact .inr (hx.keep h h1)

/-! ### Taking snapshots -/

theorem act_snap (w : World F) (l : List Int64) (n : Int64) :
    (do let a ← newArr l false; return .ref (← alloc (.sample (.snap n a))) : Act F (Out F)) w =
      ({ w with arrs := Function.update w.arrs w.nextArr l, shared := Function.update w.shared w.nextArr false, nextArr := w.nextArr + 1,
                objs := Function.update w.objs w.nextObj (some (.sample (.snap n w.nextArr))), nextObj := w.nextObj + 1 }, .ok (.ref w.nextObj)) := rfl

theorem sample_snap (P : Prop) (w : World F) (hw : w.Ok) (env : Env F) (r : Ref) (x : SampleV F) (hr : w.objs r = some (.sample x))
    (ho : P → ∀ a, sampleSlice w r = some a → w.shared a = false) :
    ∃ w1 q, sampleCall env r x .snapshot w = (w1, .ok (.ref q)) ∧ FrozenSample P w1 q ∧ (∀ c, accessor c = true → sampleRef w1 q c = sampleRef w r c) ∧ Ext w w1 := by
  have live : ∀ (l : List Int64) (n : Int64) (x : SampleV F), w.objs r = some (.sample x) →
      (∀ w' : World F, sampleVal w' x .count = .ok (.int n)) → sampleVals w x = l → x ≠ .nil →
      ∃ w1 q, (do let a ← newArr l false; return .ref (← alloc (.sample (.snap n a))) : Act F (Out F)) w = (w1, .ok (.ref q)) ∧
        FrozenSample P w1 q ∧ (∀ c, accessor c = true → sampleRef w1 q c = sampleRef w r c) ∧ Ext w w1 := by
    intro l n x hx hn hl hnil
    refine ⟨_, _, act_snap w l n, .inl ⟨n, w.nextArr, by simp, by simp, by simp⟩, ?_, ?_⟩
    · intro c hc
      simp only [sampleRef, Function.update_self, hx]
      cases c <;> simp [accessor] at hc <;> try (cases x <;> rfl)
      · exact (hn w).symm
      · simp [sampleVal, sampleVals, Function.update_self, hl]
        cases x <;> first | rfl | exact absurd rfl hnil | (rw [← hl]; rfl)
      · simp [sampleVal, hl]
        simp [sampleVals, Function.update_self]
    · exact (Ext.newArr w l false).trans (Ext.alloc _ _)
  cases x with
  | uniform s => exact live _ _ _ hr (fun _ => rfl) rfl (by simp)
  | exp s => exact live _ _ _ hr (fun _ => rfl) rfl (by simp)
  | snap n a =>
    refine ⟨w, r, rfl, .inl ⟨n, a, hr, fun p => ho p a (by simp [sampleSlice, hr]), hw.refs r _ hr⟩, fun c _ => rfl, Ext.refl w⟩
  | nil => exact ⟨w, r, rfl, .inr hr, fun c _ => rfl, Ext.refl w⟩

theorem hist_snap (P : Prop) (w : World F) (hw : w.Ok) (env : Env F) (r : Ref) (x : HistV) (hr : w.objs r = some (.hist x))
    (ho : P → ∀ a, histSlice w r = some a → w.shared a = false) (w1 : World F) (q : Ref)
    (h : histCall env r x .snapshot w = (w1, .ok (.ref q))) :
    FrozenHist P w1 q ∧ (∀ c, accessor c = true → histRef w1 q c = histRef w r c) ∧ Ext w w1 := by
  cases x with
  | std s =>
    obtain ⟨o, hs, ht⟩ : HasTy w s .sample := hw.refs r _ hr
    cases o <;> simp [Obj.ty] at ht
    rename_i x
    obtain ⟨w2, p, h1, h2, h3, h4⟩ := sample_snap P w hw env s x hs (fun p a ha => ho p a (by simpa [histSlice, hr] using ha))
    have hcall : callSample env s .snapshot w = (w2, .ok (.ref p)) := by
      rw [callSample, act_bind_getObj, hs]; exact h1
    simp only [histCall, act_bind, hcall, act_getObj] at h
    rcases h2 with ⟨n, a, h5, h6⟩ | h5
    · simp only [h5, act_bind, act_alloc, act_pure, Prod.mk.injEq, Except.ok.injEq, Out.ref.injEq] at h
      obtain ⟨rfl, rfl⟩ := h
      have hok : w2.Ok := by
        have := (sampleCall_safe (S := fun _ => True) env s x .snapshot w hw hs).1
        rwa [h1] at this
      have hext := Ext.alloc w2 (.hist (.snap p))
      refine ⟨.inl ⟨p, by simp, hext.frozenSample hok (.inl ⟨n, a, h5, h6⟩)⟩, ?_, h4.trans hext⟩
      intro c hc
      have e : ∀ c, accessor c = true → sampleRef { w2 with objs := Function.update w2.objs w2.nextObj (some (.hist (.snap p))), nextObj := w2.nextObj + 1 } p c = sampleRef w s c :=
        fun c hc => (hext.sampleRef hok ⟨_, h5, rfl⟩ c).trans (h3 c hc)
      simp only [histRef, Function.update_self, hr]
      cases c <;> simp [accessor] at hc <;> first | rfl | exact e _ rfl
    · simp only [h5] at h
      simp [act_fail] at h
  | snap s =>
    simp only [histCall, act_pure, Prod.mk.injEq, Except.ok.injEq, Out.ref.injEq] at h
    obtain ⟨rfl, rfl⟩ := h
    refine ⟨?_, fun c _ => rfl, Ext.refl w⟩
    obtain ⟨n, a, hs⟩ : ∃ n a, w.objs s = some (.sample (.snap n a)) := hw.refs r _ hr
    exact .inl ⟨s, hr, .inl ⟨n, a, hs, fun p => ho p a (by simp [histSlice, hr, sampleSlice, hs]), hw.refs s _ hs⟩⟩
  | nil =>
    simp only [histCall, act_pure, Prod.mk.injEq, Except.ok.injEq, Out.ref.injEq] at h
    obtain ⟨rfl, rfl⟩ := h
    exact ⟨.inr hr, fun c _ => rfl, Ext.refl w⟩

theorem meter_snap (w : World F) (env : Env F) (r : Ref) (x : Meter F) (hr : w.objs r = some (.meter x)) :
    ∃ w1 q, meterCall env r x .snapshot w = (w1, .ok (.ref q)) ∧ FrozenMeter w1 q ∧ (∀ c, meterRef w1 q c = meterRef w r c) ∧ Ext w w1 := by
  cases x with
  | std m =>
    refine ⟨_, _, rfl, .inl ⟨_, by simp [Function.update_self]; rfl⟩, fun c => ?_, Ext.alloc w _⟩
    simp only [meterRef, Function.update_self, hr]
    cases c <;> rfl
  | snap s => exact ⟨w, r, rfl, .inl ⟨s, hr⟩, fun _ => rfl, Ext.refl w⟩
  | nil => exact ⟨w, r, rfl, .inr hr, fun _ => rfl, Ext.refl w⟩

theorem timer_snap (P : Prop) (w : World F) (hw : w.Ok) (env : Env F) (r : Ref) (x : TimerV) (hr : w.objs r = some (.timer x))
    (ho : P → ∀ a, slice w r = some a → w.shared a = false) (w1 : World F) (q : Ref)
    (h : timerCall env r x .snapshot w = (w1, .ok (.ref q))) :
    FrozenTimer P w1 q ∧ (∀ env' c, accessor c = true → observe w1 env' q c = observe w env r c) ∧ Ext w w1 := by
  cases x with
  | std a b =>
    obtain ⟨⟨o, ha, ht⟩, o', hb, ht'⟩ : HasTy w a .hist ∧ HasTy w b .meter := hw.refs r _ hr
    cases o <;> simp [Obj.ty] at ht
    cases o' <;> simp [Obj.ty] at ht'
    rename_i x y
    have hcall : callHist env a .snapshot w = histCall env a x .snapshot w := by rw [callHist, act_bind_getObj, ha]
    have hok2 := (histCall_safe (S := fun _ => True) env a x .snapshot w hw trivial).1
    simp only [timerCall, act_bind, hcall] at h
    generalize hx2 : histCall env a x .snapshot w = y2 at h hok2
    obtain ⟨w2, r2⟩ := y2
    cases r2 with
    | error p => simp at h
    | ok o2 =>
      cases o2 <;> try (simp [act_pure] at h; done)
      rename_i qh
      obtain ⟨f2, e2, x2⟩ := hist_snap P w hw env a x ha (fun p s hs => ho p s (by simpa [slice, hr] using hs)) w2 qh hx2
      simp only [act_bind_getObj] at h
      rcases f2 with ⟨s, hq, hs⟩ | hq
      · simp only [hq] at h
        have hb2 := x2.keep hw hb
        have hcallm : callMeter env b .snapshot w2 = meterCall env b y .snapshot w2 := by rw [callMeter, act_bind_getObj, hb2]
        obtain ⟨w3, qm, h3, f3, e3, x3⟩ := meter_snap w2 env b y hb2
        have hok3 : w3.Ok := by
          have := (meterCall_safe (S := fun _ => True) env b y .snapshot (fun _ => trivial) w2 hok2 hb2).1
          rwa [h3] at this
        simp only [act_bind, hcallm, h3, act_getObj] at h
        rcases f3 with ⟨sm, hqm⟩ | hqm
        · simp only [hqm, act_bind, act_alloc, act_pure, Prod.mk.injEq, Except.ok.injEq, Out.ref.injEq] at h
          obtain ⟨rfl, rfl⟩ := h
          have x4 := Ext.alloc w3 (.timer (.snap qh qm))
          refine ⟨.inl ⟨qh, qm, by simp, (x3.trans x4).frozenHist hok2 (.inl ⟨s, hq, hs⟩), .inl ⟨sm, x4.keep hok3 hqm⟩⟩, ?_, (x2.trans x3).trans x4⟩
          intro env' c hc
          rw [read_obj (o := .timer (.snap qh qm)) (by simp) c hc, read_obj hr c hc]
          have eh : ∀ c, accessor c = true → histRef { w3 with objs := Function.update w3.objs w3.nextObj (some (.timer (.snap qh qm))), nextObj := w3.nextObj + 1 } qh c = histRef w a c :=
            fun c hc => ((x3.trans x4).histRef hok2 ⟨_, hq, rfl⟩ c).trans (e2 c hc)
          have em : ∀ c, meterRef { w3 with objs := Function.update w3.objs w3.nextObj (some (.timer (.snap qh qm))), nextObj := w3.nextObj + 1 } qm c = meterRef w b c :=
            fun c => ((x4.meterRef hok3 ⟨_, hqm, rfl⟩ c).trans (e3 c)).trans (x2.meterRef hw ⟨_, hb, rfl⟩ c)
          cases c <;> simp [accessor] at hc <;> first | rfl | exact eh _ rfl | exact em _
        · simp only [hqm] at h
          simp [act_fail] at h
      · simp only [hq] at h
        simp [act_fail] at h
  | snap a b =>
    simp only [timerCall, act_pure, Prod.mk.injEq, Except.ok.injEq, Out.ref.injEq] at h
    obtain ⟨rfl, rfl⟩ := h
    obtain ⟨⟨s, ha⟩, m, hb⟩ := hw.refs r _ hr
    obtain ⟨n, arr, hs⟩ := hw.refs a _ ha
    refine ⟨.inl ⟨a, b, hr, .inl ⟨s, ha, .inl ⟨n, arr, hs, ?_, hw.refs s _ hs⟩⟩, .inl ⟨m, hb⟩⟩, fun env' c hc => ?_, Ext.refl w⟩
    · exact fun p => ho p arr (by simp [slice, hr, histSlice, ha, sampleSlice, hs])
    · rw [read_obj hr c hc, read_obj hr c hc]
      cases c <;> rfl
  | nil =>
    simp only [timerCall, act_pure, Prod.mk.injEq, Except.ok.injEq, Out.ref.injEq] at h
    obtain ⟨rfl, rfl⟩ := h
    refine ⟨.inr hr, fun env' c hc => ?_, Ext.refl w⟩
    rw [read_obj hr c hc, read_obj hr c hc]
    cases c <;> rfl

/-- `Snapshot()` of anything: a frozen object that reads like the source, and nothing else changes. -/
theorem snapshot_if (P : Prop) (w : World F) (hw : w.Ok) (env : Env F) (r : Ref) (ho : P → ownsValues w r) (w1 : World F) (q : Ref)
    (h : call env r .snapshot w = (w1, .ok (.ref q))) :
    FrozenIf P w1 q ∧ (∀ env' c, accessor c = true → observe w1 env' q c = observe w env r c) ∧ Ext w w1 := by
  rw [call, act_bind_getObj] at h
  have scalar : ∀ o o' : Obj F, w.objs r = some o → FrozenScalar o' → (∀ c, objVal w env o c = objVal w env o' c) →
      (do return .ref (← alloc o') : Act F (Out F)) w = (w1, .ok (.ref q)) →
      FrozenIf P w1 q ∧ (∀ env' c, accessor c = true → observe w1 env' q c = observe w env r c) ∧ Ext w w1 := by
    intro o o' hr hf he h
    simp only [act_bind, act_alloc, act_pure, Prod.mk.injEq, Except.ok.injEq, Out.ref.injEq] at h
    obtain ⟨rfl, rfl⟩ := h
    refine ⟨.inl ⟨o', by simp, hf⟩, fun env' c hc => ?_, Ext.alloc w _⟩
    rw [read_obj (o := o') (by simp) c hc, read_obj hr c hc, he c, frozenScalar_val hf]
  rcases hr : w.objs r with _ | o
  · rw [hr] at h
    simp [act_pure] at h
  · rw [hr] at h
    cases o with
    | counter x => exact scalar _ _ hr (by cases x <;> trivial) (fun c => by cases x <;> cases c <;> rfl) h
    | gauge x => exact scalar _ _ hr (by cases x <;> trivial) (fun c => by cases x <;> cases c <;> rfl) h
    | gaugeF x => exact scalar _ _ hr (by cases x <;> trivial) (fun c => by cases x <;> cases c <;> rfl) h
    | ewma x => exact scalar _ _ hr (by cases x <;> trivial) (fun c => by cases x <;> cases c <;> rfl) h
    | health x => simp [healthCall, act_pure] at h
    | sample x =>
      obtain ⟨w2, p, h1, h2, h3, h4⟩ := sample_snap P w hw env r x hr (fun p a ha => ho p a (by simpa [slice, hr] using ha))
      simp only at h
      rw [h1] at h
      simp only [Prod.mk.injEq, Except.ok.injEq, Out.ref.injEq] at h
      obtain ⟨rfl, rfl⟩ := h
      refine ⟨.inr (.inl h2), fun env' c hc => ?_, h4⟩
      obtain ⟨y, hy⟩ : ∃ y, w2.objs p = some (.sample y) := by rcases h2 with ⟨n, a, h, -⟩ | h <;> exact ⟨_, h⟩
      have := h3 c hc
      simp only [sampleRef, hy, hr] at this
      rw [read_obj hy c hc, read_obj hr c hc]
      exact this
    | hist x =>
      obtain ⟨h2, h3, h4⟩ := hist_snap P w hw env r x hr (fun p a ha => ho p a (by simpa [slice, hr] using ha)) w1 q h
      refine ⟨.inr (.inr (.inl h2)), fun env' c hc => ?_, h4⟩
      obtain ⟨y, hy⟩ : ∃ y, w1.objs q = some (.hist y) := by rcases h2 with ⟨a, h, -⟩ | h <;> exact ⟨_, h⟩
      have := h3 c hc
      simp only [histRef, hy, hr] at this
      rw [read_obj hy c hc, read_obj hr c hc]
      exact this
    | meter x =>
      obtain ⟨w2, p, h1, h2, h3, h4⟩ := meter_snap w env r x hr
      simp only at h
      rw [h1] at h
      simp only [Prod.mk.injEq, Except.ok.injEq, Out.ref.injEq] at h
      obtain ⟨rfl, rfl⟩ := h
      refine ⟨.inr (.inr (.inr (.inl h2))), fun env' c hc => ?_, h4⟩
      obtain ⟨y, hy⟩ : ∃ y, w2.objs p = some (.meter y) := by rcases h2 with ⟨a, h⟩ | h <;> exact ⟨_, h⟩
      have := h3 c
      simp only [meterRef, hy, hr] at this
      rw [read_obj hy c hc, read_obj hr c hc]
      exact this
    | timer x =>
      obtain ⟨h2, h3, h4⟩ := timer_snap P w hw env r x hr ho w1 q h
      exact ⟨.inr (.inr (.inr (.inr h2))), h3, h4⟩

theorem snapshot_spec (w : World F) (hw : w.Ok) (env : Env F) (r : Ref) (ho : ownsValues w r) (w1 : World F) (q : Ref)
    (h : call env r .snapshot w = (w1, .ok (.ref q))) :
    Frozen w1 q ∧ (∀ env' c, accessor c = true → observe w1 env' q c = observe w env r c) ∧ Ext w w1 :=
  snapshot_if True w hw env r (fun _ => ho) w1 q h

/-- The snapshot reads like the source also when it shares the slice. -/
theorem snapshot_reads (w : World F) (hw : w.Ok) (env : Env F) (r : Ref) (w1 : World F) (q : Ref)
    (h : call env r .snapshot w = (w1, .ok (.ref q))) :
    (∀ env' c, accessor c = true → observe w1 env' q c = observe w env r c) ∧ Ext w w1 :=
  (snapshot_if False w hw env r False.elim w1 q h).2

end GoMetrics
