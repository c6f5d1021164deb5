import Verif.Lemmas.WorldSnap

/-! Which parts of the store an operation can change. -/

set_option linter.unusedSimpArgs false
set_option linter.unnecessarySeqFocus false
set_option linter.unusedSectionVars false
set_option linter.unnecessarySimpa false

namespace GoMetrics
open Spec

variable {F : Type}

/-- Not a histogram or timer that writes to other objects. -/
def Obj.plain : Obj F → Bool
  | .hist (.std _) | .timer (.std _ _) => false
  | _ => true

/-- A relation between stores kept by all primitive changes that write only objects in `P`. -/
structure Closed (P : Ref → Prop) (R : World F → World F → Prop) : Prop where
  refl : ∀ w, R w w
  trans : ∀ {w w' w''}, R w w' → R w' w'' → R w w''
  set : ∀ w r o, P r → o.plain = true → R w { w with objs := Function.update w.objs r (some o) }
  alloc : ∀ w o, o.plain = true → R w { w with objs := Function.update w.objs w.nextObj (some o), nextObj := w.nextObj + 1 }
  newArr : ∀ w l b, R w { w with arrs := Function.update w.arrs w.nextArr l, shared := Function.update w.shared w.nextArr b, nextArr := w.nextArr + 1 }
  sort : ∀ w a, R w { w with arrs := Function.update w.arrs a (sortInts (w.arrs a)) }
  del : ∀ w r, P r → R w { w with meters := w.meters.filter (· ≠ r) }

/-- The action keeps the relation. -/
def Keeps {α : Type} (R : World F → World F → Prop) (x : Act F α) : Prop := ∀ w, R w (x w).1

section prims
variable {P : Ref → Prop} {R : World F → World F → Prop} (hc : Closed P R) {α β : Type}
include hc

theorem keeps_pure (a : α) : Keeps R (pure a : Act F α) := fun w => hc.refl w
theorem keeps_fail (p : Panic) : Keeps R (Act.fail p : Act F α) := fun w => hc.refl w
theorem keeps_lift (r : Res α) : Keeps R (Act.lift r : Act F α) := fun w => hc.refl w
theorem keeps_bind_at {x : Act F α} {f : α → Act F β} {w : World F} (hx : R w (x w).1) (hf : ∀ a, Keeps R (f a)) : R w ((x >>= f) w).1 := by
  rw [act_bind]
  generalize x w = y at hx
  obtain ⟨w', _ | a⟩ := y
  · exact hx
  · exact hc.trans hx (hf a w')
theorem keeps_bind {x : Act F α} {f : α → Act F β} (hx : Keeps R x) (hf : ∀ a, Keeps R (f a)) : Keeps R (x >>= f) :=
  fun w => keeps_bind_at hc (hx w) hf
theorem keeps_getObj (r : Ref) : Keeps R (getObj r : Act F _) := fun w => hc.refl w
theorem keeps_getArr (r : Ref) : Keeps R (getArr r : Act F _) := fun w => hc.refl w
theorem keeps_getReg (r : Nat) : Keeps R (getReg r : Act F _) := fun w => hc.refl w
theorem keeps_setObj (r : Ref) (o : Obj F) (hr : P r) (ho : o.plain = true) : Keeps R (setObj r o) := fun w => hc.set w r o hr ho
theorem keeps_alloc (o : Obj F) (ho : o.plain = true) : Keeps R (alloc o) := fun w => hc.alloc w o ho
theorem keeps_newArr (l : List Int64) (b : Bool) : Keeps R (newArr l b : Act F _) := fun w => hc.newArr w l b
theorem keeps_sortArr (a : ArrId) : Keeps R (sortArr a : Act F _) := fun w => hc.sort w a
theorem keeps_del (r : Ref) (hr : P r) : Keeps R (arbiterDelete r : Act F _) := fun w => hc.del w r hr
theorem keeps_runAll (f : α → Act F Unit) (l : List α) (hf : ∀ a ∈ l, Keeps R (f a)) : Keeps R (runAll f l) := by
  induction l with
  | nil => exact keeps_pure hc _
  | cons a l ih => exact keeps_bind hc (hf a (by simp)) fun _ => ih fun b hb => hf b (by simp [hb])

end prims

section calls
variable [GoFloat F] [GoSqrt F] [GoExp F] {P : Ref → Prop} {R : World F → World F → Prop} (hc : Closed P R)
include hc

theorem keeps_set_unit (r : Ref) (hr : P r) (f : α → Obj F) (ho : ∀ a, (f a).plain = true) (x : Res α) : Keeps R (do setObj r (f (← Act.lift x)); return .unit : Act F (Out F)) :=
  keeps_bind hc (keeps_lift hc _) fun _ => keeps_bind hc (keeps_setObj hc r _ hr (ho _)) fun _ => keeps_pure hc _

theorem keeps_alloc_ref (o : Obj F) (ho : o.plain = true) : Keeps R (do return .ref (← alloc o) : Act F (Out F)) :=
  keeps_bind hc (keeps_alloc hc o ho) fun _ => keeps_pure hc _

theorem sampleCall_keeps (env : Env F) (r : Ref) (hr : P r) (s : SampleV F) (c : Call F) : Keeps R (sampleCall env r s c) := by
  unfold sampleCall
  split
  all_goals first
    | exact keeps_pure hc _
    | exact keeps_fail hc _
    | exact keeps_lift hc _
    | exact keeps_bind hc (keeps_setObj hc r _ hr rfl) fun _ => keeps_pure hc _
    | exact keeps_bind hc (keeps_newArr hc _ _) fun _ => keeps_pure hc _
    | exact keeps_bind hc (keeps_newArr hc _ _) fun _ => keeps_alloc_ref hc _ rfl
    | exact keeps_bind hc (keeps_setObj hc r _ hr rfl) fun _ => keeps_bind hc (keeps_lift hc _) fun _ => keeps_bind hc (keeps_setObj hc r _ hr rfl) fun _ => keeps_pure hc _
    | exact keeps_bind hc (keeps_getArr hc _) fun _ => keeps_pure hc _
    | exact keeps_bind hc (keeps_getArr hc _) fun _ => keeps_bind hc (keeps_newArr hc _ _) fun _ => keeps_pure hc _
    | (split
       · exact keeps_bind hc (keeps_setObj hc r _ hr rfl) fun _ => keeps_lift hc _
       · exact keeps_lift hc _)
    | (refine keeps_bind hc (keeps_getArr hc _) fun _ => ?_
       split
       · exact keeps_bind hc (keeps_sortArr hc _) fun _ => keeps_lift hc _
       · exact keeps_lift hc _)

theorem callSample_keeps (env : Env F) (r : Ref) (hr : P r) (c : Call F) : Keeps R (callSample env r c) := by
  refine keeps_bind hc (keeps_getObj hc _) fun o => ?_
  split
  · exact sampleCall_keeps hc env r hr _ c
  · exact keeps_pure hc _

/-- The sample of a histogram. -/
def HistV.sample : HistV → Option Ref
  | .std s | .snap s => some s
  | .nil => none

theorem histCall_keeps (env : Env F) (r : Ref) (h : HistV) (hs : ∀ s, h.sample = some s → P s) (c : Call F) : Keeps R (histCall env r h c) := by
  cases h with
  | std s =>
    have hs := hs s rfl
    cases c <;> first | exact callSample_keeps hc env s hs _ | exact keeps_pure hc _ | skip
    refine keeps_bind hc (callSample_keeps hc env s hs _) fun o => ?_
    split
    · refine keeps_bind hc (keeps_getObj hc _) fun o => ?_
      split
      · exact keeps_alloc_ref hc _ rfl
      · exact keeps_fail hc _
    · exact keeps_pure hc _
  | snap s =>
    have hs := hs s rfl
    cases c <;> first | exact callSample_keeps hc env s hs _ | exact keeps_pure hc _ | exact keeps_fail hc _
  | nil => cases c <;> first | exact keeps_pure hc _ | exact keeps_alloc_ref hc _ rfl

theorem meterCall_keeps (env : Env F) (r : Ref) (hr : P r) (m : Meter F) (c : Call F) : Keeps R (meterCall env r m c) := by
  cases c <;> try exact keeps_pure hc _
  · exact keeps_set_unit hc r hr _ (fun _ => rfl) _
  · cases m with
    | std s =>
      simp only [meterCall]
      split
      · exact keeps_pure hc _
      · exact keeps_bind hc (keeps_setObj hc r _ hr rfl) fun _ => keeps_bind hc (keeps_del hc r hr) fun _ => keeps_pure hc _
    | _ => exact keeps_pure hc _
  · cases m with
    | std s => exact keeps_alloc_ref hc _ rfl
    | _ => exact keeps_pure hc _

theorem callMeter_keeps (env : Env F) (r : Ref) (hr : P r) (c : Call F) : Keeps R (callMeter env r c) := by
  refine keeps_bind hc (keeps_getObj hc _) fun o => ?_
  split
  · exact meterCall_keeps hc env r hr _ c
  · exact keeps_pure hc _

theorem callHist_keeps (env : Env F) (r : Ref) (c : Call F) (w : World F) (hs : ∀ s, histSample w r = some s → P s) : R w (callHist env r c w).1 := by
  rw [callHist, act_bind_getObj]
  rcases hr : w.objs r with _ | o
  · exact hc.refl w
  · cases o with
    | hist x =>
      refine histCall_keeps hc env r x (fun s hx => hs s ?_) c w
      cases x <;> simp_all [histSample, HistV.sample]
    | _ => exact hc.refl w

theorem timerCall_keeps (env : Env F) (r : Ref) (t : TimerV) (c : Call F) (w : World F)
    (hP : ∀ h m, t = .std h m ∨ t = .snap h m → P m ∧ ∀ s, histSample w h = some s → P s) : R w (timerCall env r t c w).1 := by
  cases t with
  | std h m =>
    obtain ⟨hm, hs⟩ := hP h m (.inl rfl)
    cases c <;> first | exact callHist_keeps hc env h _ w hs | exact callMeter_keeps hc env m hm _ w | exact hc.refl w | skip
    · exact keeps_bind_at hc (callHist_keeps hc env h _ w hs) fun _ => callMeter_keeps hc env m hm _
    · exact keeps_bind_at hc (callHist_keeps hc env h _ w hs) fun _ => callMeter_keeps hc env m hm _
    · refine keeps_bind_at hc (callHist_keeps hc env h _ w hs) fun o => ?_
      split
      · refine keeps_bind hc (keeps_getObj hc _) fun o => ?_
        split
        · refine keeps_bind hc (callMeter_keeps hc env m hm _) fun o => ?_
          split
          · refine keeps_bind hc (keeps_getObj hc _) fun o => ?_
            split
            · exact keeps_alloc_ref hc _ rfl
            · exact keeps_fail hc _
          · exact keeps_pure hc _
        · exact keeps_fail hc _
      · exact keeps_pure hc _
  | snap h m =>
    obtain ⟨hm, hs⟩ := hP h m (.inr rfl)
    cases c <;> first | exact callHist_keeps hc env h _ w hs | exact callMeter_keeps hc env m hm _ w | exact hc.refl w
  | nil => cases c <;> exact hc.refl w

/-- A call writes only the object and those it is made of. -/
theorem call_keeps (env : Env F) (r : Ref) (c : Call F) (w : World F) (hP : ∀ x, partOf w r x → P x) : R w (call env r c w).1 := by
  rcases hr : w.objs r with _ | o
  · rw [call, act_bind_getObj, hr]; exact hc.refl w
  · rw [call_obj hr]
    have hpr : P r := hP r (.inl rfl)
    cases o with
    | counter x => cases c <;> first | exact hc.refl w | exact keeps_set_unit hc r hpr _ (fun _ => rfl) _ w | exact keeps_alloc_ref hc _ rfl w
    | gauge x => cases c <;> first | exact hc.refl w | exact keeps_set_unit hc r hpr _ (fun _ => rfl) _ w | exact keeps_alloc_ref hc _ rfl w
    | gaugeF x => cases c <;> first | exact hc.refl w | exact keeps_set_unit hc r hpr _ (fun _ => rfl) _ w | exact keeps_alloc_ref hc _ rfl w
    | health x => cases c <;> first | exact hc.refl w | exact keeps_bind hc (keeps_setObj hc r _ hpr rfl) (fun _ => keeps_pure hc _) w
    | ewma x => cases c <;> first | exact hc.refl w | exact keeps_set_unit hc r hpr _ (fun _ => rfl) _ w | exact keeps_alloc_ref hc _ rfl w
    | sample x => exact sampleCall_keeps hc env r hpr x c w
    | hist x =>
      refine histCall_keeps hc env r x (fun s hx => hP s (.inr (.inl ?_))) c w
      cases x <;> simp_all [histSample, HistV.sample]
    | meter x => exact meterCall_keeps hc env r hpr x c w
    | timer x =>
      refine timerCall_keeps hc env r x c w fun h m hx => ?_
      rcases hx with rfl | rfl
      · exact ⟨hP m (.inr (.inr (by simp [hr]))), fun s hs => hP s (.inr (.inr (by simp [hr, hs])))⟩
      · exact ⟨hP m (.inr (.inr (by simp [hr]))), fun s hs => hP s (.inr (.inr (by simp [hr, hs])))⟩

/-- The relation is also kept by new histograms and timers. -/
def NewOk (R : World F → World F → Prop) : Prop := ∀ w o, R w { w with objs := Function.update w.objs w.nextObj (some o), nextObj := w.nextObj + 1 }

theorem newExp_keeps (env : Env F) (k : Int) (a : F) : Keeps R (newExp env k a) := by
  intro w
  unfold newExp
  split
  · exact keeps_alloc hc _ rfl w
  · exact keeps_bind hc (keeps_lift hc _) (fun _ => keeps_alloc hc _ rfl) w

theorem newHist_keeps (hn : NewOk R) (s : Ref) : Keeps R (newHist s : Act F Ref) := by
  intro w
  unfold newHist
  split
  · exact keeps_alloc hc _ rfl w
  · split
    · exact hn w _
    · exact keeps_fail hc _ w

/-- The relation is also kept by a new meter that is ticked. -/
def AddOk (R : World F → World F → Prop) : Prop := ∀ w r, R w { w with meters := r :: w.meters, started := true }

theorem newMeter_keeps (ha : AddOk R) (env : Env F) : Keeps R (newMeter env) := by
  intro w
  unfold newMeter
  split
  · exact keeps_alloc hc _ rfl w
  · exact keeps_bind hc (keeps_alloc hc _ rfl) (fun r => keeps_bind hc (fun w => ha w r) fun _ => keeps_pure hc _) w

theorem newTimer_keeps (hn : NewOk R) (a b : Ref) : Keeps R (newTimer a b : Act F Ref) := by
  intro w
  unfold newTimer
  split
  · exact keeps_alloc hc _ rfl w
  · split
    · exact hn w _
    · exact keeps_fail hc _ w

/-- A constructor writes no object there was. -/
theorem construct_keeps (hn : NewOk R) (ha : AddOk R) (env : Env F) (c : NewOp F) : Keeps R (construct env c) := by
  intro w
  cases c with
  | uniform k =>
    simp only [construct]
    split
    · exact keeps_alloc hc _ rfl w
    · exact keeps_bind hc (keeps_lift hc _) (fun _ => keeps_alloc hc _ rfl) w
  | exp k a => exact newExp_keeps hc env k a w
  | sampleSnap n a =>
    simp only [construct]
    split
    · exact keeps_alloc hc _ rfl w
    · exact keeps_bind hc (keeps_newArr hc _ _) (fun _ => keeps_alloc hc _ rfl) w
  | hist s => exact newHist_keeps hc hn s w
  | meter => exact newMeter_keeps hc ha env w
  | timer =>
    simp only [construct]
    split
    · exact keeps_alloc hc _ rfl w
    · exact keeps_bind hc (newExp_keeps hc _ _ _) (fun _ => keeps_bind hc (newHist_keeps hc hn _) fun _ => keeps_bind hc (newMeter_keeps hc ha env) fun _ => newTimer_keeps hc hn _ _) w
  | customTimer a b => exact newTimer_keeps hc hn a b w
  | _ => exact keeps_alloc hc _ rfl w

theorem tickOne_keeps (env : Env F) (r : Ref) (hr : P r) : Keeps R (tickOne env r) := by
  refine keeps_bind hc (keeps_getObj hc _) fun o => ?_
  split
  · exact keeps_setObj hc r _ hr rfl
  · exact keeps_pure hc _

theorem tick_keeps (env : Env F) (w : World F) (hP : ∀ r ∈ w.meters, P r) : R w (tickMeters env w).1 :=
  keeps_runAll hc _ _ (fun r hr => tickOne_keeps hc env r (hP r ((env.order_perm _).mem_iff.1 hr))) w

end calls

/-! ### Registries and the flag -/

/-- Registries and `UseNilMetrics` stay. -/
def SameRegs (w w' : World F) : Prop := w'.regs = w.regs ∧ w'.useNil = w.useNil

theorem closed_sameRegs : Closed (F := F) (fun _ => True) SameRegs :=
  ⟨fun _ => ⟨rfl, rfl⟩, fun h h' => ⟨h'.1.trans h.1, h'.2.trans h.2⟩, fun _ _ _ _ _ => ⟨rfl, rfl⟩, fun _ _ _ => ⟨rfl, rfl⟩, fun _ _ _ => ⟨rfl, rfl⟩,
    fun _ _ => ⟨rfl, rfl⟩, fun _ _ _ => ⟨rfl, rfl⟩⟩

/-- Objects outside `P` stay. -/
def SameObjs (P : Ref → Prop) (w w' : World F) : Prop := w.nextObj ≤ w'.nextObj ∧ ∀ x, x < w.nextObj → ¬ P x → w'.objs x = w.objs x

theorem closed_sameObjs (P : Ref → Prop) : Closed (F := F) P (SameObjs P) := by
  refine ⟨fun _ => ⟨le_refl _, fun _ _ _ => rfl⟩, fun h h' => ⟨h.1.trans h'.1, fun x hx hp => (h'.2 x (lt_of_lt_of_le hx h.1) hp).trans (h.2 x hx hp)⟩, ?_, ?_, ?_, ?_, ?_⟩
  · intro w r o hr _
    refine ⟨le_refl _, fun x _ hx => Function.update_of_ne ?_ ..⟩
    rintro rfl
    exact hx hr
  · intro w o _
    exact ⟨Nat.le_succ _, fun x hx _ => Function.update_of_ne (Nat.ne_of_lt hx) ..⟩
  all_goals intros; exact ⟨le_refl _, fun _ _ _ => rfl⟩

/-- No meter is added to those that are ticked. -/
def FewerMeters (w w' : World F) : Prop := ∀ x ∈ w'.meters, x ∈ w.meters

theorem closed_fewerMeters : Closed (F := F) (fun _ => True) FewerMeters :=
  ⟨fun _ _ h => h, fun h h' x hx => h x (h' x hx), fun _ _ _ _ _ _ h => h, fun _ _ _ _ h => h, fun _ _ _ _ h => h, fun _ _ _ h => h, fun _ _ _ _ h => List.mem_of_mem_filter h⟩

variable [GoFloat F] [GoSqrt F] [GoExp F]

theorem call_regs (env : Env F) (r : Ref) (c : Call F) (w : World F) : SameRegs w (call env r c w).1 := call_keeps closed_sameRegs env r c w fun _ _ => trivial
theorem construct_regs (env : Env F) (c : NewOp F) (w : World F) : SameRegs w (construct env c w).1 := construct_keeps closed_sameRegs (fun _ _ => ⟨rfl, rfl⟩) (fun _ _ => ⟨rfl, rfl⟩) env c w
theorem tick_regs (env : Env F) (w : World F) : SameRegs w (tickMeters env w).1 := tick_keeps closed_sameRegs env w fun _ _ => trivial

theorem call_fewer (env : Env F) (r : Ref) (c : Call F) (w : World F) : FewerMeters w (call env r c w).1 := call_keeps closed_fewerMeters env r c w fun _ _ => trivial
theorem tick_fewer (env : Env F) (w : World F) : FewerMeters w (tickMeters env w).1 := tick_keeps closed_fewerMeters env w fun _ _ => trivial

theorem call_objs (env : Env F) (r : Ref) (c : Call F) (w : World F) : SameObjs (partOf w r) w (call env r c w).1 := call_keeps (closed_sameObjs _) env r c w fun _ h => h
theorem construct_objs (env : Env F) (c : NewOp F) (w : World F) : SameObjs (fun _ => False) w (construct env c w).1 := construct_keeps (closed_sameObjs _) (fun w _ => ⟨Nat.le_succ _, fun x hx _ => Function.update_of_ne (Nat.ne_of_lt hx) ..⟩) (fun _ _ => ⟨le_refl _, fun _ _ _ => rfl⟩) env c w
theorem tick_objs (env : Env F) (w : World F) : SameObjs (· ∈ w.meters) w (tickMeters env w).1 := tick_keeps (closed_sameObjs _) env w fun _ h => h

/-! ### Histograms and timers that write to other objects -/

/-- There are no new standard histograms and timers. -/
def SameOwners (w w' : World F) : Prop := ∀ x o, w'.objs x = some o → o.plain = false → w.objs x = some o

theorem closed_sameOwners : Closed (F := F) (fun _ => True) SameOwners := by
  have upd : ∀ (w : World F) r o, o.plain = true → ∀ x o', Function.update w.objs r (some o) x = some o' → o'.plain = false → w.objs x = some o' := by
    intro w r o ho x o' h h'
    rcases eq_or_ne x r with rfl | hx
    · rw [Function.update_self, Option.some.injEq] at h
      rw [h, h'] at ho
      simp at ho
    · rwa [Function.update_of_ne hx] at h
  exact ⟨fun _ _ _ h _ => h, fun h h' x o ho hp => h x o (h' x o ho hp) hp, fun w r o _ ho => upd w r o ho, fun w o ho => upd w _ o ho,
    fun _ _ _ _ _ h _ => h, fun _ _ _ _ h _ => h, fun _ _ _ _ _ h _ => h⟩

theorem call_owners (env : Env F) (r : Ref) (c : Call F) (w : World F) : SameOwners w (call env r c w).1 := call_keeps closed_sameOwners env r c w fun _ _ => trivial
theorem tick_owners (env : Env F) (w : World F) : SameOwners w (tickMeters env w).1 := tick_keeps closed_sameOwners env w fun _ _ => trivial

end GoMetrics
