import Verif.Lemmas.WorldEffect
import Verif.Lemmas.WorldSim
import Verif.Lemmas.Runtime
import Verif.Spec.Independence

/-! What an object reports depends only on its parts and its slice (C93). -/

set_option linter.unusedSimpArgs false
set_option linter.unnecessarySeqFocus false
set_option linter.unusedSectionVars false
set_option linter.unnecessarySimpa false

namespace GoMetrics.Indep
open GoMetrics GoMetrics.Spec

variable {F : Type} [GoFloat F] [GoSqrt F] [GoExp F]

/-! ### Congruence -/

/-- The parts and the slice of `y` are as they were. -/
structure Same (w w' : World F) (y : Ref) : Prop where
  objs : ∀ p, partOf w y p → w'.objs p = w.objs p
  arrs : ∀ a, slice w y = some a → w'.arrs a = w.arrs a

theorem sampleRef_congr {w w' : World F} {r : Ref} (h : w'.objs r = w.objs r) (ha : ∀ a, sampleSlice w r = some a → w'.arrs a = w.arrs a) (c : Call F) :
    sampleRef w' r c = sampleRef w r c := by
  unfold sampleRef
  rw [h]
  rcases hr : w.objs r with _ | o
  · rfl
  · cases o with
    | sample x =>
      cases x with
      | snap n a =>
        have := ha a (by simp [sampleSlice, hr])
        cases c <;> simp [sampleVal, sampleVals, this]
      | _ => cases c <;> rfl
    | _ => rfl

theorem histRef_congr {w w' : World F} {r : Ref} (h : w'.objs r = w.objs r) (hs : ∀ s, histSample w r = some s → w'.objs s = w.objs s)
    (ha : ∀ a, histSlice w r = some a → w'.arrs a = w.arrs a) (c : Call F) : histRef w' r c = histRef w r c := by
  unfold histRef
  rw [h]
  rcases hr : w.objs r with _ | o
  · rfl
  · cases o with
    | hist x =>
      have key : ∀ s, x = .std s ∨ x = .snap s → ∀ c : Call F, sampleRef w' s c = sampleRef w s c := by
        rintro s hx c
        refine sampleRef_congr (hs s ?_) (fun a h => ha a ?_) c
        · rcases hx with rfl | rfl <;> simp [histSample, hr]
        · rcases hx with rfl | rfl <;> simpa [histSlice, hr] using h
      cases x <;> cases c <;> first | rfl | exact key _ (.inl rfl) _ | exact key _ (.inr rfl) _
    | _ => rfl

theorem observe_congr {w w' : World F} {y : Ref} (h : Same w w' y) (env : Env F) (c : Call F) (hc : accessor c = true) :
    observe w' env y c = observe w env y c := by
  have h0 := h.objs y (.inl rfl)
  rcases hr : w.objs y with _ | o
  · rw [read_none hr, read_none (h0.trans hr)]
  · rw [read_obj hr c hc, read_obj (h0.trans hr) c hc]
    cases o with
    | sample x =>
      have := sampleRef_congr h0 (fun a ha => h.arrs a (by simp [slice, hr]; exact ha)) c
      simp only [sampleRef, hr, h0.trans hr] at this
      exact this
    | hist x =>
      have := histRef_congr h0 (fun s hs => h.objs s (.inr (.inl hs))) (fun a ha => h.arrs a (by simp [slice, hr]; exact ha)) c
      simp only [histRef, hr, h0.trans hr] at this
      exact this
    | timer x =>
      have key : ∀ a b, x = .std a b ∨ x = .snap a b → (∀ c : Call F, histRef w' a c = histRef w a c) ∧ ∀ c : Call F, meterRef w' b c = meterRef w b c := by
        rintro a b hx
        have ha : w'.objs a = w.objs a := h.objs a (by rcases hx with rfl | rfl <;> simp [partOf, hr])
        have hb : w'.objs b = w.objs b := h.objs b (by rcases hx with rfl | rfl <;> simp [partOf, hr])
        refine ⟨fun c => histRef_congr ha (fun s hs => h.objs s ?_) (fun i hi => h.arrs i ?_) c, fun c => by simp only [meterRef, hb]⟩
        · rcases hx with rfl | rfl <;> simp [partOf, hr, hs]
        · rcases hx with rfl | rfl <;> simpa [slice, hr] using hi
      cases x <;> cases c <;> first | rfl | exact (key _ _ (.inl rfl)).1 _ | exact (key _ _ (.inr rfl)).1 _ | exact (key _ _ (.inl rfl)).2 _ | exact (key _ _ (.inr rfl)).2 _
    | _ => cases c <;> rfl

/-! ### Which slices an operation can change -/

/-- The slice keeps its values. -/
def Kept (a : ArrId) (w w' : World F) : Prop := w.nextArr ≤ w'.nextArr ∧ (a < w.nextArr → w'.arrs a = w.arrs a)

variable {a : ArrId}

theorem Kept.refl (w : World F) : Kept a w w := ⟨le_refl _, fun _ => rfl⟩
theorem Kept.trans {w w' w'' : World F} (h : Kept a w w') (h' : Kept a w' w'') : Kept a w w'' :=
  ⟨h.1.trans h'.1, fun ha => (h'.2 (lt_of_lt_of_le ha h.1)).trans (h.2 ha)⟩

theorem kept_bind_at {x : Act F α} {f : α → Act F β} {w : World F} (hx : Kept a w (x w).1) (hf : ∀ b, Keeps (Kept a) (f b)) : Kept a w ((x >>= f) w).1 := by
  rw [act_bind]
  generalize x w = y at hx
  obtain ⟨w', _ | b⟩ := y
  · exact hx
  · exact hx.trans (hf b w')
theorem kept_bind {x : Act F α} {f : α → Act F β} (hx : Keeps (Kept a) x) (hf : ∀ b, Keeps (Kept a) (f b)) : Keeps (Kept a) (x >>= f) :=
  fun w => kept_bind_at (hx w) hf
theorem kept_pure (b : α) : Keeps (Kept a) (pure b : Act F α) := fun w => .refl w
theorem kept_fail (p : Panic) : Keeps (Kept a) (Act.fail p : Act F α) := fun w => .refl w
theorem kept_lift (r : Res α) : Keeps (Kept a) (Act.lift r : Act F α) := fun w => .refl w
theorem kept_getObj (r : Ref) : Keeps (Kept a) (getObj r : Act F _) := fun w => .refl w
theorem kept_getArr (r : ArrId) : Keeps (Kept a) (getArr r : Act F _) := fun w => .refl w
theorem kept_setObj (r : Ref) (o : Obj F) : Keeps (Kept a) (setObj r o) := fun _ => ⟨le_refl _, fun _ => rfl⟩
theorem kept_alloc (o : Obj F) : Keeps (Kept a) (alloc o) := fun _ => ⟨le_refl _, fun _ => rfl⟩
theorem kept_del (r : Ref) : Keeps (Kept a) (arbiterDelete r : Act F _) := fun _ => ⟨le_refl _, fun _ => rfl⟩
theorem kept_add (r : Ref) : Keeps (Kept a) (arbiterAdd r : Act F _) := fun _ => ⟨le_refl _, fun _ => rfl⟩
theorem kept_newArr (l : List Int64) (b : Bool) : Keeps (Kept a) (newArr l b : Act F _) := fun _ => ⟨Nat.le_succ _, fun h => Function.update_of_ne (Nat.ne_of_lt h) ..⟩
theorem kept_sortArr (b : ArrId) (h : b ≠ a) : Keeps (Kept a) (sortArr b : Act F _) := fun _ => ⟨le_refl _, fun _ => Function.update_of_ne (Ne.symm h) ..⟩
theorem kept_set_unit (r : Ref) (f : α → Obj F) (x : Res α) : Keeps (Kept a) (do setObj r (f (← Act.lift x)); return .unit : Act F (Out F)) :=
  kept_bind (kept_lift _) fun _ => kept_bind (kept_setObj r _) fun _ => kept_pure _
theorem kept_alloc_ref (o : Obj F) : Keeps (Kept a) (do return .ref (← alloc o) : Act F (Out F)) :=
  kept_bind (kept_alloc o) fun _ => kept_pure _

/-- The call does not sort the slice `a`. -/
def Quiet (a : ArrId) (c : Call F) (s : Option ArrId) : Prop := ∀ k, c = .stat k → s ≠ some a

theorem kept_sampleCall (env : Env F) (r : Ref) (s : SampleV F) (c : Call F) (h : ∀ n b, s = .snap n b → ∀ k, c = .stat k → b ≠ a) : Keeps (Kept a) (sampleCall env r s c) := by
  unfold sampleCall
  split
  all_goals first
    | exact kept_pure _
    | exact kept_fail _
    | exact kept_lift _
    | exact kept_bind (kept_setObj r _) fun _ => kept_pure _
    | exact kept_bind (kept_newArr _ _) fun _ => kept_pure _
    | exact kept_bind (kept_newArr _ _) fun _ => kept_alloc_ref _
    | exact kept_bind (kept_setObj r _) fun _ => kept_bind (kept_lift _) fun _ => kept_bind (kept_setObj r _) fun _ => kept_pure _
    | exact kept_bind (kept_getArr _) fun _ => kept_pure _
    | exact kept_bind (kept_getArr _) fun _ => kept_bind (kept_newArr _ _) fun _ => kept_pure _
    | (split
       · exact kept_bind (kept_setObj r _) fun _ => kept_lift _
       · exact kept_lift _)
    | (have hb := h _ _ rfl _ rfl
       refine kept_bind (kept_getArr _) fun _ => ?_
       split
       · exact kept_bind (kept_sortArr _ hb) fun _ => kept_lift _
       · exact kept_lift _)

theorem kept_callSample (env : Env F) (r : Ref) (c : Call F) (w : World F) (h : Quiet a c (sampleSlice w r)) : Kept a w (callSample env r c w).1 := by
  rw [callSample, act_bind_getObj]
  rcases hr : w.objs r with _ | o
  · exact .refl w
  · cases o with
    | sample s =>
      refine kept_sampleCall env r s c (fun n b hs k hk hb => h k hk ?_) w
      subst hs hb
      simp [sampleSlice, hr]
    | _ => exact .refl w

theorem kept_callMeter (env : Env F) (r : Ref) (c : Call F) : Keeps (Kept a) (callMeter env r c) := by
  refine kept_bind (kept_getObj _) fun o => ?_
  split
  · rename_i m
    cases c <;> try exact kept_pure _
    · exact kept_set_unit r _ _
    · cases m with
      | std s =>
        simp only [meterCall]
        split
        · exact kept_pure _
        · exact kept_bind (kept_setObj r _) fun _ => kept_bind (kept_del r) fun _ => kept_pure _
      | _ => exact kept_pure _
    · cases m with
      | std s => exact kept_alloc_ref _
      | _ => exact kept_pure _
  · exact kept_pure _

theorem kept_histCall (env : Env F) (r : Ref) (x : HistV) (c : Call F) (w : World F) (h : ∀ s, x.sample = some s → Quiet a c (sampleSlice w s)) :
    Kept a w (histCall env r x c w).1 := by
  have hq : ∀ s (c' : Call F), (∀ k, c' ≠ .stat k) → Quiet a c' (sampleSlice w s) := fun s c' h k hk => absurd hk (h k)
  cases x with
  | std s =>
    cases c <;> first | exact .refl w | exact kept_callSample env s _ w (h s rfl) | skip
    refine kept_bind_at (kept_callSample env s _ w (h s rfl)) fun o => ?_
    split
    · refine kept_bind (kept_getObj _) fun o => ?_
      split
      · exact kept_alloc_ref _
      · exact kept_fail _
    · exact kept_pure _
  | snap s => cases c <;> first | exact .refl w | exact kept_callSample env s _ w (h s rfl)
  | nil => cases c <;> first | exact .refl w | exact kept_alloc_ref _ w

theorem kept_callHist (env : Env F) (r : Ref) (c : Call F) (w : World F) (h : Quiet a c (histSlice w r)) : Kept a w (callHist env r c w).1 := by
  rw [callHist, act_bind_getObj]
  rcases hr : w.objs r with _ | o
  · exact .refl w
  · cases o with
    | hist x =>
      refine kept_histCall env r x c w fun s hs k hk he => h k hk ?_
      cases x <;> simp_all [histSlice, HistV.sample]
    | _ => exact .refl w

/-- A call changes only the slice of the object. -/
theorem kept_call (env : Env F) (r : Ref) (c : Call F) (w : World F) (h : Quiet a c (slice w r)) : Kept a w (call env r c w).1 := by
  rcases hr : w.objs r with _ | o
  · rw [call, act_bind_getObj, hr]; exact .refl w
  · rw [call_obj hr]
    cases o with
    | health x => cases c <;> first | exact .refl w | exact kept_bind (kept_setObj r _) (fun _ => kept_pure _) w
    | sample x =>
      refine kept_sampleCall env r x c (fun n b hs k hk hb => h k hk ?_) w
      subst hs hb
      simp [slice, sampleSlice, hr]
    | hist x =>
      refine kept_histCall env r x c w fun s hs k hk he => h k hk ?_
      cases x <;> simp_all [slice, histSlice, HistV.sample]
    | meter x =>
      have := kept_callMeter (a := a) env r c w
      rw [callMeter, act_bind_getObj, hr] at this
      exact this
    | timer x =>
      have hq : ∀ p m, x = .std p m ∨ x = .snap p m → Quiet a c (histSlice w p) := by
        rintro p m (rfl | rfl) k hk he
        · exact h k hk (by simpa [slice, hr] using he)
        · exact h k hk (by simpa [slice, hr] using he)
      have hn : ∀ p (c' : Call F), (∀ k, c' ≠ .stat k) → Quiet a c' (histSlice w p) := fun s c' h k hk => absurd hk (h k)
      cases x with
      | std p m =>
        cases c <;> first | exact .refl w | exact kept_callMeter env m _ w | exact kept_callHist env p _ w (hq p m (.inl rfl)) | skip
        · exact kept_bind_at (kept_callHist env p _ w (hn _ _ (by simp))) fun _ => kept_callMeter env m _
        · exact kept_bind_at (kept_callHist env p _ w (hn _ _ (by simp))) fun _ => kept_callMeter env m _
        · refine kept_bind_at (kept_callHist env p _ w (hn _ _ (by simp))) fun o => ?_
          split
          · refine kept_bind (kept_getObj _) fun o => ?_
            split
            · refine kept_bind (kept_callMeter env m _) fun o => ?_
              split
              · refine kept_bind (kept_getObj _) fun o => ?_
                split
                · exact kept_alloc_ref _
                · exact kept_fail _
              · exact kept_pure _
            · exact kept_fail _
          · exact kept_pure _
      | snap p m =>
        cases c <;> first | exact .refl w | exact kept_callMeter env m _ w | exact kept_callHist env p _ w (hq p m (.inr rfl))
      | nil => cases c <;> exact .refl w
    | _ => cases c <;> first | exact .refl w | exact kept_set_unit r _ _ w | exact kept_alloc_ref _ w

theorem kept_newExp (env : Env F) (k : Int) (b : F) : Keeps (Kept a) (newExp env k b) := by
  intro w
  unfold newExp
  split
  · exact kept_alloc _ w
  · exact kept_bind (kept_lift _) (fun _ => kept_alloc _) w

theorem kept_newHist (s : Ref) : Keeps (Kept a) (newHist s : Act F Ref) := by
  intro w
  unfold newHist
  split
  · exact kept_alloc _ w
  · split
    · exact kept_alloc _ w
    · exact kept_fail _ w

theorem kept_newMeter (env : Env F) : Keeps (Kept a) (newMeter env) := by
  intro w
  unfold newMeter
  split
  · exact kept_alloc _ w
  · exact kept_bind (kept_alloc _) (fun _ => kept_bind (kept_add _) fun _ => kept_pure _) w

theorem kept_newTimer (h m : Ref) : Keeps (Kept a) (newTimer h m : Act F Ref) := by
  intro w
  unfold newTimer
  split
  · exact kept_alloc _ w
  · split
    · exact kept_alloc _ w
    · exact kept_fail _ w

theorem kept_construct (env : Env F) (c : NewOp F) : Keeps (Kept a) (construct env c) := by
  intro w
  cases c with
  | uniform k =>
    simp only [construct]
    split
    · exact kept_alloc _ w
    · exact kept_bind (kept_lift _) (fun _ => kept_alloc _) w
  | exp k b => exact kept_newExp env k b w
  | sampleSnap n b =>
    simp only [construct]
    split
    · exact kept_alloc _ w
    · exact kept_bind (kept_newArr _ _) (fun _ => kept_alloc _) w
  | hist s => exact kept_newHist s w
  | meter => exact kept_newMeter env w
  | timer =>
    simp only [construct]
    split
    · exact kept_alloc _ w
    · exact kept_bind (kept_newExp _ _ _) (fun _ => kept_bind (kept_newHist _) fun _ => kept_bind (kept_newMeter env) fun _ => kept_newTimer _ _) w
  | customTimer h m => exact kept_newTimer h m w
  | _ => exact kept_alloc _ w

/-! ### Registries -/

theorem kept_stopState (env : Env F) (id : Nat) (name : Str) (w : World F) : Kept a w (unregister env id name w).1 := by
  refine kept_bind (fun w => ?_) (fun _ => ?_) w
  · refine kept_bind_at (x := getReg id) (.refl w) (fun m => ?_)
    split
    · exact kept_pure _
    · rename_i r hr
      refine kept_bind (kept_getObj _) fun o => ?_
      split
      · split
        · exact kept_bind (fun w => kept_call env r .stop w (by intro k hk; cases hk)) fun _ => kept_pure _
        · exact kept_pure _
      · exact kept_pure _
  · intro w
    exact ⟨le_refl _, fun _ => rfl⟩

theorem kept_runAll (f : α → Act F Unit) (l : List α) (hf : ∀ b, Keeps (Kept a) (f b)) : Keeps (Kept a) (runAll f l) := by
  induction l with
  | nil => exact kept_pure _
  | cons b l ih => exact kept_bind (hf b) fun _ => ih

theorem kept_register (id : Nat) (name : Str) (v : Val F) : Keeps (Kept a) (register id name v) := by
  intro w
  refine kept_bind_at (x := getReg id) (.refl w) (fun m => ?_)
  split
  · exact kept_pure _
  · split
    · refine kept_bind (kept_getObj _) fun o => ?_
      split
      · split
        · exact kept_bind (fun w => ⟨le_refl _, fun _ => rfl⟩) fun _ => kept_pure _
        · exact kept_pure _
      · exact kept_pure _
    · exact kept_pure _

theorem kept_regCall (env : Env F) (g : Reg) (o : RegOp F) : Keeps (Kept a) (regCall env g o) := by
  induction g generalizing o with
  | foreign => cases o <;> exact kept_pure _
  | prefixed u p ih => cases o <;> exact ih _
  | std id =>
    cases o with
    | get name =>
      intro w
      refine kept_bind_at (x := getReg id) (.refl w) (fun m => ?_)
      split <;> exact kept_pure _
    | getOrRegister name v =>
      intro w
      rw [regCall, getOrRegister.eq_def]
      refine kept_bind_at (x := getReg id) (.refl w) (fun m => ?_)
      split
      · exact kept_pure _
      · split
        · exact kept_bind (kept_construct env _) fun _ => kept_bind (kept_register _ _ _) fun _ => kept_pure _
        · exact kept_pure _
        · exact kept_fail _
        · exact kept_bind (kept_register _ _ _) fun _ => kept_pure _
        · exact kept_pure _
    | register name v => exact kept_register id name v
    | unregister name => exact kept_bind (kept_stopState env id name) fun _ => kept_pure _
    | unregisterAll =>
      refine kept_bind (fun w => ?_) fun _ => kept_pure _
      exact kept_bind_at (x := getReg id) (.refl w) (fun m => kept_runAll _ _ fun n => kept_stopState env id n)
    | runHealthchecks =>
      refine kept_bind (fun w => ?_) fun _ => kept_pure _
      refine kept_bind_at (x := getReg id) (.refl w) (fun m => kept_runAll _ _ fun e => ?_)
      refine kept_bind (kept_getObj _) fun o => ?_
      split
      · exact kept_bind (fun w => kept_call env e.2 .check w (by intro k hk; cases hk)) fun _ => kept_pure _
      · exact kept_pure _

theorem step_kept (w : World F) (env : Env F) (o : Op F) (hc : ∀ x c, o = .call x c → slice w x ≠ some a) (hs : ∀ i v, o ≠ .slice (.set a i v)) :
    Kept a w (step env o w).1 := by
  cases o with
  | setNil b => exact ⟨le_refl _, fun _ => rfl⟩
  | new c => rw [step_new_fst]; exact kept_construct env c w
  | call x c => rw [step_call_fst]; exact kept_call env x c w fun k _ => hc x c rfl
  | slice s =>
    cases s with
    | make l => exact kept_bind (kept_bind (kept_newArr _ _) fun _ => kept_pure _) (fun _ => kept_pure _) w
    | set b i v =>
      refine kept_bind (fun w => ?_) (fun _ => kept_pure _) w
      simp only [sliceOp]
      split
      · refine ⟨le_refl _, fun _ => Function.update_of_ne ?_ ..⟩
        rintro rfl
        exact hs i v rfl
      · exact .refl w
  | tick =>
    refine kept_bind (fun w => ?_) (fun _ => kept_pure _) w
    refine kept_runAll _ _ (fun r => ?_) w
    refine kept_bind (kept_getObj _) fun o => ?_
    split
    · exact kept_setObj r _
    · exact kept_pure _
  | reg g o => rw [step_reg_fst]; exact kept_regCall env g o w

/-! ### Healthchecks -/

theorem runAll_check_mem (env : Env F) (l : List (Str × Ref)) (w : World F) (y : Ref) (h : ∀ e ∈ l, e.2 = y → ∀ k, w.objs y ≠ some (.health k)) :
    (runAll (checkOne env) l w).1.objs y = w.objs y := by
  induction l generalizing w with
  | nil => rfl
  | cons e l ih =>
    have hy : (checkOne env e w).1.objs y = w.objs y := by
      rw [checkOne_eq]
      rcases he : w.objs e.2 with _ | o
      · rfl
      · cases o with
        | health k =>
          refine Function.update_of_ne ?_ ..
          rintro rfl
          exact h e (by simp) rfl k he
        | _ => rfl
    have e1 : runAll (checkOne env) (e :: l) w = runAll (checkOne env) l (checkOne env e w).1 := by
      rw [runAll, act_bind, checkOne_eq]
    rw [e1, ih _ (fun e' he' h' k => by rw [hy]; exact h e' (by simp [he']) h' k), hy]

/-! ### One step -/

/-- The parts of an object are samples, histograms and meters. -/
theorem part_ty {w : World F} (hw : w.Ok) {y p : Ref} (hp : partOf w y p) : p = y ∨ HasTy w p .sample ∨ HasTy w p .hist ∨ HasTy w p .meter := by
  have hist : ∀ r s, histSample w r = some s → HasTy w s .sample := by
    intro r s hs
    rcases hr : w.objs r with _ | o
    · simp [histSample, hr] at hs
    · cases o with
      | hist x =>
        have := hw.refs r _ hr
        cases x with
        | std t =>
          obtain rfl : t = s := by simpa [histSample, hr] using hs
          exact this
        | snap t =>
          obtain rfl : t = s := by simpa [histSample, hr] using hs
          obtain ⟨n, b, ho⟩ := this
          exact ⟨_, ho, rfl⟩
        | nil => simp [histSample, hr] at hs
      | _ => simp [histSample, hr] at hs
  rcases hp with rfl | hp | hp
  · exact .inl rfl
  · exact .inr (.inl (hist y p hp))
  · rcases hr : w.objs y with _ | o
    · simp [hr] at hp
    · cases o with
      | timer t =>
        have := hw.refs y _ hr
        cases t with
        | std h m =>
          simp only [hr] at hp
          rcases hp with rfl | rfl | hp
          · exact .inr (.inr (.inl this.1))
          · exact .inr (.inr (.inr this.2))
          · exact .inr (.inl (hist _ _ hp))
        | snap h m =>
          obtain ⟨⟨n, h1⟩, k, h2⟩ := this
          simp only [hr] at hp
          rcases hp with rfl | rfl | hp
          · exact .inr (.inr (.inl ⟨_, h1, rfl⟩))
          · exact .inr (.inr (.inr ⟨_, h2, rfl⟩))
          · exact .inr (.inl (hist _ _ hp))
        | nil => simp [hr] at hp
      | _ => simp [hr] at hp

theorem partOf_lt {w : World F} (hw : w.Ok) {y : Ref} (hy : y < w.nextObj) {p : Ref} (hp : partOf w y p) : p < w.nextObj := by
  rcases part_ty hw hp with rfl | ⟨o, ho, -⟩ | ⟨o, ho, -⟩ | ⟨o, ho, -⟩
  · exact hy
  all_goals exact hw.lt ho

theorem slice_lt {w : World F} (hw : w.Ok) {y : Ref} {b : ArrId} (hb : slice w y = some b) : b < w.nextArr := by
  have samp : ∀ r, sampleSlice w r = some b → b < w.nextArr := by
    intro r h
    rcases hr : w.objs r with _ | o
    · simp [sampleSlice, hr] at h
    · cases o with
      | sample x =>
        cases x with
        | snap n c =>
          obtain rfl : c = b := by simpa [sampleSlice, hr] using h
          exact hw.refs r _ hr
        | _ => simp [sampleSlice, hr] at h
      | _ => simp [sampleSlice, hr] at h
  have hist : ∀ r, histSlice w r = some b → b < w.nextArr := by
    intro r h
    rcases hr : w.objs r with _ | o
    · simp [histSlice, hr] at h
    · cases o with
      | hist x => cases x <;> simp [histSlice, hr] at h <;> exact samp _ h
      | _ => simp [histSlice, hr] at h
  rcases hr : w.objs y with _ | o
  · simp [slice, sampleSlice, hr] at hb
  · cases o with
    | timer t => cases t <;> simp [slice, sampleSlice, hr] at hb <;> exact hist _ hb
    | hist x => simp [slice, hr] at hb; exact hist _ hb
    | _ => exact samp y (by simpa [slice, hr] using hb)

theorem step_same {w : World F} (hw : w.Ok) (env : Env F) (o : Op F) {y : Ref} (hy : y < w.nextObj) (ht : ¬ touches w o y) : Same w (step env o w).1 y := by
  constructor
  · intro p hp
    have hpl := partOf_lt hw hy hp
    rcases step_objs w hw env o p hpl with h | ⟨x, c, rfl, h⟩ | ⟨rfl, m, h, h', -⟩ | ⟨hs, m, -, -, -⟩ | ⟨g, k, b, rfl, h, -⟩
    · exact h
    · exact absurd (.inl ⟨p, h, hp⟩) ht
    · exact absurd ⟨p, hp, m, h, h'⟩ ht
    · refine absurd ?_ ht
      cases o with
      | call x c => cases c <;> simp only [stops] at hs; exact .inl ⟨p, by
          rcases hs with rfl | ⟨q, hq⟩
          · exact .inl rfl
          · exact .inr (.inr (by simp [hq])), hp⟩
      | reg g r => cases r <;> simp only [stops] at hs <;> exact ⟨p, hp, hs⟩
      | _ => simp [stops] at hs
    · obtain rfl : p = y := by
        rcases part_ty hw hp with rfl | ⟨o, ho, hty⟩ | ⟨o, ho, hty⟩ | ⟨o, ho, hty⟩
        · rfl
        all_goals rw [h] at ho; cases ho; simp [Obj.ty] at hty
      rw [step_reg_fst, (regCall_prefix env g).2.2.2.2.2]
      cases hb : base g with
      | none => rfl
      | some id =>
        simp only [regCall]
        rw [fst_const, runHealthchecks_run]
        refine runAll_check_mem env _ w p fun e he hey k' hk' => ht ⟨id, e.1, k', hb, ?_, hk'⟩
        rw [← hey]
        exact (env.order_perm _).mem_iff.1 he
  · intro b hb
    refine (step_kept w env o ?_ ?_).2 (slice_lt hw hb)
    · rintro x c rfl h
      exact ht (.inr ⟨b, h, hb⟩)
    · rintro i v rfl
      exact ht hb

/-! ### Histories -/

/-- Histograms, timers and snapshots stay what they are. -/
theorem shape_le {w w' : World F} (h : w.Leq w') {y : Ref} {o : Obj F} (hy : w.objs y = some o) :
    histSample w' y = histSample w y ∧ sampleSlice w' y = sampleSlice w y ∧ (o.live = none → w'.objs y = w.objs y) ∧ ∀ t, w.objs y = some (.timer t) ↔ w'.objs y = some (.timer t) := by
  rcases hl : o.live with _ | k
  · have := h.frozen y o hy hl
    rw [hy, this]
    exact ⟨by simp only [histSample, hy, this], by simp only [sampleSlice, hy, this], fun _ => rfl, fun _ => .rfl⟩
  · obtain ⟨o', h1, h2⟩ := h.live y o k hy hl
    have l1 : ∀ o'' : Obj F, o''.live = some k ∨ (k = .meter ∧ o''.stoppedMeter) → (∀ x, o'' ≠ .hist x) ∧ (∀ n b, o'' ≠ .sample (.snap n b)) ∧ ∀ t, o'' ≠ .timer t := by
      rintro o'' (h | ⟨-, h⟩)
      all_goals refine ⟨?_, ?_, ?_⟩ <;> (intros; rintro rfl; simp [Obj.live, Obj.stoppedMeter] at h)
    obtain ⟨a1, a2, a3⟩ := l1 o (.inl hl)
    obtain ⟨b1, b2, b3⟩ := l1 o' (h2.imp_right fun h => ⟨h.1, h.2.1⟩)
    have e1 : ∀ (w : World F) o, w.objs y = some o → (∀ x, o ≠ .hist x) → histSample w y = none := by
      intro w o h h'
      simp only [histSample, h]
      cases o <;> first | rfl | exact absurd rfl (h' _)
    have e2 : ∀ (w : World F) o, w.objs y = some o → (∀ n b, o ≠ .sample (.snap n b)) → sampleSlice w y = none := by
      intro w o h h'
      simp only [sampleSlice, h]
      cases o with
      | sample x => cases x <;> first | rfl | exact absurd rfl (h' _ _)
      | _ => rfl
    refine ⟨by rw [e1 w o hy a1, e1 w' o' h1 b1], by rw [e2 w o hy a2, e2 w' o' h1 b2], by simp, fun t => ?_⟩
    rw [hy, h1]
    simp only [Option.some.injEq]
    exact ⟨fun h => absurd h (a3 t), fun h => absurd h (b3 t)⟩

theorem ty_some {w : World F} {r : Ref} {t : Ty} (h : HasTy w r t) : ∃ o, w.objs r = some o := by
  obtain ⟨o, h, -⟩ := h
  exact ⟨o, h⟩

/-- The histogram and the meter of a timer exist. -/
theorem timer_parts {w : World F} (hw : w.Ok) {y h m : Ref} (hy : w.objs y = some (.timer (.std h m)) ∨ w.objs y = some (.timer (.snap h m))) :
    ∃ o, w.objs h = some o := by
  rcases hy with hy | hy
  · exact ty_some (hw.refs y _ hy).1
  · obtain ⟨⟨s, h1⟩, -⟩ := hw.refs y _ hy
    exact ⟨_, h1⟩

theorem partOf_le {w w' : World F} (hw : w.Ok) (h : w.Leq w') {y : Ref} {o : Obj F} (hy : w.objs y = some o) (p : Ref) : partOf w' y p ↔ partOf w y p := by
  obtain ⟨e1, -, -, e2⟩ := shape_le h hy
  by_cases ht : ∃ t, w.objs y = some (.timer t)
  · obtain ⟨t, ht⟩ := ht
    unfold partOf
    rw [e1, ht, (e2 t).1 ht]
    cases t with
    | std a b =>
      obtain ⟨o, ho⟩ := timer_parts hw (.inl ht)
      simp only [(shape_le h ho).1]
    | snap a b =>
      obtain ⟨o, ho⟩ := timer_parts hw (.inr ht)
      simp only [(shape_le h ho).1]
    | nil => rfl
  · have key : ∀ w : World F, (¬ ∃ t, w.objs y = some (.timer t)) → (partOf w y p ↔ p = y ∨ histSample w y = some p) := by
      intro w h
      unfold partOf
      rcases hr : w.objs y with _ | o
      · simp
      · cases o with
        | timer t => exact absurd ⟨t, hr⟩ h
        | _ => simp
    rw [key w ht, key w' (fun ⟨t, h'⟩ => ht ⟨t, (e2 t).2 h'⟩), e1]

theorem histSlice_le {w w' : World F} (hw : w.Ok) (h : w.Leq w') {y : Ref} {o : Obj F} (hy : w.objs y = some o) : histSlice w' y = histSlice w y := by
  have key : ∀ w : World F, histSlice w y = (histSample w y).bind (sampleSlice w) := by
    intro w
    unfold histSlice histSample
    rcases w.objs y with _ | o
    · rfl
    · cases o with
      | hist x => cases x <;> rfl
      | _ => rfl
  rw [key, key, (shape_le h hy).1]
  rcases hs : histSample w y with _ | s
  · rfl
  · have : HasTy w s .sample := by
      unfold histSample at hs
      cases o with
      | hist x =>
        have := hw.refs y _ hy
        cases x with
        | std t => obtain rfl : t = s := by simpa [hy] using hs
                   exact this
        | snap t =>
          obtain rfl : t = s := by simpa [hy] using hs
          obtain ⟨n, b, ho⟩ := this
          exact ⟨_, ho, rfl⟩
        | nil => simp [hy] at hs
      | _ => simp [hy] at hs
    obtain ⟨o', ho'⟩ := ty_some this
    exact (shape_le h ho').2.1

theorem slice_le {w w' : World F} (hw : w.Ok) (h : w.Leq w') {y : Ref} {o : Obj F} (hy : w.objs y = some o) : slice w' y = slice w y := by
  obtain ⟨e1, e2, e4, e3⟩ := shape_le h hy
  by_cases hl : o.live = none
  · have e := e4 hl
    cases o with
    | timer t =>
      cases t with
      | std a b =>
        obtain ⟨o, ho⟩ := timer_parts hw (.inl hy)
        simp only [slice, e.trans hy, hy]
        exact histSlice_le hw h ho
      | snap a b =>
        obtain ⟨o, ho⟩ := timer_parts hw (.inr hy)
        simp only [slice, e.trans hy, hy]
        exact histSlice_le hw h ho
      | nil => simp only [slice, sampleSlice, e.trans hy, hy]
    | hist x =>
      simp only [slice, e.trans hy, hy]
      exact histSlice_le hw h hy
    | _ => simp only [slice, e.trans hy, hy]; exact e2
  · obtain ⟨k, hk⟩ := Option.ne_none_iff_exists'.1 hl
    obtain ⟨o', h1, h2⟩ := h.live y o k hy hk
    have key : ∀ (w : World F) (o : Obj F), w.objs y = some o → (o.live = some k ∨ k = .meter ∧ o.stoppedMeter) → slice w y = none := by
      intro w o ho hk
      cases o with
      | timer t => simp [Obj.live, Obj.stoppedMeter] at hk
      | hist t => simp [Obj.live, Obj.stoppedMeter] at hk
      | sample x => cases x <;> simp_all [Obj.live, Obj.stoppedMeter, slice, sampleSlice]
      | _ => simp [slice, sampleSlice, ho]
    rw [key w o hy (.inl hk), key w' o' h1 (h2.imp_right fun h => ⟨h.1, h.2.1⟩)]

/-! ### New objects -/

/-- The parts and the slice of `x` are new, or come from the arguments of the constructor. -/
structure Fresh (c : NewOp F) (w w1 : World F) (x : Ref) : Prop where
  exist : ∃ o, w1.objs x = some o
  parts : ∀ p, partOf w1 x p → w.nextObj ≤ p ∨ ∃ s, newUses c s ∧ partOf w s p
  slice : ∀ a, slice w1 x = some a → w.nextArr ≤ a ∨ (∃ n, c = .sampleSnap n a ∧ w.shared a = true) ∨ ∃ s, newUses c s ∧ slice w s = some a

theorem fresh_alloc (c : NewOp F) (w : World F) (o : Obj F) (h1 : ∀ x, o ≠ .hist x) (h2 : ∀ t, o ≠ .timer t) (h3 : ∀ n a, o ≠ .sample (.snap n a)) {w1 : World F} {x : Ref}
    (h : alloc o w = (w1, .ok x)) : Fresh c w w1 x := by
  simp only [alloc, Prod.mk.injEq, Except.ok.injEq] at h
  obtain ⟨rfl, rfl⟩ := h
  refine ⟨⟨_, Function.update_self ..⟩, ?_, ?_⟩
  · intro p hp
    left
    rcases hp with rfl | hp | hp
    · exact le_refl _
    · simp only [histSample, Function.update_self] at hp
      cases o <;> first | exact absurd rfl (h1 _) | simp at hp
    · simp only [Function.update_self] at hp
      cases o <;> first | exact absurd rfl (h2 _) | simp at hp
  · intro a ha
    simp only [Spec.slice, sampleSlice, Function.update_self] at ha
    cases o with
    | hist x => exact absurd rfl (h1 _)
    | timer x => exact absurd rfl (h2 _)
    | sample x => cases x <;> first | exact absurd rfl (h3 _ _) | simp at ha
    | _ => simp at ha

theorem fresh_nil (c : NewOp F) (w : World F) (o : Obj F) (h : o = .hist .nil ∨ o = .timer .nil) {w1 : World F} {x : Ref} (hx : alloc o w = (w1, .ok x)) : Fresh c w w1 x := by
  simp only [alloc, Prod.mk.injEq, Except.ok.injEq] at hx
  obtain ⟨rfl, rfl⟩ := hx
  rcases h with rfl | rfl <;> refine ⟨⟨_, Function.update_self ..⟩, ?_, ?_⟩ <;> intro p hp
  all_goals simp [partOf, histSample, Spec.slice, histSlice, sampleSlice] at hp
  all_goals exact .inl (le_of_eq hp.symm)

theorem fresh_lift {α : Type} (c : NewOp F) (w : World F) {w1 : World F} {x : Ref} (r : Res α) (f : α → Obj F) (h1 : ∀ a x, f a ≠ .hist x) (h2 : ∀ a t, f a ≠ .timer t)
    (h3 : ∀ b n a, f b ≠ .sample (.snap n a)) (h : (do alloc (f (← Act.lift r)) : Act F Ref) w = (w1, .ok x)) : Fresh c w w1 x := by
  rw [act_bind, act_lift] at h
  rcases r with p | a
  · simp at h
  · exact fresh_alloc c w _ (h1 a) (h2 a) (h3 a) h

theorem construct_fresh (env : Env F) (c : NewOp F) (w : World F) (hw : w.Ok) {w1 : World F} {x : Ref} (h : construct env c w = (w1, .ok x)) : Fresh c w w1 x := by
  cases c with
  | counter => exact fresh_alloc _ w _ (by simp) (by simp) (by simp) h
  | gauge => exact fresh_alloc _ w _ (by simp) (by simp) (by simp) h
  | funcGauge f => exact fresh_alloc _ w _ (by simp) (by simp) (by simp) h
  | gaugeF => exact fresh_alloc _ w _ (by simp) (by simp) (by simp) h
  | funcGaugeF f => exact fresh_alloc _ w _ (by simp) (by simp) (by simp) h
  | health f => exact fresh_alloc _ w _ (by simp) (by simp) (by simp) h
  | ewma al => exact fresh_alloc _ w _ (by simp) (by simp) (by simp) h
  | uniform k =>
    simp only [construct] at h
    split at h
    · exact fresh_alloc _ w _ (by simp) (by simp) (by simp) h
    · exact fresh_lift _ w _ _ (fun _ _ => by simp) (fun _ _ => by simp) (fun _ _ _ => by simp) h
  | exp k al =>
    simp only [construct, newExp] at h
    split at h
    · exact fresh_alloc _ w _ (by simp) (by simp) (by simp) h
    · exact fresh_lift _ w _ _ (fun _ _ => by simp) (fun _ _ => by simp) (fun _ _ _ => by simp) h
  | meter =>
    simp only [construct, newMeter] at h
    split at h
    · exact fresh_alloc _ w _ (by simp) (by simp) (by simp) h
    · have e : Fresh .meter w (alloc (.meter (.std (StandardMeter.new env.now))) w).1 w.nextObj := fresh_alloc _ w _ (by simp) (by simp) (by simp) rfl
      simp only [act_bind, act_alloc, arbiterAdd, act_pure, Prod.mk.injEq, Except.ok.injEq] at h
      obtain ⟨rfl, rfl⟩ := h
      exact ⟨e.exist, fun p hp => e.parts p hp, fun a ha => e.slice a ha⟩
  | sampleSnap n b =>
    simp only [construct] at h
    split at h
    · rename_i hb
      simp only [alloc, Prod.mk.injEq, Except.ok.injEq] at h
      obtain ⟨rfl, rfl⟩ := h
      refine ⟨⟨_, Function.update_self ..⟩, ?_, ?_⟩
      · intro p hp
        simp [partOf, histSample] at hp
        exact .inl (le_of_eq hp.symm)
      · intro a ha
        obtain rfl : b = a := by simpa [Spec.slice, sampleSlice] using ha
        exact .inr (.inl ⟨n, rfl, hb⟩)
    · simp only [act_bind, newArr, alloc, Prod.mk.injEq, Except.ok.injEq] at h
      obtain ⟨rfl, rfl⟩ := h
      refine ⟨⟨_, Function.update_self ..⟩, ?_, ?_⟩
      · intro p hp
        simp [partOf, histSample] at hp
        exact .inl (le_of_eq hp.symm)
      · intro a ha
        have : w.nextArr = a := by simpa [Spec.slice, sampleSlice] using ha
        exact .inl (le_of_eq this)
  | hist s =>
    simp only [construct, newHist] at h
    split at h
    · exact fresh_nil _ w _ (.inl rfl) h
    · split at h
      · rename_i v hs
        simp only [alloc, Prod.mk.injEq, Except.ok.injEq] at h
        obtain ⟨rfl, rfl⟩ := h
        have hne : s ≠ w.nextObj := Nat.ne_of_lt (hw.lt hs)
        refine ⟨⟨_, Function.update_self ..⟩, ?_, ?_⟩
        · intro p hp
          simp [partOf, histSample] at hp
          rcases hp with rfl | rfl
          · exact .inl (le_refl _)
          · exact .inr ⟨_, rfl, .inl rfl⟩
        · intro a ha
          refine .inr (.inr ⟨s, rfl, ?_⟩)
          simp only [Spec.slice, histSlice, sampleSlice, Function.update_self, Function.update_of_ne hne, hs] at ha ⊢
          exact ha
      · simp [Act.fail] at h
  | customTimer p m =>
    simp only [construct, newTimer] at h
    split at h
    · exact fresh_nil _ w _ (.inr rfl) h
    · split at h
      · rename_i v v' hp hm
        simp only [alloc, Prod.mk.injEq, Except.ok.injEq] at h
        obtain ⟨rfl, rfl⟩ := h
        have hne : p ≠ w.nextObj := Nat.ne_of_lt (hw.lt hp)
        have hs : ∀ s, v.sample = some s → s ≠ w.nextObj := by
          intro s hs
          have := hw.refs p _ hp
          cases v with
          | std t =>
            obtain rfl : t = s := by simpa [HistV.sample] using hs
            obtain ⟨o, ho⟩ := ty_some this
            exact Nat.ne_of_lt (hw.lt ho)
          | snap t =>
            obtain rfl : t = s := by simpa [HistV.sample] using hs
            obtain ⟨n, b, ho⟩ := this
            exact Nat.ne_of_lt (hw.lt ho)
          | nil => simp [HistV.sample] at hs
        refine ⟨⟨_, Function.update_self ..⟩, ?_, ?_⟩
        · intro q hq
          simp [partOf, histSample, Function.update_of_ne hne, hp] at hq
          rcases hq with rfl | rfl | rfl | hq
          · exact .inl (le_refl _)
          · exact .inr ⟨_, .inl rfl, .inl rfl⟩
          · exact .inr ⟨_, .inr rfl, .inl rfl⟩
          · exact .inr ⟨p, .inl rfl, .inr (.inl (by simpa [histSample, hp] using hq))⟩
        · intro a ha
          refine .inr (.inr ⟨p, .inl rfl, ?_⟩)
          simp only [Spec.slice, histSlice, Function.update_self, Function.update_of_ne hne, hp] at ha ⊢
          cases v with
          | std t => simpa [sampleSlice, Function.update_of_ne (hs t rfl)] using ha
          | snap t => simpa [sampleSlice, Function.update_of_ne (hs t rfl)] using ha
          | nil => simp at ha
      · simp [Act.fail] at h
  | timer =>
    obtain ⟨w2, r, e, hm⟩ := made_timer env w hw
    rw [e] at h
    simp only [Prod.mk.injEq, Except.ok.injEq] at h
    obtain ⟨rfl, rfl⟩ := h
    refine ⟨⟨_, hm.kind.choose_spec.1⟩, fun p hp => .inl (hm.parts p hp).1, fun a ha => ?_⟩
    by_cases hu : w.useNil = true
    · simp only [construct, hu, if_true] at e
      exact (fresh_nil .timer w _ (.inr rfl) e).slice a ha
    · obtain ⟨p, m, s, ex, mt, h1, h2, h3, -⟩ := hm.ready (by simpa using hu)
      simp [Spec.slice, histSlice, sampleSlice, h1, h2, h3] at ha

theorem new_out {env : Env F} {c : NewOp F} {w w1 : World F} {x : Ref} (h : step env (.new c) w = (w1, .ok (.out (.ref x)))) : construct env c w = (w1, .ok x) := by
  have e : step env (.new c) w = (do return OpOut.out (.ref (← construct env c)) : Act F (OpOut F)) w := rfl
  rw [e, act_bind] at h
  rcases hc : construct env c w with ⟨w2, p | r⟩
  · rw [hc] at h; simp at h
  · rw [hc] at h
    simp only [act_pure, Prod.mk.injEq, Except.ok.injEq, OpOut.out.injEq, Out.ref.injEq] at h
    rw [h.1, h.2]

theorem slice_same {w w' : World F} {y : Ref} (h : ∀ p, partOf w y p → w'.objs p = w.objs p) : slice w' y = slice w y := by
  have h0 := h y (.inl rfl)
  have hist : ∀ r, w'.objs r = w.objs r → (∀ s, histSample w r = some s → w'.objs s = w.objs s) → histSlice w' r = histSlice w r := by
    intro r hr hs
    unfold histSlice
    rw [hr]
    rcases ho : w.objs r with _ | o
    · rfl
    · cases o with
      | hist x =>
        cases x with
        | nil => rfl
        | std s => simp only [sampleSlice, hs s (by simp [histSample, ho])]
        | snap s => simp only [sampleSlice, hs s (by simp [histSample, ho])]
      | _ => rfl
  unfold slice
  rw [h0]
  rcases ho : w.objs y with _ | o
  · simp only [sampleSlice, h0]
  · cases o with
    | timer t =>
      cases t with
      | nil => simp only [sampleSlice, h0]
      | std a b => exact hist a (h a (by simp [partOf, ho])) fun s hs => h s (by simp [partOf, ho, hs])
      | snap a b => exact hist a (h a (by simp [partOf, ho])) fun s hs => h s (by simp [partOf, ho, hs])
    | hist x => exact hist y h0 fun s hs => h s (.inr (.inl hs))
    | _ => simp only [sampleSlice, h0]

theorem contents_congr {w w' : World F} {y : Ref} (h : Same w w' y) (env : Env F) : contents w' env y = contents w env y := by
  have h0 := h.objs y (.inl rfl)
  rw [contents_eq, contents_eq, h0]
  rcases ho : w.objs y with _ | o
  · rfl
  · cases o with
    | sample x =>
      cases x with
      | snap n a => exact h.arrs a (by simp [slice, sampleSlice, ho])
      | _ => rfl
    | _ => rfl

end GoMetrics.Indep
