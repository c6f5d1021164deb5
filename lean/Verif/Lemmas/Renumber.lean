import Verif.Lemmas.WorldSafe
import Verif.Lemmas.WorldSnap
import Verif.Spec.Observer

/-! The operations do not depend on the numbers of objects and slices (C107). -/

set_option linter.unusedSimpArgs false
set_option linter.unnecessarySeqFocus false
set_option linter.unusedSectionVars false
set_option linter.unnecessarySimpa false

namespace GoMetrics.Renumber
open GoMetrics GoMetrics.Spec

variable {F : Type} [GoFloat F] [GoSqrt F] [GoExp F] {α β α' β' : Type}

variable {M : Move}

theorem ref_inj {r q : Ref} : M.ref r = M.ref q ↔ r = q := by
  unfold Move.ref; split <;> split <;> omega
theorem arr_inj {r q : ArrId} : M.arr r = M.arr q ↔ r = q := by
  unfold Move.arr; split <;> split <;> omega

/-- The same object, with the new numbers in it. -/
def mvSample (M : Move) : SampleV F → SampleV F
  | .snap n a => .snap n (M.arr a)
  | s => s
def mvHist (M : Move) : HistV → HistV
  | .std s => .std (M.ref s)
  | .snap s => .snap (M.ref s)
  | .nil => .nil
def mvTimer (M : Move) : TimerV → TimerV
  | .std h m => .std (M.ref h) (M.ref m)
  | .snap h m => .snap (M.ref h) (M.ref m)
  | .nil => .nil
def mvObj (M : Move) : Obj F → Obj F
  | .sample s => .sample (mvSample M s)
  | .hist h => .hist (mvHist M h)
  | .timer t => .timer (mvTimer M t)
  | o => o
def mvEntry (M : Move) (e : Str × Ref) : Str × Ref := (e.1, M.ref e.2)

/-- The same store with other numbers. -/
structure WM (M : Move) (w w' : World F) : Prop where
  objs : ∀ r, w'.objs (M.ref r) = (w.objs r).map (mvObj M)
  n : M.n ≤ w.nextObj
  nextObj : w'.nextObj = w.nextObj + M.k
  arrs : ∀ a, w'.arrs (M.arr a) = w.arrs a
  shared : ∀ a, w'.shared (M.arr a) = w.shared a
  m : M.m ≤ w.nextArr
  nextArr : w'.nextArr = w.nextArr + M.j
  meters : w'.meters = w.meters.map M.ref
  regs : ∀ i, w'.regs i = (w.regs i).map (mvEntry M)
  started : w'.started = w.started
  useNil : w'.useNil = w.useNil
  tidy : ∀ a, w.nextArr ≤ a → w.arrs a = []

/-- `b` does with the new numbers what `a` does with the old ones. -/
structure RM (M : Move) (f : α → β) (a : Act F α) (b : Act F β) : Prop where
  rel : ∀ w w', WM M w w' → WM M (a w).1 (b w').1 ∧ (b w').2 = (a w).2.map f

theorem rm_pure {f : α → β} (x : α) {y : β} (h : y = f x) : RM M f (pure x : Act F α) (pure y) := ⟨fun _ _ hw => ⟨hw, by rw [h]; rfl⟩⟩
theorem rm_fail {f : α → β} (p : Panic) : RM M f (Act.fail p : Act F α) (Act.fail p) := ⟨fun _ _ hw => ⟨hw, rfl⟩⟩
theorem rm_lift {f : α → β} {r : Res α} {r' : Res β} (h : r' = r.map f) : RM M f (Act.lift r : Act F α) (Act.lift r') := ⟨fun _ _ hw => ⟨hw, h⟩⟩
theorem rm_bind {f : α → α'} {f' : β → β'} {x : Act F α} {y : Act F α'} {g : α → Act F β} {g' : α' → Act F β'} (h : RM M f x y) (hg : ∀ a, RM M f' (g a) (g' (f a))) :
    RM M f' (x >>= g) (y >>= g') := by
  refine ⟨fun w w' hw => ?_⟩
  rw [act_bind, act_bind]
  obtain ⟨h1, h2⟩ := h.rel w w' hw
  revert h1 h2
  generalize x w = p
  generalize y w' = p'
  obtain ⟨w1, r⟩ := p
  obtain ⟨w1', r'⟩ := p'
  intro h1 h2
  dsimp only at h1 h2
  subst h2
  rcases r with e | a
  · exact ⟨h1, rfl⟩
  · exact (hg a).rel w1 w1' h1
theorem rm_get {r r' : Ref} (hr : r' = M.ref r) {f : α → β} {g : Option (Obj F) → Act F α} {g' : Option (Obj F) → Act F β} (hg : ∀ o, RM M f (g o) (g' (o.map (mvObj M)))) :
    RM M f (getObj r >>= g) (getObj r' >>= g') :=
  ⟨fun w w' hw => by subst hr; rw [act_bind_getObj, act_bind_getObj, hw.objs]; exact (hg _).rel w w' hw⟩

theorem mv_update (w w' : World F) (h : ∀ r, w'.objs (M.ref r) = (w.objs r).map (mvObj M)) (r : Ref) (o : Obj F) (q : Ref) :
    Function.update w'.objs (M.ref r) (some (mvObj M o)) (M.ref q) = (Function.update w.objs r (some o) q).map (mvObj M) := by
  rcases eq_or_ne q r with rfl | hq
  · simp
  · rw [Function.update_of_ne hq, Function.update_of_ne (by simpa [ref_inj] using hq), h]

theorem rm_set {r r' : Ref} (hr : r' = M.ref r) (o : Obj F) {o' : Obj F} (h : o' = mvObj M o) : RM M id (setObj r o) (setObj r' o') := by
  subst hr h
  exact ⟨fun w w' hw => ⟨{ hw with objs := mv_update w w' hw.objs r o }, rfl⟩⟩
theorem ref_next (h : M.n ≤ n) : M.ref n = n + M.k := by unfold Move.ref; rw [if_neg (by omega)]
theorem arr_next (h : M.m ≤ n) : M.arr n = n + M.j := by unfold Move.arr; rw [if_neg (by omega)]
theorem rm_alloc (o : Obj F) {o' : Obj F} (h : o' = mvObj M o) : RM M M.ref (alloc o) (alloc o') := by
  subst h
  refine ⟨fun w w' hw => ?_⟩
  have hn : w'.nextObj = M.ref w.nextObj := by rw [hw.nextObj, ref_next hw.n]
  refine ⟨{ hw with objs := ?_, n := by have := hw.n; simp only [alloc]; omega, nextObj := by have := hw.nextObj; simp only [alloc]; omega }, by simp only [alloc, hn]; rfl⟩
  simp only [alloc, hn]
  exact mv_update w w' hw.objs _ o
theorem rm_getArr {a a' : ArrId} (h : a' = M.arr a) : RM M id (getArr a : Act F _) (getArr a') := by
  subst h; exact ⟨fun w w' hw => ⟨hw, by simp only [getArr, hw.arrs]; rfl⟩⟩

theorem mv_arr {w w' : ArrId → α} (h : ∀ r, w' (M.arr r) = w r) (r : ArrId) (x : α) (q : ArrId) :
    Function.update w' (M.arr r) x (M.arr q) = Function.update w r x q := by
  rcases eq_or_ne q r with rfl | hq
  · simp
  · rw [Function.update_of_ne hq, Function.update_of_ne (by simpa [arr_inj] using hq), h]

theorem rm_sortArr {a a' : ArrId} (h : a' = M.arr a) : RM M id (sortArr a : Act F _) (sortArr a') := by
  subst h
  refine ⟨fun w w' hw => ⟨{ hw with arrs := ?_, tidy := ?_ }, rfl⟩⟩
  · simp only [sortArr, hw.arrs]; exact mv_arr hw.arrs a _
  · intro b hb
    simp only [sortArr]
    rcases eq_or_ne b a with rfl | hq
    · simp only [Function.update_self, hw.tidy b hb]; rfl
    · rw [Function.update_of_ne hq]; exact hw.tidy b hb
theorem rm_newArr (l : List Int64) (b : Bool) : RM M M.arr (newArr l b : Act F _) (newArr l b) := by
  refine ⟨fun w w' hw => ?_⟩
  have hn : w'.nextArr = M.arr w.nextArr := by rw [hw.nextArr, arr_next hw.m]
  refine ⟨{ hw with arrs := ?_, shared := ?_, m := by have := hw.m; simp only [newArr]; omega, nextArr := by have := hw.nextArr; simp only [newArr]; omega, tidy := ?_ },
    by simp only [newArr, hn]; rfl⟩
  · simp only [newArr, hn]; exact mv_arr hw.arrs _ _
  · simp only [newArr, hn]; exact mv_arr hw.shared _ _
  · intro a ha
    simp only [newArr] at ha ⊢
    rw [Function.update_of_ne (by omega)]
    exact hw.tidy a (by omega)
theorem rm_add {r r' : Ref} (hr : r' = M.ref r) : RM M id (arbiterAdd r : Act F _) (arbiterAdd r') := by
  subst hr; exact ⟨fun w w' hw => ⟨{ hw with meters := by simp [arbiterAdd, hw.meters], started := rfl }, rfl⟩⟩
theorem rm_del {r r' : Ref} (hr : r' = M.ref r) : RM M id (arbiterDelete r : Act F _) (arbiterDelete r') := by
  subst hr
  refine ⟨fun w w' hw => ⟨{ hw with meters := ?_ }, rfl⟩⟩
  simp only [arbiterDelete, hw.meters, List.filter_map]
  congr 1
  apply List.filter_congr
  intro q _
  simp [ref_inj]
theorem rm_getReg (i : Nat) : RM M (List.map (mvEntry M)) (getReg i : Act F _) (getReg i) := ⟨fun w w' hw => ⟨hw, by simp only [getReg, hw.regs]; rfl⟩⟩
theorem rm_setReg (i : Nat) (m : List (Str × Ref)) {m' : List (Str × Ref)} (h : m' = m.map (mvEntry M)) : RM M id (setReg i m : Act F _) (setReg i m') := by
  subst h
  refine ⟨fun w w' hw => ⟨{ hw with regs := fun q => ?_ }, rfl⟩⟩
  simp only [setReg]
  rcases eq_or_ne q i with rfl | hq
  · simp
  · rw [Function.update_of_ne hq, Function.update_of_ne hq, hw.regs]
theorem rm_ref (o : Obj F) {o' : Obj F} (h : o' = mvObj M o) : RM M M.out (do return .ref (← alloc o) : Act F (Out F)) (do return .ref (← alloc o')) :=
  rm_bind (rm_alloc _ h) fun _ => rm_pure _ rfl
theorem rm_set_unit {r r' : Ref} (hr : r' = M.ref r) (o : Obj F) {o' : Obj F} (h : o' = mvObj M o) :
    RM M M.out (do setObj r o; return .unit : Act F (Out F)) (do setObj r' o'; return .unit) :=
  rm_bind (rm_set hr _ h) fun _ => rm_pure _ rfl

theorem map_id' (x : Res α) : x = x.map id := by cases x <;> rfl

theorem statOf_move (l : List Int64) (c : StatCall F) : statOf l c = (statOf l c).map M.out := by
  cases c <;> try rfl
  · rename_i p; simp only [statOf]; cases samplePercentile l p <;> rfl
  · rename_i p; simp only [statOf]; cases samplePercentiles l p <;> rfl
theorem nilStat_move (c : StatCall F) : nilStat c = M.out (nilStat c) := by cases c <;> rfl

theorem rm_sampleCall (env : Env F) (r : Ref) (s : SampleV F) (c : Call F) :
    RM M M.out (sampleCall env r s c) (sampleCall env (M.ref r) (mvSample M s) c) := by
  cases s with
  | exp s =>
    cases c <;> try exact rm_pure _ rfl
    · exact rm_set_unit rfl _ rfl
    · exact rm_bind (f := id) (rm_set rfl _ rfl) fun _ => rm_bind (f := id) (rm_lift (map_id' _)) fun _ => rm_set_unit rfl _ rfl
    · exact rm_lift (statOf_move _ _)
    · exact rm_bind (rm_newArr _ _) fun _ => rm_pure _ rfl
    · exact rm_bind (rm_newArr _ _) fun _ => rm_ref _ rfl
  | uniform s =>
    cases c <;> try exact rm_pure _ rfl
    · exact rm_set_unit rfl _ rfl
    · exact rm_bind (f := id) (rm_set rfl _ rfl) fun _ => rm_bind (f := id) (rm_lift (map_id' _)) fun _ => rm_set_unit rfl _ rfl
    · simp only [sampleCall, mvSample]
      split
      · exact rm_bind (f := id) (rm_set rfl _ rfl) fun _ => rm_lift (statOf_move _ _)
      · exact rm_lift (statOf_move _ _)
    · exact rm_bind (rm_newArr _ _) fun _ => rm_pure _ rfl
    · exact rm_bind (rm_newArr _ _) fun _ => rm_ref _ rfl
  | snap n a =>
    cases c <;> try first | exact rm_pure _ rfl | exact rm_fail _
    · simp only [sampleCall, mvSample]
      refine rm_bind (f := id) (rm_getArr rfl) fun _ => ?_
      split
      · exact rm_bind (f := id) (rm_sortArr rfl) fun _ => rm_lift (statOf_move _ _)
      · exact rm_lift (statOf_move _ _)
    · exact rm_bind (f := id) (rm_getArr rfl) fun _ => rm_pure _ rfl
    · exact rm_bind (f := id) (rm_getArr rfl) fun _ => rm_bind (rm_newArr _ _) fun _ => rm_pure _ rfl
  | nil =>
    cases c <;> try first | exact rm_pure _ rfl | exact rm_pure _ (nilStat_move _)
    exact rm_bind (rm_newArr _ _) fun _ => rm_pure _ rfl

theorem rm_callSample (env : Env F) (r : Ref) (c : Call F) : RM M M.out (callSample env r c) (callSample env (M.ref r) c) :=
  rm_get rfl fun o => by
    rcases o with _ | o
    · exact rm_pure _ rfl
    · cases o <;> first | exact rm_pure _ rfl | exact rm_sampleCall ..

theorem rm_histCall (env : Env F) (r : Ref) (h : HistV) (c : Call F) : RM M M.out (histCall env r h c) (histCall env (M.ref r) (mvHist M h) c) := by
  cases h with
  | std s =>
    cases c <;> try first | exact rm_pure _ rfl | exact rm_callSample ..
    refine rm_bind (rm_callSample ..) fun o => ?_
    cases o <;> try exact rm_pure _ rfl
    refine rm_get rfl fun o => ?_
    rcases o with _ | o
    · exact rm_fail _
    · cases o <;> try exact rm_fail _
      rename_i s
      cases s <;> first | exact rm_fail _ | exact rm_ref _ rfl
  | snap s => cases c <;> first | exact rm_pure _ rfl | exact rm_callSample .. | exact rm_fail _
  | nil => cases c <;> first | exact rm_pure _ rfl | exact rm_ref _ rfl | exact rm_pure _ (nilStat_move _)

theorem rm_callHist (env : Env F) (r : Ref) (c : Call F) : RM M M.out (callHist env r c) (callHist env (M.ref r) c) :=
  rm_get rfl fun o => by
    rcases o with _ | o
    · exact rm_pure _ rfl
    · cases o <;> first | exact rm_pure _ rfl | exact rm_histCall ..

theorem rm_meterCall (env : Env F) (r : Ref) (m : Meter F) (c : Call F) :
    RM M M.out (meterCall env r m c) (meterCall env (M.ref r) m c) := by
  cases m with
  | std m =>
    cases c <;> try exact rm_pure _ rfl
    · exact rm_set_unit rfl (.meter (.std (m.mark _ env.now))) (o' := .meter (.std (m.mark _ env.now))) rfl
    · simp only [meterCall]
      split
      · exact rm_pure _ rfl
      · exact rm_bind (f := id) (rm_set rfl _ rfl) fun _ => rm_bind (f := id) (rm_del rfl) fun _ => rm_pure _ rfl
    · exact rm_ref _ rfl
  | snap s =>
    cases c <;> try exact rm_pure _ rfl
    exact rm_fail _
  | nil =>
    cases c <;> try exact rm_pure _ rfl
    exact rm_set_unit rfl (.meter .nil) (o' := .meter .nil) rfl

theorem rm_callMeter (env : Env F) (r : Ref) (c : Call F) : RM M M.out (callMeter env r c) (callMeter env (M.ref r) c) :=
  rm_get rfl fun o => by
    rcases o with _ | o
    · exact rm_pure _ rfl
    · cases o <;> first | exact rm_pure _ rfl | exact rm_meterCall ..

theorem rm_timerCall (env : Env F) (r : Ref) (t : TimerV) (c : Call F) :
    RM M M.out (timerCall env r t c) (timerCall env (M.ref r) (mvTimer M t) c) := by
  cases t with
  | std h m =>
    cases c <;> try first | exact rm_pure _ rfl | exact rm_callHist .. | exact rm_callMeter ..
    · exact rm_bind (rm_callHist ..) fun _ => rm_callMeter ..
    · exact rm_bind (rm_callHist ..) fun _ => rm_callMeter ..
    · refine rm_bind (rm_callHist ..) fun o => ?_
      cases o <;> try exact rm_pure _ rfl
      refine rm_get rfl fun o => ?_
      rcases o with _ | o
      · exact rm_fail _
      · cases o <;> try exact rm_fail _
        rename_i s
        cases s <;> try exact rm_fail _
        refine rm_bind (rm_callMeter ..) fun o => ?_
        cases o <;> try exact rm_pure _ rfl
        refine rm_get rfl fun o => ?_
        rcases o with _ | o
        · exact rm_fail _
        · cases o <;> try exact rm_fail _
          rename_i s
          cases s <;> first | exact rm_fail _ | exact rm_ref _ rfl
  | snap h m => cases c <;> first | exact rm_pure _ rfl | exact rm_fail _ | exact rm_callHist .. | exact rm_callMeter ..
  | nil => cases c <;> first | exact rm_pure _ rfl | exact rm_pure _ (nilStat_move _)

theorem rm_call (env : Env F) (r : Ref) (c : Call F) : RM M M.out (call env r c) (call env (M.ref r) c) :=
  rm_get rfl fun o => by
    rcases o with _ | o
    · exact rm_pure _ rfl
    · cases o with
      | counter x => cases c <;> first | exact rm_pure _ rfl | exact rm_bind (f := id) (rm_lift (map_id' _)) fun _ => rm_set_unit rfl _ rfl | exact rm_ref _ rfl
      | gauge x => cases c <;> first | exact rm_pure _ rfl | exact rm_bind (f := id) (rm_lift (map_id' _)) fun _ => rm_set_unit rfl _ rfl | exact rm_ref _ rfl
      | gaugeF x => cases c <;> first | exact rm_pure _ rfl | exact rm_bind (f := id) (rm_lift (map_id' _)) fun _ => rm_set_unit rfl _ rfl | exact rm_ref _ rfl
      | health x => cases c <;> first | exact rm_pure _ rfl | exact rm_set_unit rfl _ rfl
      | sample x => exact rm_sampleCall ..
      | hist x => exact rm_histCall ..
      | ewma x => cases c <;> first | exact rm_pure _ rfl | exact rm_bind (f := id) (rm_lift (map_id' _)) fun _ => rm_set_unit rfl _ rfl | exact rm_ref _ rfl
      | meter x => exact rm_meterCall ..
      | timer x => exact rm_timerCall ..

/-! ### Constructors -/

theorem rm_if {f : α → β} {x y : Act F α} {x' y' : Act F β} (b b' : World F → Bool) (hb : ∀ w w', WM M w w' → b' w' = b w) (h : RM M f x x') (h' : RM M f y y') :
    RM M f (fun w => if b w then x w else y w) (fun w => if b' w then x' w else y' w) := by
  refine ⟨fun w w' hw => ?_⟩
  simp only [hb w w' hw]
  split
  · exact h.rel w w' hw
  · exact h'.rel w w' hw

theorem rm_nil {f : Bool → Obj F} (hf : ∀ b, f b = mvObj M (f b)) : RM M M.ref (fun w => alloc (f w.useNil) w) (fun w => alloc (f w.useNil) w) :=
  ⟨fun w w' hw => by rw [hw.useNil]; exact (rm_alloc _ (hf _)).rel w w' hw⟩

theorem rm_newExp (env : Env F) (k : Int) (a : F) : RM M M.ref (newExp env k a) (newExp env k a) :=
  rm_if (fun w => w.useNil) (fun w => w.useNil) (fun _ _ h => h.useNil) (rm_alloc _ rfl) (rm_bind (f := id) (rm_lift (map_id' _)) fun _ => rm_alloc _ rfl)

theorem rm_newHist (s : Ref) : RM (F := F) M M.ref (newHist s) (newHist (M.ref s)) := by
  refine rm_if (fun w => w.useNil) (fun w => w.useNil) (fun _ _ h => h.useNil) (rm_alloc _ rfl) ?_
  refine ⟨fun w w' hw => ?_⟩
  simp only [hw.objs s]
  rcases h : w.objs s with _ | o
  · exact (rm_fail _).rel w w' hw
  · cases o <;> first | exact (rm_fail _).rel w w' hw | exact (rm_alloc (M := M) (.hist (.std s)) (o' := .hist (.std (M.ref s))) rfl).rel w w' hw

theorem rm_newMeter (env : Env F) : RM M M.ref (newMeter env) (newMeter env) :=
  rm_if (fun w => w.useNil) (fun w => w.useNil) (fun _ _ h => h.useNil) (rm_alloc _ rfl) (rm_bind (rm_alloc _ rfl) fun _ => rm_bind (f := id) (rm_add rfl) fun _ => rm_pure _ rfl)

theorem rm_newTimer (h m : Ref) : RM (F := F) M M.ref (newTimer h m) (newTimer (M.ref h) (M.ref m)) := by
  refine rm_if (fun w => w.useNil) (fun w => w.useNil) (fun _ _ h => h.useNil) (rm_alloc _ rfl) ?_
  refine ⟨fun w w' hw => ?_⟩
  simp only [hw.objs h, hw.objs m]
  have hf := (rm_fail (F := F) (M := M) (f := M.ref) .typeAssert).rel w w' hw
  rcases h1 : w.objs h with _ | o
  · exact hf
  · rcases h2 : w.objs m with _ | o'
    · cases o <;> exact hf
    · cases o <;> cases o' <;> first | exact hf | exact (rm_alloc (M := M) (.timer (.std h m)) (o' := .timer (.std (M.ref h) (M.ref m))) rfl).rel w w' hw

theorem rm_construct (env : Env F) (c : NewOp F) : RM M M.ref (construct env c) (construct env (M.new c)) := by
  cases c with
  | counter => exact rm_nil (f := fun b => .counter (Counter.new b)) fun _ => rfl
  | gauge => exact rm_nil (f := fun b => .gauge (Gauge.new b)) fun _ => rfl
  | funcGauge f => exact rm_nil (f := fun b => .gauge (Gauge.newFunctional b f)) fun _ => rfl
  | gaugeF => exact rm_nil (f := fun b => .gaugeF (GaugeF.new b)) fun _ => rfl
  | funcGaugeF f => exact rm_nil (f := fun b => .gaugeF (GaugeF.newFunctional b f)) fun _ => rfl
  | health f => exact rm_nil (f := fun b => .health (Health.new b f)) fun _ => rfl
  | uniform k => exact rm_if (fun w => w.useNil) (fun w => w.useNil) (fun _ _ h => h.useNil) (rm_alloc _ rfl) (rm_bind (f := id) (rm_lift (map_id' _)) fun _ => rm_alloc _ rfl)
  | exp k a => exact rm_newExp env k a
  | sampleSnap n a =>
    exact rm_if (fun w => w.shared a) (fun w => w.shared (M.arr a)) (fun _ _ h => h.shared a) (rm_alloc _ rfl) (rm_bind (rm_newArr _ _) fun _ => rm_alloc _ rfl)
  | hist s => exact rm_newHist s
  | ewma a => exact rm_nil (f := fun b => .ewma (Ewma.new b a)) fun _ => rfl
  | meter => exact rm_newMeter env
  | timer =>
    exact rm_if (fun w => w.useNil) (fun w => w.useNil) (fun _ _ h => h.useNil) (rm_alloc _ rfl)
      (rm_bind (rm_newExp ..) fun _ => rm_bind (rm_newHist _) fun _ => rm_bind (rm_newMeter _) fun _ => rm_newTimer ..)
  | customTimer h m => exact rm_newTimer h m

theorem rm_runAll {g : α → β} {f : α → Act F Unit} {f' : β → Act F Unit} (h : ∀ a, RM M id (f a) (f' (g a))) : ∀ l, RM M id (runAll f l) (runAll f' (l.map g))
  | [] => rm_pure _ rfl
  | a :: l => rm_bind (f := id) (h a) fun _ => rm_runAll h l

/-- What is needed of the order in which a map is visited. -/
structure Orders (M : Move) (env : Env F) : Prop where
  ref : ∀ l, env.order (l.map M.ref) = (env.order l).map M.ref
  entry : ∀ l, env.order (l.map (mvEntry M)) = (env.order l).map (mvEntry M)

theorem rm_tickMeters (env : Env F) (he : Orders M env) : RM M id (tickMeters env) (tickMeters env) := by
  refine ⟨fun w w' hw => ?_⟩
  simp only [tickMeters, hw.meters, he.ref]
  refine (rm_runAll (M := M) (g := M.ref) (f := tickOne env) (f' := tickOne env) (fun r => rm_get rfl fun o => ?_) (env.order w.meters)).rel w w' hw
  rcases o with _ | o
  · exact rm_pure _ rfl
  · cases o <;> first | exact rm_pure _ rfl | exact rm_set rfl _ rfl

/-! ### Registries -/

theorem isMetric_move (o : Obj F) : (mvObj M o).isMetric = o.isMetric := by cases o <;> rfl
theorem stoppable_move (o : Obj F) : (mvObj M o).stoppable = o.stoppable := by cases o <;> rfl
theorem lookup_move (m : List (Str × Ref)) (name : Str) : lookup (m.map (mvEntry M)) name = (lookup m name).map M.ref := by
  unfold lookup
  induction m with
  | nil => rfl
  | cons e m ih =>
    simp only [List.map_cons, List.find?_cons, show (mvEntry M e).1 = e.1 from rfl]
    split
    · rfl
    · exact ih

theorem rm_register (id : Nat) (name : Str) (v : Val F) : RM M M.regOut (register id name v) (register id name (M.val v)) := by
  refine rm_bind (rm_getReg _) fun m => ?_
  simp only [lookup_move]
  rcases lookup m name with _ | q
  · cases v with
    | obj r =>
      refine rm_get rfl fun o => ?_
      rcases o with _ | o
      · exact rm_pure _ rfl
      · simp only [Option.map_some, isMetric_move]
        split
        · exact rm_bind (f := _root_.id) (rm_setReg _ _ rfl) fun _ => rm_pure _ rfl
        · exact rm_pure _ rfl
    | _ => exact rm_pure _ rfl
  · exact rm_pure _ rfl

theorem rm_getOrRegister (env : Env F) (id : Nat) (name : Str) (v : Val F) :
    RM M M.regOut (getOrRegister env id name v) (getOrRegister env id name (M.val v)) := by
  refine rm_bind (rm_getReg _) fun m => ?_
  simp only [lookup_move]
  rcases lookup m name with _ | q
  · cases v with
    | ctor c => exact rm_bind (rm_construct ..) fun _ => rm_bind (rm_register _ _ (.obj _)) fun _ => rm_pure _ rfl
    | otherFn => exact rm_pure _ rfl
    | badFn => exact rm_fail _
    | obj r => exact rm_bind (rm_register _ _ (.obj _)) fun _ => rm_pure _ rfl
    | other => exact rm_pure _ rfl
  · exact rm_pure _ rfl

theorem rm_unregister (env : Env F) (id : Nat) (name : Str) : RM M _root_.id (unregister env id name) (unregister env id name) := by
  refine rm_bind (f := _root_.id) (rm_bind (rm_getReg _) fun m => ?_) fun _ => rm_bind (rm_getReg _) fun m => rm_setReg _ _ ?_
  · simp only [lookup_move]
    rcases lookup m name with _ | q
    · exact rm_pure _ rfl
    · refine rm_get rfl fun o => ?_
      rcases o with _ | o
      · exact rm_pure _ rfl
      · simp only [Option.map_some, stoppable_move]
        split
        · exact rm_bind (rm_call _ _ _) fun _ => rm_pure _ rfl
        · exact rm_pure _ rfl
  · rw [List.filter_map]; rfl

theorem rm_regCall (env : Env F) (he : Orders M env) : ∀ (g : Reg) (o : RegOp F), RM M M.regOut (regCall env g o) (regCall env g (M.regOp o))
  | .std id, .get name => rm_bind (rm_getReg _) fun m => by
    simp only [lookup_move]
    rcases lookup m name with _ | q <;> exact rm_pure _ rfl
  | .std id, .getOrRegister name v => rm_getOrRegister ..
  | .std id, .register name v => rm_register ..
  | .std id, .unregister name => rm_bind (f := _root_.id) (rm_unregister ..) fun _ => rm_pure _ rfl
  | .std id, .unregisterAll => rm_bind (f := _root_.id) (rm_bind (rm_getReg _) fun m => by
      have : (m.map (mvEntry M)).map (·.1) = m.map (·.1) := by rw [List.map_map]; rfl
      simp only [this]
      have := rm_runAll (F := F) (M := M) (g := _root_.id) (f := unregister env id) (f' := unregister env id) (fun n => rm_unregister env id n) (env.order (m.map (·.1)))
      rwa [List.map_id] at this) fun _ => rm_pure _ rfl
  | .std id, .runHealthchecks =>
    rm_bind (f := _root_.id) (rm_bind (rm_getReg _) fun m => by
      simp only [he.entry]
      apply rm_runAll
      intro e
      refine rm_get rfl fun o => ?_
      rcases o with _ | o
      · exact rm_pure _ rfl
      · cases o <;> first | exact rm_pure _ rfl | exact rm_bind (rm_call _ _ _) fun _ => rm_pure _ rfl) fun _ => rm_pure _ rfl
  | .prefixed u p, .get name => rm_regCall env he u (.get (p ++ name))
  | .prefixed u p, .getOrRegister name v => rm_regCall env he u (.getOrRegister (p ++ name) v)
  | .prefixed u p, .register name v => rm_regCall env he u (.register (p ++ name) v)
  | .prefixed u p, .unregister name => rm_regCall env he u (.unregister (p ++ name))
  | .prefixed u _, .unregisterAll => rm_regCall env he u .unregisterAll
  | .prefixed u _, .runHealthchecks => rm_regCall env he u .runHealthchecks
  | .foreign, _ => rm_pure _ rfl

theorem rm_step (env : Env F) (he : Orders M env) (o : Op F) : RM M M.opOut (step env o) (step env (M.op o)) := by
  cases o with
  | setNil b => exact ⟨fun w w' h => ⟨{ h with useNil := rfl }, rfl⟩⟩
  | new c => exact rm_bind (rm_construct ..) fun _ => rm_pure _ rfl
  | call r c => exact rm_bind (rm_call ..) fun _ => rm_pure _ rfl
  | slice o =>
    cases o with
    | make l => exact rm_bind (rm_bind (rm_newArr _ _) fun _ => rm_pure _ rfl) fun _ => rm_pure _ rfl
    | set a i v =>
      refine rm_bind (f := M.out) ⟨fun w w' hw => ?_⟩ fun _ => rm_pure _ rfl
      simp only [sliceOp, hw.shared]
      split
      · refine ⟨{ hw with arrs := ?_, tidy := ?_ }, rfl⟩
        · simp only [hw.arrs]; exact mv_arr hw.arrs a _
        · intro b hb
          dsimp only at hb ⊢
          rcases eq_or_ne b a with rfl | hq
          · simp [Function.update_self, hw.tidy b hb]
          · rw [Function.update_of_ne hq]; exact hw.tidy b hb
      · exact ⟨hw, rfl⟩
  | tick => exact rm_bind (f := id) (rm_tickMeters _ he) fun _ => rm_pure _ rfl
  | reg g o => exact rm_bind (rm_regCall _ he ..) fun _ => rm_pure _ rfl

theorem results_move (l : List (Env F × Op F)) (hl : ∀ x ∈ l, Orders M x.1) {w w' : World F} (h : WM M w w') :
    results w' (l.map fun x => (x.1, M.op x.2)) = (results w l).map (Except.map M.opOut) := by
  induction l generalizing w w' with
  | nil => rfl
  | cons x l ih =>
    obtain ⟨h1, h2⟩ := (rm_step x.1 (hl x (by simp)) x.2).rel w w' h
    show (step x.1 (M.op x.2) w').2 :: _ = _
    rw [h2]
    exact congrArg _ (ih (fun x hx => hl x (by simp [hx])) h1)

theorem run_move (l : List (Env F × Op F)) (hl : ∀ x ∈ l, Orders M x.1) {w w' : World F} (h : WM M w w') :
    WM M (w.run l) (w'.run (l.map fun x => (x.1, M.op x.2))) := by
  induction l generalizing w w' with
  | nil => exact h
  | cons x l ih => exact ih (fun x hx => hl x (by simp [hx])) ((rm_step x.1 (hl x (by simp)) x.2).rel w w' h).1

/-! ### Stores without anything behind the last slice -/

/-- No renumbering. -/
def still : Move := ⟨0, 0, 0, 0⟩
theorem still_ref : still.ref = id := by funext r; simp [still, Move.ref]
theorem still_arr : still.arr = id := by funext r; simp [still, Move.arr]
theorem still_entry : mvEntry still = id := by funext r; simp [mvEntry, still_ref]
theorem still_obj : mvObj (F := F) still = id := by
  funext o
  cases o with
  | sample s => cases s <;> simp [mvObj, mvSample, still_arr]
  | hist h => cases h <;> simp [mvObj, mvHist, still_ref]
  | timer t => cases t <;> simp [mvObj, mvTimer, still_ref]
  | _ => rfl
theorem still_orders (env : Env F) : Orders still env := ⟨fun l => by simp [still_ref], fun l => by simp [still_entry]⟩

def Tidy (w : World F) : Prop := ∀ a, w.nextArr ≤ a → w.arrs a = []
theorem wm_still {w : World F} (h : Tidy w) : WM still w w where
  objs r := by simp [still_ref, still_obj]
  n := Nat.zero_le _
  nextObj := rfl
  arrs a := by simp [still_arr]
  shared a := by simp [still_arr]
  m := Nat.zero_le _
  nextArr := rfl
  meters := by simp [still_ref]
  regs i := by simp [still_entry]
  started := rfl
  useNil := rfl
  tidy := h
theorem tidy_run (l : List (Env F × Op F)) : Tidy (World.init.run l : World F) :=
  (run_move (M := still) l (fun x _ => still_orders x.1) (wm_still fun _ _ => rfl)).tidy

end GoMetrics.Renumber
