import Verif.Spec.Space
import Verif.Lemmas.Stale
import Verif.Lemmas.WorldEffect

/-! Lemmas for C119: the routine operations need no more memory. -/

set_option linter.unusedSectionVars false
set_option linter.unusedTactic false
set_option linter.unreachableTactic false

namespace GoMetrics.Space
open Spec

variable {F : Type} {α β : Type}

theorem NoMore.refl (w : World F) : NoMore w w := ⟨rfl, rfl, fun _ => rfl, fun _ => rfl, fun _ => le_rfl, le_rfl⟩
theorem NoMore.trans {w w' w'' : World F} (h : NoMore w w') (h' : NoMore w' w'') : NoMore w w'' :=
  ⟨h'.objects.trans h.objects, h'.slices.trans h.slices, fun a => (h'.lengths a).trans (h.lengths a), fun r => (h'.rooms r).trans (h.rooms r),
    fun id => (h'.entries id).trans (h.entries id), h'.meters.trans h.meters⟩

/-- The action needs no more memory. -/
def Thrifty (a : Act F α) : Prop := ∀ w, NoMore w (a w).1
/-- The same for stores where the object is known. -/
def ThriftyAt (r : Ref) (o : Obj F) (a : Act F α) : Prop := ∀ w, w.objs r = some o → NoMore w (a w).1

theorem Thrifty.at {a : Act F α} (h : Thrifty a) (r : Ref) (o : Obj F) : ThriftyAt r o a := fun w _ => h w

theorem th_pure (x : α) : Thrifty (pure x : Act F α) := fun w => NoMore.refl w
theorem th_fail (p : Panic) : Thrifty (Act.fail p : Act F α) := fun w => NoMore.refl w
theorem th_lift (r : Res α) : Thrifty (Act.lift r : Act F α) := fun w => NoMore.refl w
theorem th_bind {x : Act F α} {f : α → Act F β} (hx : Thrifty x) (hf : ∀ a, Thrifty (f a)) : Thrifty (x >>= f) := fun w => by
  rw [act_bind]
  have h := hx w
  generalize x w = y at h
  obtain ⟨w', _ | a⟩ := y
  · exact h
  · exact NoMore.trans h (hf a w')
theorem th_getArr (a : ArrId) : Thrifty (getArr a : Act F _) := fun w => NoMore.refl w
theorem th_getReg (a : Nat) : Thrifty (getReg a : Act F _) := fun w => NoMore.refl w
theorem th_sortArr (a : ArrId) : Thrifty (sortArr a : Act F _) := fun w => by
  refine ⟨rfl, rfl, fun b => ?_, fun _ => rfl, fun _ => le_rfl, le_rfl⟩
  simp only [sortArr]
  rcases eq_or_ne b a with rfl | hb
  · rw [Function.update_self, sortInts_length]
  · rw [Function.update_of_ne hb]
theorem th_delete (r : Ref) : Thrifty (arbiterDelete r : Act F _) := fun w =>
  ⟨rfl, rfl, fun _ => rfl, fun _ => rfl, fun _ => le_rfl, List.length_filter_le _ _⟩
theorem th_runAll (f : α → Act F Unit) (hf : ∀ a, Thrifty (f a)) (l : List α) : Thrifty (runAll f l) := by
  induction l with
  | nil => exact th_pure _
  | cons a l ih => exact th_bind (hf a) fun _ => ih
theorem th_get {r : Ref} {f : Option (Obj F) → Act F β} (h0 : Thrifty (f none)) (h : ∀ o, ThriftyAt r o (f (some o))) : Thrifty (getObj r >>= f) := fun w => by
  rw [act_bind_getObj]
  rcases ho : w.objs r with _ | o
  · exact h0 w
  · exact h o w ho

theorem at_lift {r : Ref} {o : Obj F} {x : Res α} {f : α → Act F β} (h : ∀ a, x = .ok a → ThriftyAt r o (f a)) : ThriftyAt r o (Act.lift x >>= f) := fun w hw => by
  rcases x with p | a
  · exact NoMore.refl w
  · exact h a rfl w hw

theorem at_set {r : Ref} {o o' : Obj F} {f : Unit → Act F β} (hr : room o' = room o) (h : ThriftyAt r o' (f ())) : ThriftyAt r o (setObj r o' >>= f) := fun w hw => by
  rw [act_bind]
  refine NoMore.trans (w' := { w with objs := Function.update w.objs r (some o') }) ⟨rfl, rfl, fun _ => rfl, fun q => ?_, fun _ => le_rfl, le_rfl⟩ (h _ (Function.update_self ..))
  show (Function.update w.objs r (some o') q).map room = _
  rcases eq_or_ne q r with rfl | hq
  · rw [Function.update_self, hw, Option.map_some, Option.map_some, hr]
  · rw [Function.update_of_ne hq]

theorem at_set_pure {r : Ref} {o o' : Obj F} {x : β} (hr : room o' = room o) : ThriftyAt r o (setObj r o' >>= fun _ => pure x) := at_set hr ((th_pure _).at _ _)

variable [GoFloat F] [GoSqrt F] [GoExp F]

theorem at_lift_set {r : Ref} {o : Obj F} {x : Res α} {f : α → Obj F} (hr : ∀ a, x = .ok a → room (f a) = room o) : ThriftyAt r o (do setObj r (f (← Act.lift x)); return .unit : Act F (Out F)) :=
  at_lift fun a ha => at_set_pure (hr a ha)

/-! ### The methods -/

theorem exp_update_size {s u : ExpDecaySample F} {t : Instant} {v : Int64} {x : F} (h : s.update t v x = .ok u) : u.reservoirSize = s.reservoirSize := by
  have bnd : ∀ {γ δ : Type} {y : Res γ} {f : γ → Res δ} {b : δ}, y >>= f = .ok b → ∃ a, y = .ok a ∧ f a = .ok b := by
    intro γ δ y f b hy
    rcases y with p | a
    · cases hy
    · exact ⟨a, rfl, hy⟩
  unfold ExpDecaySample.update at h
  dsimp only at h
  obtain ⟨h1, -, h⟩ := bnd h
  obtain ⟨h2, -, h⟩ := bnd h
  split at h
  · obtain ⟨h3, -, h⟩ := bnd h
    cases h
    rfl
  · cases h
    rfl

theorem at_sample (env : Env F) (r : Ref) (s : SampleV F) (c : Call F) (hc : copiesNothing c = true) : ThriftyAt r (.sample s) (sampleCall env r s c) := by
  cases s with
  | uniform s =>
    cases c <;> try first | exact (th_pure _).at _ _ | cases hc
    · exact at_set_pure rfl
    · exact at_set rfl (at_lift fun a ha => at_set_pure (by simp only [room, Stale.update_size ha]))
    · simp only [sampleCall]
      split
      · exact at_set rfl ((th_lift _).at _ _)
      · exact (th_lift _).at _ _
  | exp s =>
    cases c <;> try first | exact (th_pure _).at _ _ | cases hc
    · exact at_set_pure rfl
    · exact at_set rfl (at_lift fun a ha => at_set_pure (by simp only [room, exp_update_size ha]))
    · exact (th_lift _).at _ _
  | snap n a =>
    cases c <;> try first | exact (th_pure _).at _ _ | exact (th_fail _).at _ _ | cases hc
    · refine (th_bind (th_getArr _) fun l => ?_).at _ _
      dsimp only
      split
      · exact th_bind (th_sortArr _) fun _ => th_lift _
      · exact th_lift _
    · exact (th_bind (th_getArr _) fun _ => th_pure _).at _ _
  | nil => cases c <;> try first | exact (th_pure _).at _ _ | cases hc

theorem th_sample (env : Env F) (r : Ref) (c : Call F) (hc : copiesNothing c = true) : Thrifty (callSample env r c) := by
  refine th_get (th_pure _) fun o => ?_
  cases o with
  | sample s => exact at_sample env r s c hc
  | _ => exact (th_pure _).at _ _

theorem th_histCall (env : Env F) (r : Ref) (h : HistV) (c : Call F) (hc : copiesNothing c = true) : Thrifty (histCall env r h c) := by
  cases h <;> cases c <;> first | exact th_pure _ | exact th_fail _ | exact th_sample env _ _ hc | cases hc

theorem th_hist (env : Env F) (r : Ref) (c : Call F) (hc : copiesNothing c = true) : Thrifty (callHist env r c) := by
  refine th_get (th_pure _) fun o => ?_
  cases o with
  | hist h => exact (th_histCall env r h c hc).at _ _
  | _ => exact (th_pure _).at _ _

theorem at_meter (env : Env F) (r : Ref) (m : Meter F) (c : Call F) (hc : copiesNothing c = true) : ThriftyAt r (.meter m) (meterCall env r m c) := by
  cases c <;> try first | exact (th_pure _).at _ _ | cases hc
  · exact at_lift_set fun _ _ => rfl
  · cases m with
    | std s =>
      simp only [meterCall]
      split
      · exact (th_pure _).at _ _
      · exact at_set rfl ((th_bind (th_delete _) fun _ => th_pure _).at _ _)
    | _ => exact (th_pure _).at _ _

theorem th_meter (env : Env F) (r : Ref) (c : Call F) (hc : copiesNothing c = true) : Thrifty (callMeter env r c) := by
  refine th_get (th_pure _) fun o => ?_
  cases o with
  | meter m => exact at_meter env r m c hc
  | _ => exact (th_pure _).at _ _

theorem th_timerCall (env : Env F) (r : Ref) (t : TimerV) (c : Call F) (hc : copiesNothing c = true) : Thrifty (timerCall env r t c) := by
  cases t <;> cases c <;>
    first
    | exact th_pure _
    | exact th_fail _
    | exact th_hist env _ _ hc
    | exact th_meter env _ _ hc
    | exact th_bind (th_hist env _ _ rfl) fun _ => th_meter env _ _ rfl
    | cases hc

theorem th_call (env : Env F) (r : Ref) (c : Call F) (hc : copiesNothing c = true) : Thrifty (call env r c) := by
  refine th_get (th_pure _) fun o => ?_
  cases o with
  | counter x => cases c <;> first | exact (th_pure _).at _ _ | exact at_lift_set fun _ _ => rfl | cases hc
  | gauge x => cases c <;> first | exact (th_pure _).at _ _ | exact at_lift_set fun _ _ => rfl | cases hc
  | gaugeF x => cases c <;> first | exact (th_pure _).at _ _ | exact at_lift_set fun _ _ => rfl | cases hc
  | health x => cases c <;> first | exact (th_pure _).at _ _ | exact at_set_pure rfl | cases hc
  | ewma x => cases c <;> first | exact (th_pure _).at _ _ | exact at_lift_set fun _ _ => rfl | cases hc
  | sample s => exact at_sample env r s c hc
  | hist h => exact (th_histCall env r h c hc).at _ _
  | meter m => exact at_meter env r m c hc
  | timer t => exact (th_timerCall env r t c hc).at _ _

/-! ### The clock and the registries -/

theorem th_tick (env : Env F) : Thrifty (tickMeters env) := fun w => by
  refine th_runAll _ (fun r => th_get (th_pure _) fun o => ?_) _ w
  cases o with
  | meter m => exact at_set_pure (x := ()) rfl
  | _ => exact (th_pure _).at _ _

theorem th_deleteName (id : Nat) (name : Str) : Thrifty (deleteName id name : Act F _) := fun w => by
  refine ⟨rfl, rfl, fun _ => rfl, fun _ => rfl, fun i => ?_, le_rfl⟩
  show (Function.update w.regs id ((w.regs id).filter (·.1 != name)) i).length ≤ _
  rcases eq_or_ne i id with rfl | hi
  · rw [Function.update_self]; exact List.length_filter_le _ _
  · rw [Function.update_of_ne hi]

theorem th_unregister (env : Env F) (id : Nat) (name : Str) : Thrifty (unregister env id name) := by
  refine th_bind (th_bind (th_getReg _) fun m => ?_) fun _ => th_deleteName _ _
  split
  · exact th_pure _
  · refine th_get (th_pure _) fun o => Thrifty.at ?_ _ _
    dsimp only
    split
    · exact th_bind (th_call env _ _ rfl) fun _ => th_pure _
    · exact th_pure _

theorem th_checks (env : Env F) (id : Nat) : Thrifty (runHealthchecks env id) := by
  refine th_bind (th_getReg _) fun m => th_runAll _ (fun e => th_get (th_pure _) fun o => Thrifty.at ?_ _ _) _
  cases o with
  | health h => exact th_bind (th_call env _ _ rfl) fun _ => th_pure _
  | _ => exact th_pure _

theorem lookup_taken {m : List (Str × Ref)} {name : Str} {q : Ref} (h : (name, q) ∈ m) : ∃ r, lookup m name = some r := by
  rcases e : lookup m name with _ | r
  · exact absurd (List.mem_map_of_mem h) (lookup_none.1 e)
  · exact ⟨r, rfl⟩

theorem noMore_step (env : Env F) (o : Op F) (w : World F) (h : Routine w o) : NoMore w (step env o w).1 := by
  cases o with
  | setNil b => exact ⟨rfl, rfl, fun _ => rfl, fun _ => rfl, fun _ => le_rfl, le_rfl⟩
  | new c => cases h
  | call r c => rw [step_call_fst]; exact th_call env r c h w
  | slice o =>
    cases o with
    | make l => cases h
    | set a i v =>
      show NoMore w ((do return OpOut.out (← sliceOp (.set a i v)) : Act F (OpOut F)) w).1
      rw [fst_map]
      simp only [sliceOp]
      split
      · refine ⟨rfl, rfl, fun b => ?_, fun _ => rfl, fun _ => le_rfl, le_rfl⟩
        dsimp only
        rcases eq_or_ne b a with rfl | hb
        · rw [Function.update_self, List.length_set]
        · rw [Function.update_of_ne hb]
      · exact NoMore.refl w
  | tick => exact th_bind (th_tick env) (fun _ => th_pure _) w
  | reg g o =>
    rw [step_reg_fst]
    cases o with
    | get name =>
      rw [(regCall_prefix env g).1]
      cases base g with
      | none => exact NoMore.refl w
      | some id =>
        refine th_bind (th_getReg _) (fun m => ?_) w
        split <;> exact th_pure _
    | getOrRegister name v =>
      obtain ⟨id, q, hb, hq⟩ := h
      obtain ⟨r, hr⟩ := lookup_taken hq
      rw [(regCall_prefix env g).2.1, hb]
      simp only [regCall, getOrRegister, act_bind, act_getReg, hr]
      exact NoMore.refl w
    | register name v =>
      obtain ⟨id, q, hb, hq⟩ := h
      obtain ⟨r, hr⟩ := lookup_taken hq
      rw [(regCall_prefix env g).2.2.1, hb]
      simp only [regCall, register, act_bind, act_getReg, hr]
      exact NoMore.refl w
    | unregister name =>
      rw [(regCall_prefix env g).2.2.2.1]
      cases base g with
      | none => exact NoMore.refl w
      | some id => exact th_bind (th_unregister env _ _) (fun _ => th_pure _) w
    | unregisterAll =>
      rw [(regCall_prefix env g).2.2.2.2.1]
      cases base g with
      | none => exact NoMore.refl w
      | some id => exact th_bind (th_bind (th_getReg _) fun m => th_runAll _ (th_unregister env _) _) (fun _ => th_pure _) w
    | runHealthchecks =>
      rw [(regCall_prefix env g).2.2.2.2.2]
      cases base g with
      | none => exact NoMore.refl w
      | some id => exact th_bind (th_checks env _) (fun _ => th_pure _) w

theorem noMore_run (w : World F) (l : List (Env F × Op F)) (h : RoutineFrom w l) : NoMore w (w.run l) := by
  induction l generalizing w with
  | nil => exact NoMore.refl w
  | cons x l ih => exact NoMore.trans (noMore_step x.1 x.2 w h.1) (ih _ h.2)

/-! ### The totals -/

theorem sum_le {f g : Nat → Nat} (h : ∀ i, f i ≤ g i) (n : Nat) : ((List.range n).map f).sum ≤ ((List.range n).map g).sum := by
  induction n with
  | zero => simp
  | succ n ih => simp only [List.range_succ, List.map_append, List.sum_append, List.map_cons, List.map_nil, List.sum_singleton]; exact Nat.add_le_add ih (h n)

theorem kept_le_room (l : List (Env F × Op F)) (r : Ref) (o : Obj F) (h : (World.init.run l : World F).objs r = some o) : keptValues o ≤ room o := by
  cases o with
  | sample s =>
    cases s with
    | uniform s => have := Stale.reachable_length l r h; simp only [keptValues, room]; omega
    | exp s => have := (Stale.reachable_exp l r h).heap.cap; simp only [keptValues, room]; omega
    | _ => exact le_rfl
  | _ => exact le_rfl

theorem total_le (l : List (Env F × Op F)) : valuesKept (World.init.run l : World F) ≤ roomMade (World.init.run l : World F) := by
  refine Nat.add_le_add (sum_le (fun r => ?_) _) le_rfl
  rcases h : (World.init.run l : World F).objs r with _ | o
  · exact le_rfl
  · exact kept_le_room l r o h

theorem roomMade_eq {w w' : World F} (h : NoMore w w') : roomMade w' = roomMade w := by
  unfold roomMade
  rw [h.objects, h.slices]
  congr 2
  · exact List.map_congr_left fun r _ => by rw [h.rooms]
  · exact List.map_congr_left fun a _ => h.lengths a

/-! ### Copies -/

theorem sum_update {γ : Type} (f : Nat → γ) (g : γ → Nat) (n : Nat) (x : γ) :
    ((List.range (n + 1)).map fun i => g (Function.update f n x i)).sum = ((List.range n).map fun i => g (f i)).sum + g x := by
  rw [List.range_succ, List.map_append, List.sum_append, List.map_singleton, List.sum_singleton, Function.update_self]
  congr 2
  exact List.map_congr_left fun i hi => by rw [Function.update_of_ne (List.mem_range.1 hi).ne]

theorem kept_newArr (w : World F) (l : List Int64) (b : Bool) : valuesKept ((newArr l b : Act F _) w).1 = valuesKept w + l.length := by
  have := sum_update w.arrs List.length w.nextArr l
  unfold valuesKept
  simp only [newArr]
  omega

theorem kept_alloc (w : World F) (o : Obj F) (ho : keptValues o = 0) : valuesKept (alloc o w).1 = valuesKept w := by
  have := sum_update w.objs (fun x => (x.map keptValues).getD 0) w.nextObj (some o)
  simp only [Option.map_some, Option.getD_some, ho] at this
  unfold valuesKept
  simp only [alloc]
  omega

theorem kept_copy (w : World F) (l : List Int64) (n : Int64) :
    valuesKept ((do let a ← newArr l false; return .ref (← alloc (.sample (.snap n a))) : Act F (Out F)) w).1 = valuesKept w + l.length := by
  rw [act_bind]
  have h := kept_newArr w l false
  have e : ((newArr l false : Act F _) w).2 = .ok w.nextArr := rfl
  generalize (newArr l false : Act F _) w = y at h e
  obtain ⟨w', x⟩ := y
  subst e
  rw [← h]
  exact kept_alloc w' (.sample (.snap n w.nextArr)) rfl

theorem kept_snapshot (env : Env F) (w : World F) (r : Ref) (o : Obj F) (h : w.objs r = some o) (hs : takesValues o = true) :
    valuesKept (call env r .snapshot w).1 = valuesKept w + keptValues o := by
  rw [call_obj h]
  cases o with
  | sample s =>
    cases s with
    | uniform s => exact kept_copy w s.values s.count
    | exp s => exact (kept_copy w s.vals s.count).trans (by simp only [ExpDecaySample.vals, List.length_map, keptValues])
    | _ => cases hs
  | _ => cases hs

end GoMetrics.Space
