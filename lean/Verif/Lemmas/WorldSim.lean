import Verif.Lemmas.WorldSnap

/-! Reads leave the store as it is, up to the order of the values in uniform samples and slices (C18, C56). -/

set_option linter.unusedSimpArgs false
set_option linter.unnecessarySeqFocus false
set_option linter.unusedSectionVars false
set_option linter.unnecessarySimpa false

namespace GoMetrics
open Spec

variable {F : Type} [GoFloat F] [GoSqrt F] [GoExp F]

/-- The same store up to the order of the values in uniform samples and slices. -/
structure Sim (w w' : World F) : Prop where
  objs : ∀ r, w'.objs r = w.objs r ∨ ∃ s s' : UniformSample, w.objs r = some (.sample (.uniform s)) ∧ w'.objs r = some (.sample (.uniform s')) ∧
    s'.count = s.count ∧ s'.reservoirSize = s.reservoirSize ∧ s'.values.Perm s.values
  arrs : ∀ a, (w'.arrs a).Perm (w.arrs a)
  next : w'.nextObj = w.nextObj
  nextA : w'.nextArr = w.nextArr
  shared : w'.shared = w.shared
  meters : w'.meters = w.meters
  regs : w'.regs = w.regs

theorem Sim.refl (w : World F) : Sim w w := ⟨fun _ => .inl rfl, fun _ => .refl _, rfl, rfl, rfl, rfl, rfl⟩

theorem Sim.trans {w w' w'' : World F} (h : Sim w w') (h' : Sim w' w'') : Sim w w'' := by
  refine ⟨fun r => ?_, fun a => (h'.arrs a).trans (h.arrs a), h'.next.trans h.next, h'.nextA.trans h.nextA, h'.shared.trans h.shared, h'.meters.trans h.meters, h'.regs.trans h.regs⟩
  rcases h.objs r with e | ⟨s, s', e1, e2, e3, e4, e5⟩
  · rw [← e]; exact h'.objs r
  · rcases h'.objs r with e | ⟨t, t', f1, f2, f3, f4, f5⟩
    · exact .inr ⟨s, s', e1, e ▸ e2, e3, e4, e5⟩
    · obtain rfl : t = s' := by simpa [e2] using f1.symm
      exact .inr ⟨s, t', e1, f2, f3.trans e3, f4.trans e4, f5.trans e5⟩

theorem sim_sample (w : World F) (env : Env F) (r : Ref) (x : SampleV F) (hr : w.objs r = some (.sample x)) (c : Call F) (hc : accessor c = true) :
    Sim w (sampleCall env r x c w).1 := by
  cases c <;> simp [accessor] at hc <;> try (cases x <;> exact Sim.refl w)
  rename_i s
  cases x with
  | uniform u =>
    cases hs : s.sorts
    · simp only [sampleCall, hs]; exact Sim.refl w
    · simp only [sampleCall, hs]
      refine ⟨fun q => ?_, fun _ => .refl _, rfl, rfl, rfl, rfl, rfl⟩
      rcases eq_or_ne q r with rfl | hq
      · exact .inr ⟨u, _, hr, Function.update_self .., rfl, rfl, sortInts_perm u.values⟩
      · exact .inl (Function.update_of_ne hq ..)
  | exp u => exact Sim.refl w
  | snap n a =>
    cases hs : s.sorts
    · simp only [sampleCall, hs]; exact Sim.refl w
    · simp only [sampleCall, hs]
      refine ⟨fun q => .inl rfl, fun b => ?_, rfl, rfl, rfl, rfl, rfl⟩
      show (Function.update w.arrs a (sortInts (w.arrs a)) b).Perm (w.arrs b)
      rcases eq_or_ne b a with rfl | hb
      · rw [Function.update_self]; exact sortInts_perm _
      · rw [Function.update_of_ne hb]
  | nil => exact Sim.refl w

theorem sim_callSample (w : World F) (env : Env F) (r : Ref) (c : Call F) (hc : accessor c = true) : Sim w (callSample env r c w).1 := by
  rw [callSample, act_bind_getObj]
  rcases hr : w.objs r with _ | o
  · exact Sim.refl w
  · cases o <;> first | exact Sim.refl w | exact sim_sample w env r _ hr c hc

theorem sim_hist (w : World F) (env : Env F) (r : Ref) (x : HistV) (c : Call F) (hc : accessor c = true) : Sim w (histCall env r x c w).1 := by
  cases c <;> simp [accessor] at hc <;> cases x <;> first | exact Sim.refl w | exact sim_callSample w env _ _ rfl

theorem sim_callHist (w : World F) (env : Env F) (r : Ref) (c : Call F) (hc : accessor c = true) : Sim w (callHist env r c w).1 := by
  rw [callHist, act_bind_getObj]
  rcases hr : w.objs r with _ | o
  · exact Sim.refl w
  · cases o <;> first | exact Sim.refl w | exact sim_hist w env r _ c hc

theorem sim_callMeter (w : World F) (env : Env F) (r : Ref) (c : Call F) (hc : accessor c = true) : Sim w (callMeter env r c w).1 := by
  rw [callMeter, act_bind_getObj]
  rcases hr : w.objs r with _ | o
  · exact Sim.refl w
  · cases o <;> first | exact Sim.refl w | (cases c <;> simp [accessor] at hc <;> exact Sim.refl w)

theorem sim_call (w : World F) (env : Env F) (r : Ref) (c : Call F) (hc : accessor c = true) : Sim w (call env r c w).1 := by
  rcases hr : w.objs r with _ | o
  · rw [call, act_bind_getObj, hr]; exact Sim.refl w
  · rw [call_obj hr]
    cases o with
    | sample x => exact sim_sample w env r x hr c hc
    | hist x => exact sim_hist w env r x c hc
    | timer x =>
      cases c <;> simp [accessor] at hc <;> cases x <;> first | exact Sim.refl w | exact sim_callHist w env _ _ rfl | exact sim_callMeter w env _ _ rfl
    | _ => cases c <;> simp [accessor] at hc <;> exact Sim.refl w

theorem Sim.sampleRef {w w' : World F} (h : Sim w w') (r : Ref) (c : Call F) (hc : ReadOK c) : sampleRef w' r c = sampleRef w r c := by
  unfold GoMetrics.sampleRef
  rcases h.objs r with e | ⟨s, s', e1, e2, e3, e4, e5⟩
  · rw [e]
    rcases w.objs r with _ | o
    · rfl
    · cases o with
      | sample x =>
        cases x with
        | snap n a =>
          cases c <;> try rfl
          · exact hc.2 _ rfl _ _ (h.arrs a)
          · simp [sampleVal, sampleVals, (h.arrs a).length_eq]
        | _ => cases c <;> rfl
      | _ => rfl
  · rw [e1, e2]
    cases c <;> try rfl
    · simp [sampleVal, e3]
    · exact hc.2 _ rfl _ _ e5
    · simp [sampleVal, sampleVals, e5.length_eq]

theorem Sim.histRef {w w' : World F} (h : Sim w w') (r : Ref) (c : Call F) (hc : ReadOK c) : histRef w' r c = histRef w r c := by
  unfold GoMetrics.histRef
  rcases h.objs r with e | ⟨s, s', e1, e2, -⟩
  · rw [e]
    rcases w.objs r with _ | o
    · rfl
    · cases o with
      | hist x => cases x <;> cases c <;> first | rfl | exact h.sampleRef _ _ hc
      | _ => rfl
  · rw [e1, e2]

theorem Sim.meterRef {w w' : World F} (h : Sim w w') (r : Ref) (c : Call F) : meterRef w' r c = meterRef w r c := by
  unfold GoMetrics.meterRef
  rcases h.objs r with e | ⟨s, s', e1, e2, -⟩
  · rw [e]
  · rw [e1, e2]

theorem Sim.observe {w w' : World F} (h : Sim w w') (env : Env F) (r : Ref) (c : Call F) (hc : ReadOK c) :
    observe w' env r c = observe w env r c := by
  rcases h.objs r with e | ⟨s, s', e1, e2, -⟩
  · rcases hr : w.objs r with _ | o
    · rw [read_none hr, read_none (e.trans hr)]
    · rw [read_obj hr _ hc.1, read_obj (e.trans hr) _ hc.1]
      cases o with
      | sample x =>
        have := h.sampleRef r c hc
        simp only [GoMetrics.sampleRef, hr, e.trans hr] at this
        exact this
      | hist x =>
        have := h.histRef r c hc
        simp only [GoMetrics.histRef, hr, e.trans hr] at this
        exact this
      | timer x => cases x <;> cases c <;> first | rfl | exact h.histRef _ _ hc | exact h.meterRef _ _
      | _ => cases c <;> rfl
  · have := h.sampleRef r c hc
    simp only [GoMetrics.sampleRef, e1, e2] at this
    rw [read_obj e1 _ hc.1, read_obj e2 _ hc.1]
    exact this

theorem contents_eq (w : World F) (env : Env F) (r : Ref) :
    contents w env r = match w.objs r with | some (.sample x) => sampleVals w x | _ => [] := by
  unfold contents
  rcases hr : w.objs r with _ | o
  · rw [call, act_bind_getObj, hr]; rfl
  · rw [call_obj hr]
    cases o with
    | sample x => cases x <;> simp [objCall, sampleCall, act_bind, newArr, act_pure, sampleVals, getArr]
    | hist x => cases x <;> rfl
    | timer x => cases x <;> rfl
    | _ => rfl

theorem Sim.contents {w w' : World F} (h : Sim w w') (env : Env F) (r : Ref) : (contents w' env r).Perm (contents w env r) := by
  rw [contents_eq, contents_eq]
  rcases h.objs r with e | ⟨s, s', e1, e2, e3, e4, e5⟩
  · rw [e]
    rcases w.objs r with _ | o
    · exact .refl _
    · cases o with
      | sample x => cases x <;> first | exact .refl _ | exact h.arrs _
      | _ => exact .refl _
  · rw [e1, e2]; exact e5

theorem sim_reads (w : World F) (reads : List (Env F × Ref × Call F)) (hr : ∀ x ∈ reads, accessor x.2.2 = true) :
    Sim w (w.run (reads.map fun x => (x.1, .call x.2.1 x.2.2))) := by
  induction reads generalizing w with
  | nil => exact Sim.refl w
  | cons x reads ih =>
    show Sim w (World.run (step x.1 (.call x.2.1 x.2.2) w).1 _)
    rw [step_call_fst]
    exact (sim_call w x.1 x.2.1 x.2.2 (hr x (by simp))).trans (ih _ fun y hy => hr y (by simp [hy]))

end GoMetrics
