import Verif.Lemmas.WorldSafe
import Verif.Spec.World

/-! What accessors return, as a function of the store. -/

set_option linter.unusedSimpArgs false
set_option linter.unnecessarySeqFocus false
set_option linter.unusedSectionVars false
set_option linter.unnecessarySimpa false

namespace GoMetrics
open Spec

variable {F : Type} [GoFloat F] [GoSqrt F] [GoExp F]

def sampleVal (w : World F) (s : SampleV F) : Call F → Res (Out F)
  | .count => match s with
    | .uniform s => .ok (.int s.count)
    | .exp s => .ok (.int s.count)
    | .snap n _ => .ok (.int n)
    | .nil => .ok (.int 0)
  | .size => .ok (.size (sampleVals w s).length)
  | .stat c => match s with
    | .nil => .ok (nilStat c)
    | s => statOf (sampleVals w s) c
  | _ => .ok .illTyped

theorem heap_size_vals (s : ExpDecaySample F) : s.size = s.vals.length := by
  simp [ExpDecaySample.size, ExpDecaySample.vals, Heap.size]

theorem sampleCall_read (w : World F) (env : Env F) (r : Ref) (s : SampleV F) (c : Call F) (hc : accessor c = true) :
    (sampleCall env r s c w).2 = sampleVal w s c := by
  cases c <;> simp [accessor] at hc <;> try (cases s <;> rfl)
  · rename_i c
    cases s <;> first | rfl | (cases c <;> rfl)
  · cases s with
    | exp s => simp only [sampleCall, sampleVal, sampleVals, ← heap_size_vals]; rfl
    | _ => rfl

def sampleRef (w : World F) (s : Ref) (c : Call F) : Res (Out F) :=
  match w.objs s with
  | some (.sample x) => sampleVal w x c
  | _ => .ok .illTyped

theorem callSample_read (w : World F) (env : Env F) (r : Ref) (c : Call F) (hc : accessor c = true) :
    (callSample env r c w).2 = sampleRef w r c := by
  rw [callSample, act_bind_getObj]
  unfold sampleRef
  rcases w.objs r with _ | o
  · rfl
  · cases o <;> first | rfl | exact sampleCall_read w env r _ c hc

def histVal (w : World F) (h : HistV) : Call F → Res (Out F)
  | .count => match h with
    | .std s | .snap s => sampleRef w s .count
    | .nil => .ok (.int 0)
  | .stat c => match h with
    | .std s | .snap s => sampleRef w s (.stat c)
    | .nil => .ok (nilStat c)
  | _ => .ok .illTyped

theorem histCall_read (w : World F) (env : Env F) (r : Ref) (h : HistV) (c : Call F) (hc : accessor c = true) :
    (histCall env r h c w).2 = histVal w h c := by
  cases c <;> simp [accessor] at hc <;> cases h <;> first | rfl | exact callSample_read w env _ _ rfl

def histRef (w : World F) (s : Ref) (c : Call F) : Res (Out F) :=
  match w.objs s with
  | some (.hist x) => histVal w x c
  | _ => .ok .illTyped

theorem callHist_read (w : World F) (env : Env F) (r : Ref) (c : Call F) (hc : accessor c = true) :
    (callHist env r c w).2 = histRef w r c := by
  rw [callHist, act_bind_getObj]
  unfold histRef
  rcases w.objs r with _ | o
  · rfl
  · cases o <;> first | rfl | exact histCall_read w env r _ c hc

def meterVal (m : Meter F) : Call F → Res (Out F)
  | .count => .ok (.int m.count)
  | .rates c => .ok (.float (m.rateOf c))
  | _ => .ok .illTyped

def meterRef (w : World F) (s : Ref) (c : Call F) : Res (Out F) :=
  match w.objs s with
  | some (.meter x) => meterVal x c
  | _ => .ok .illTyped

theorem meterCall_read (w : World F) (env : Env F) (r : Ref) (m : Meter F) (c : Call F) (hc : accessor c = true) :
    (meterCall env r m c w).2 = meterVal m c := by
  cases c <;> simp [accessor] at hc <;> rfl

theorem callMeter_read (w : World F) (env : Env F) (r : Ref) (c : Call F) (hc : accessor c = true) :
    (callMeter env r c w).2 = meterRef w r c := by
  rw [callMeter, act_bind_getObj]
  unfold meterRef
  rcases w.objs r with _ | o
  · rfl
  · cases o <;> first | rfl | exact meterCall_read w env r _ c hc

def timerVal (w : World F) (t : TimerV) : Call F → Res (Out F)
  | .count => match t with
    | .std h _ | .snap h _ => histRef w h .count
    | .nil => .ok (.int 0)
  | .stat c => match t with
    | .std h _ | .snap h _ => histRef w h (.stat c)
    | .nil => .ok (nilStat c)
  | .rates c => match t with
    | .std _ m | .snap _ m => meterRef w m (.rates c)
    | .nil => .ok (.float (GoFloat.lit 0))
  | _ => .ok .illTyped

theorem timerCall_read (w : World F) (env : Env F) (r : Ref) (t : TimerV) (c : Call F) (hc : accessor c = true) :
    (timerCall env r t c w).2 = timerVal w t c := by
  cases c <;> simp [accessor] at hc <;> cases t <;> first | rfl | exact callHist_read w env _ _ rfl | exact callMeter_read w env _ _ rfl

/-- The result of an accessor. -/
def objVal (w : World F) (env : Env F) : Obj F → Call F → Res (Out F)
  | .counter x, .count => .ok (.int x.count)
  | .gauge g, .value => .ok (.int (g.value env.gaugeFn))
  | .gaugeF g, .value => .ok (.bits (g.value env.gaugeFFn))
  | .health h, .error => .ok (.err h.error)
  | .sample s, c => sampleVal w s c
  | .hist h, c => histVal w h c
  | .ewma e, .rate => .ok (.float e.rate)
  | .meter m, c => meterVal m c
  | .timer t, c => timerVal w t c
  | _, _ => .ok .illTyped

theorem read_obj {w : World F} {env : Env F} {r : Ref} {o : Obj F} (h : w.objs r = some o) (c : Call F) (hc : accessor c = true) :
    observe w env r c = objVal w env o c := by
  unfold observe call
  rw [act_bind_getObj, h]
  cases o with
  | sample s => simpa [objVal] using sampleCall_read w env r s c hc
  | hist s => simpa [objVal] using histCall_read w env r s c hc
  | meter s => simpa [objVal] using meterCall_read w env r s c hc
  | timer s => simpa [objVal] using timerCall_read w env r s c hc
  | _ => cases c <;> simp [accessor] at hc <;> rfl

theorem read_none {w : World F} {env : Env F} {r : Ref} (h : w.objs r = none) (c : Call F) : observe w env r c = .ok .illTyped := by
  unfold observe call
  rw [act_bind_getObj, h]
  rfl

/-! ### Reordering the values -/

theorem sampleMax_perm {a b : List Int64} (h : a.Perm b) : sampleMax a = sampleMax b := by
  unfold sampleMax
  rw [h.length_eq]
  split
  · rfl
  · exact h.foldl_eq' (fun x _ y _ z => by split_ifs <;> first | rfl | (apply Int64.toInt_inj.1; simp only [i64_lt] at *; omega)) _

theorem sampleMin_perm {a b : List Int64} (h : a.Perm b) : sampleMin a = sampleMin b := by
  unfold sampleMin
  rw [h.length_eq]
  split
  · rfl
  · exact h.foldl_eq' (fun x _ y _ z => by simp only [gt_iff_lt]; split_ifs <;> first | rfl | (apply Int64.toInt_inj.1; simp only [i64_lt] at *; omega)) _

theorem sampleSum_perm {a b : List Int64} (h : a.Perm b) : sampleSum a = sampleSum b := by
  apply Int64.toInt_inj.1
  rw [sampleSum_toInt, sampleSum_toInt, (h.map _).sum_eq]

theorem sampleMean_perm {a b : List Int64} (h : a.Perm b) : (sampleMean a : F) = sampleMean b := by
  unfold sampleMean
  rw [h.length_eq, sampleSum_perm h]

theorem samplePercentile_perm {a b : List Int64} (h : a.Perm b) (p : F) :
    (samplePercentile a p).map Prod.fst = (samplePercentile b p).map Prod.fst := by
  rcases Nat.eq_zero_or_pos a.length with h0 | h0
  · have ha : a = [] := List.eq_nil_of_length_eq_zero h0
    subst ha
    rw [List.nil_perm.1 h]
  · rw [samplePercentile_nonempty a p h0, samplePercentile_nonempty b p (h.length_eq ▸ h0), sortInts_eq_of_perm h]

theorem bind_fst {α β γ : Type} (x : Res (α × β)) (f : α → γ) : (do return f (← x).1 : Res γ) = (x.map Prod.fst).map f := by
  cases x <;> rfl

/-- The statistics that do not depend on the order of the values in any arithmetic. -/
theorem statOf_perm {a b : List Int64} (h : a.Perm b) (c : StatCall F) (hc : orderFree (.stat c) = true) : (statOf a c : Res (Out F)) = statOf b c := by
  cases c with
  | max => simp [statOf, sampleMax_perm h]
  | min => simp [statOf, sampleMin_perm h]
  | sum => simp [statOf, sampleSum_perm h]
  | mean => simp only [statOf, sampleMean_perm h]
  | percentile p =>
    simp only [statOf]
    rw [bind_fst, bind_fst, samplePercentile_perm h]
  | percentiles ps =>
    simp only [statOf]
    rw [bind_fst, bind_fst, samplePercentiles_perm h]
  | stdDev => simp [orderFree] at hc
  | variance => simp [orderFree] at hc

theorem orderFree_accessor {c : Call F} (h : orderFree c = true) : accessor c = true := by
  cases c with
  | stat c => rfl
  | _ => exact h

/-- An accessor whose result does not depend on the order of the values. -/
def ReadOK (c : Call F) : Prop :=
  accessor c = true ∧ ∀ s, c = .stat s → ∀ a b : List Int64, a.Perm b → (statOf a s : Res (Out F)) = statOf b s

theorem readOK_orderFree {c : Call F} (h : orderFree c = true) : ReadOK c :=
  ⟨orderFree_accessor h, by rintro s rfl a b hab; exact statOf_perm hab s h⟩

theorem readOK_count : ReadOK (.count : Call F) := readOK_orderFree rfl

/-- With exact arithmetic all accessors are of this kind. -/
theorem readOK_exact {K : Type} [Field K] [LinearOrder K] [IsStrictOrderedRing K] [FloorRing K] [GoSqrt K] [GoExp K] {c : Call K} (h : accessor c = true) :
    ReadOK c := by
  have hv : ∀ a b : List Int64, a.Perm b → (sampleVariance a : K) = sampleVariance b := by
    intro a b hab
    unfold sampleVariance
    rw [hab.length_eq, sampleMean_perm hab]
    split
    · rfl
    · simp only
      congr 1
      refine hab.foldl_eq' (fun x _ y _ z => ?_) _
      simp only [exact_add, exact_mul]
      ring
  refine ⟨h, ?_⟩
  rintro s rfl a b hab
  cases s with
  | variance => simp only [statOf, hv a b hab]
  | stdDev => simp only [statOf, sampleStdDev, hv a b hab]
  | _ => exact statOf_perm hab _ rfl

end GoMetrics
