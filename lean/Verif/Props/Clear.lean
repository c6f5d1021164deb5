import Verif.Lemmas.Stale
import Verif.Spec.Clear
import Verif.Lemmas.WorldSafe
import Verif.Go.F64

/-! C106: a cleared metric is like a new one. -/

set_option linter.unusedSectionVars false

namespace GoMetrics
open Spec Stale

variable {F : Type} [GoFloat F] [GoSqrt F] [GoExp F]

/-! ### C106 -/

/-- The states after `Clear` and with a new object instead agree up to memory that nothing reads. -/
private theorem clear_ws (h : List (Env F × Op F)) (env : Env F) (r : Ref) {o : Obj F} {c : NewOp F}
    (ho : (World.init.run h : World F).objs r = some o) (hm : madeBy o c) :
    ∃ f, freshObj env c = some f ∧ WS (call env r .clear (World.init.run h)).1 (replaced (World.init.run h) r f) ∧ (call env r .clear (World.init.run h)).2 = .ok .unit := by
  have hw := ws_refl h
  have hexp := fun s hs => reachable_exp h r (s := s) hs
  have huni := fun s hs => reachable_uniform h r (s := s) hs
  revert hw hexp huni ho
  generalize (World.init.run h : World F) = w
  intro ho hw hexp huni
  have hput : ∀ {o1 f : Obj F}, OS o1 f → WS { w with objs := Function.update w.objs r (some o1) } (replaced w r f) := fun {o1 f} ho1 =>
    ⟨fun q => by
      by_cases hq : q = r
      · simp only [replaced, hq, ↓reduceIte, Function.update_self]; exact .some ho1
      · simp only [replaced, hq, ↓reduceIte, Function.update_of_ne, ne_eq, not_false_eq_true]; exact hw.objs q, rfl⟩
  rw [call_obj (env := env) (c := .clear) ho]
  cases c <;> cases o <;> simp only [madeBy] at hm
  · rename_i x
    cases x <;> simp only at hm
    exact ⟨_, rfl, hput (.same _ rfl), rfl⟩
  · rename_i k x
    cases x <;> simp only at hm
    rename_i s
    subst hm
    have hk : ¬ s.reservoirSize < 0 := by have := huni s ho; omega
    refine ⟨.sample (.uniform s.clear), ?_, hput (.same _ (decide_eq_true (huni s ho))), rfl⟩
    simp [freshObj, construct, World.init, act_bind, Act.lift, act_alloc, UniformSample.new, hk, UniformSample.clear]
  · rename_i k a x
    cases x <;> simp only at hm
    rename_i s
    obtain ⟨rfl, rfl⟩ := hm
    have hk : ¬ s.reservoirSize < 0 := by have := (hexp s ho).pos; omega
    obtain ⟨u, e⟩ : ∃ u, ExpDecaySample.new s.reservoirSize s.alpha env.now = .ok u := ⟨_, by simp only [ExpDecaySample.new, Heap.new, hk, ↓reduceIte]; rfl⟩
    refine ⟨_, ?_, hput (.exp (es_fresh (hexp s ho) e)), rfl⟩
    simp [freshObj, construct, newExp, World.init, act_bind, Act.lift, act_alloc, e]

/-- C106: clearing a counter or a sample is the same as putting a new one with the same parameters in its place: whatever the history, whatever the program does afterwards, every
call returns the same. For an exponentially decaying sample this holds although `Clear` keeps the array behind its heap, with the old values in it. -/
theorem C106_clear (h : List (Env F × Op F)) (env : Env F) (r : Ref) {o : Obj F} {c : NewOp F}
    (ho : (World.init.run h : World F).objs r = some o) (hm : madeBy o c) :
    ∃ f, freshObj env c = some f ∧ (call env r .clear (World.init.run h)).2 = .ok .unit ∧
      ∀ l, results (call env r .clear (World.init.run h)).1 l = results (replaced (World.init.run h) r f) l := by
  obtain ⟨f, h1, h2, h3⟩ := clear_ws h env r ho hm
  exact ⟨f, h1, h3, fun l => (results_ws l h2).symm⟩

/-- C106 for a histogram: `Clear` is the same as putting a new sample with the same parameters in the place of its sample. -/
theorem C106_histogram (h : List (Env F × Op F)) (env : Env F) (r s : Ref) {o : Obj F} {c : NewOp F}
    (hr : (World.init.run h : World F).objs r = some (.hist (.std s))) (ho : (World.init.run h : World F).objs s = some o) (hm : madeBy o c) :
    ∃ f, freshObj env c = some f ∧ (call env r .clear (World.init.run h)).2 = .ok .unit ∧
      ∀ l, results (call env r .clear (World.init.run h)).1 l = results (replaced (World.init.run h) s f) l := by
  have e : call env r .clear (World.init.run h) = call env s .clear (World.init.run h) := by
    have hs : ∃ x, o = .sample x := by
      obtain ⟨o1, h1, h2⟩ := (run_ok h).refs r _ hr
      rw [ho] at h1
      cases h1
      cases o <;> first | exact ⟨_, rfl⟩ | cases h2
    obtain ⟨x, rfl⟩ := hs
    rw [call_obj hr, call_obj ho]
    show (callSample env s .clear) _ = _
    rw [callSample, act_bind_getObj, ho]
    rfl
  rw [e]
  exact C106_clear h env s ho hm

/-! A histogram over an exponentially decaying sample for two values, with one update. -/

/-- The history. -/
def clearHistory : List (Env F × Op F) :=
  [(envAt 0, .new (.exp 2 (GoFloat.lit 0))), (envAt 0, .new (.hist 0)), (envAt 5, .call 1 (.update 7))]

/-- What is done afterwards. -/
def clearAfter : List (Env F × Op F) :=
  [(envAt 9, .call 1 .count), (envAt 9, .call 1 (.stat .max)), (envAt 9, .call 1 (.update 3)), (envAt 9, .call 1 .count), (envAt 9, .call 1 (.stat .max))]

/-- The numbers among the results. -/
def clearNumbers (l : List (Res (OpOut F))) : List Int64 := l.filterMap fun | .ok (.out (.int n)) => some n | _ => none

/-- The sample after the history. -/
theorem clearHistory_sample : ∃ s : ExpDecaySample F64, (World.init.run clearHistory : World F64).objs 0 = some (.sample (.exp s)) ∧ s.reservoirSize = 2 ∧ s.alpha = GoFloat.lit 0 := by
  have h : (match (World.init.run clearHistory : World F64).objs 0 with
    | some (.sample (.exp s)) => decide (s.reservoirSize = 2 ∧ s.alpha = GoFloat.lit 0)
    | _ => false) = true := by decide +kernel
  split at h
  · exact ⟨_, by assumption, of_decide_eq_true h⟩
  · cases h

theorem clearHistory_hist : (World.init.run clearHistory : World F64).objs 1 = some (.hist (.std 0)) := by
  have h : (match (World.init.run clearHistory : World F64).objs 1 with | some (.hist (.std s)) => decide (s = 0) | _ => false) = true := by decide +kernel
  split at h
  · rename_i s e
    rw [e, of_decide_eq_true h]
  · cases h

/-- The hypotheses hold, and the results are those of a new sample. -/
example : ∃ f, freshObj (envAt 9 : Env F64) (.exp 2 (GoFloat.lit 0)) = some f ∧ (call (envAt 9 : Env F64) 1 .clear (World.init.run clearHistory)).2 = .ok .unit ∧
    ∀ l, results (call (envAt 9 : Env F64) 1 .clear (World.init.run clearHistory)).1 l = results (replaced (World.init.run clearHistory) 0 f) l := by
  obtain ⟨s, h, h'⟩ := clearHistory_sample
  exact C106_histogram clearHistory (envAt 9) 1 0 clearHistory_hist h h'

example : clearNumbers (results (call (envAt 9 : Env F64) 1 .clear (World.init.run clearHistory)).1 clearAfter) = [0, 0, 1, 3] := by decide +kernel
/-- Without `Clear` they are others. -/
example : clearNumbers (results (World.init.run clearHistory : World F64) (clearAfter.take 2)) = [1, 7] := by decide +kernel

end GoMetrics
