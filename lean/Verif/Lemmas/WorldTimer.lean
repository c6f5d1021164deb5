import Verif.Lemmas.WorldReg

/-! What `NewMeter` and `NewTimer` make. -/

set_option linter.unusedSectionVars false

namespace GoMetrics
open Spec

variable {F : Type} [GoFloat F] [GoSqrt F] [GoExp F]

theorem newMeter_eq (env : Env F) (w : World F) (hn : w.useNil = false) :
    newMeter env w = ({ w with objs := Function.update w.objs w.nextObj (some (.meter (.std (StandardMeter.new env.now)))), nextObj := w.nextObj + 1, meters := w.nextObj :: w.meters, started := true }, .ok w.nextObj) := by
  rw [newMeter, if_neg (by simp [hn])]
  rfl

/-- The objects made by `NewTimer`: a sample, its histogram, a meter, and the timer. -/
def timerObjs (env : Env F) (s : ExpDecaySample F) (w : World F) : Ref → Option (Obj F) :=
  Function.update (Function.update (Function.update (Function.update w.objs w.nextObj (some (.sample (.exp s))))
    (w.nextObj + 1) (some (.hist (.std w.nextObj)))) (w.nextObj + 2) (some (.meter (.std (StandardMeter.new env.now)))))
    (w.nextObj + 3) (some (.timer (.std (w.nextObj + 1) (w.nextObj + 2))))

theorem newTimer_eq (env : Env F) (w : World F) (hn : w.useNil = false) : ∃ s, ExpDecaySample.new 1028 (GoFloat.lit (15 / 1000)) env.now = .ok s ∧
    construct env .timer w = ({ w with objs := timerObjs env s w, nextObj := w.nextObj + 4, meters := (w.nextObj + 2) :: w.meters, started := true }, .ok (w.nextObj + 3)) := by
  obtain ⟨s, hs⟩ : ∃ s, ExpDecaySample.new 1028 (GoFloat.lit (15 / 1000) : F) env.now = .ok s := ⟨_, rfl⟩
  refine ⟨s, hs, ?_⟩
  simp only [construct, hn, newExp, hs, act_bind, act_lift, act_alloc, newHist, Function.update_self, newMeter, newTimer, arbiterAdd, act_pure, Bool.false_eq_true, if_false]
  rw [Function.update_of_ne (by omega), Function.update_self]
  rfl

end GoMetrics
