import Verif.Spec.Leak

/-! Vocabulary for C114: programs whose registered meters the shared clock ticks. -/

namespace GoMetrics.Spec
open GoMetrics

variable {F : Type} [GoFloat F] [GoSqrt F] [GoExp F]

/-- `m` is a `*StandardMeter`, stopped or not. -/
def standard (w : World F) (m : Ref) : Prop := ∃ s, w.objs m = some (.meter (.std s))

/-- The call treats meters with care: `Stop()` is called on no meter that a registry holds, and a meter that existed before is registered (itself or with a timer around it) only if it is still ticked and no registry holds it yet. -/
def careful (w : World F) (env : Env F) (o : Op F) : Prop :=
  (∀ x m, o = .call x .stop → stopTarget w x m → ¬ held w m) ∧
    ∀ id name r m, binds w env o id name r → stopTarget (step env o w).1 r m → standard w m → live w m ∧ ¬ held w m

/-- All calls of the history do. -/
def allCareful (h : List (Env F × Op F)) : Prop := ∀ l1 env o l2, h = l1 ++ (env, o) :: l2 → careful (World.init.run l1 : World F) env o

/-- The program leaves it to registries to make and stop meters and timers: it calls neither their constructors nor `Stop()`, and does not register what it got from elsewhere. -/
def leavesMeters {F : Type} : Op F → Bool
  | .new .meter | .new .timer | .call _ .stop => false
  | .reg _ (.register _ (.obj _)) | .reg _ (.getOrRegister _ (.obj _)) | .reg _ (.getOrRegister _ (.ctor (.customTimer _ _))) => false
  | _ => true

end GoMetrics.Spec
