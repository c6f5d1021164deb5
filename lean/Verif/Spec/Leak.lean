import Verif.Spec.Registry

/-! Vocabulary for C108: the meters that the shared clock holds. -/

namespace GoMetrics.Spec
open GoMetrics

variable {F : Type} [GoFloat F] [GoSqrt F] [GoExp F]

/-- A registry holds the meter `m`: some name is bound to it, or to a timer with this meter. So the program can find it, and `Unregister` stops it. -/
def held (w : World F) (m : Ref) : Prop := ∃ id name r, gets w id name = some r ∧ stopTarget w r m

/-- The program itself calls `NewMeter` or `NewTimer`. (`GetOrRegisterMeter` and the like leave that to the registry: `Val.ctor`.) -/
def makesMeter {F : Type} : Op F → Bool
  | .new .meter | .new .timer => true
  | _ => false

/-- All registry calls of the history are on the standard registry `id` or on prefixed ones over it. -/
def onlyRegistry {F : Type} (id : Nat) (h : List (Env F × Op F)) : Prop := ∀ x ∈ h, ∀ g o, x.2 = .reg g o → base g = some id

end GoMetrics.Spec
