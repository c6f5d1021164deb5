import Verif.Spec.Ledger
import Verif.Spec.RegistryProgram

/-! What goroutines have done together (C128): books kept from the calls they make, whatever the order in which these take effect. -/

namespace GoMetrics.Spec
open GoMetrics

variable {F : Type}

/-- The calls in progress after the events, if `busy` are in progress before. -/
def busyAfter {Op R : Type} : (Nat → Option Op) → List (HEv Op R) → Nat → Option Op
  | busy, [] => busy
  | busy, .inv t o :: h => busyAfter (Function.update busy t (some o)) h
  | busy, .ret t _ _ :: h => busyAfter (Function.update busy t none) h

/-- Every call that was made has returned. -/
def Finished {Op R : Type} (h : List (HEv Op R)) : Prop := ∀ t, busyAfter (fun _ => none) h t = none

/-- The calls made, as operations of the one-at-a-time model (`Each` changes nothing and is no operation there). -/
def callsMade : List (HEv (ProgOp F) (ProgSeen F)) → List (Op F)
  | [] => []
  | .inv _ (.call r c) :: h => .call r c :: callsMade h
  | .inv _ (.reg g o) :: h => .reg g o :: callsMade h
  | _ :: h => callsMade h

/-- What the goroutines add to the counter `r`. -/
def added (r : Ref) : List (HEv (ProgOp F) (ProgSeen F)) → Int
  | [] => 0
  | .inv _ (.call x (.inc i)) :: h => (if x = r then i.toInt else 0) + added r h
  | .inv _ (.call x (.dec i)) :: h => (if x = r then -i.toInt else 0) + added r h
  | _ :: h => added r h

/-- The values that the goroutines record in the sample `s`, with it or with histograms. -/
def recordedBy (w : World F) (s : Ref) : List (HEv (ProgOp F) (ProgSeen F)) → List Int64
  | [] => []
  | .inv _ (.call x (.update v)) :: h => if recordsIn w x = some s then v :: recordedBy w s h else recordedBy w s h
  | _ :: h => recordedBy w s h

/-- A statistic, as the caller sees it. -/
def statSeen : Res (Out F) → Seen F
  | .ok (.int n) => .int n
  | .ok (.float x) => .float x
  | .ok (.floats xs) => .floats xs
  | .ok _ => .unit
  | .error p => .panic p

end GoMetrics.Spec
