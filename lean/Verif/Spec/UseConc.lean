import Verif.Model.UseConc

/-! Using metrics by name: what is expected. -/

namespace GoMetrics.Spec
open GoMetrics

variable {A D R : Type}

/-- The uses of metrics by name in a trace; the calls of methods of the registry. -/
def namedUses (tr : List (UseEv D R)) : List (CEv (Str × D) R) := tr.filterMap fun | .use e => some e | _ => none
def regEvents (tr : List (UseEv D R)) : List (REv Nat) := tr.filterMap fun | .reg e => some e | _ => none

/-- One metric for every name of `P`, for ever: a use of a name acts on the metric of this name and on no other. Nothing is said about other names. -/
def OnePerName (P : Str → Prop) (eff : A → D → A × R) (s : Str → A) (o : Str × D) (r : R) (s' : Str → A) : Prop :=
  (P o.1 → r = (eff (s o.1) o.2).2 ∧ s' o.1 = (eff (s o.1) o.2).1) ∧ ∀ n, P n → n ≠ o.1 → s' n = s n

/-- What other calls of the methods of the registry may be: nobody unregisters names of `P`, or registers under them; what is registered (under other names) are metrics that existed at the start
(numbers below `n0`). -/
def leaves (P : Str → Prop) (n0 : Nat) : ROp Nat → Prop
  | .get _ | .each | .runHealthchecks | .getOrRegister _ .fn => True
  | .getOrRegister n (.val v) | .register n v => ¬ P n ∧ v < n0
  | .unregister n => ¬ P n
  | .unregisterAll => False

def UseIn.leaves (P : Str → Prop) (n0 : Nat) : UseIn D → Prop
  | .other o => Spec.leaves P n0 o
  | _ => True

end GoMetrics.Spec
