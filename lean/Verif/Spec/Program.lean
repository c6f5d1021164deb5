import Verif.Go.Conc
import Mathlib.Data.List.Forall2

/-! Programs that use several shared objects. -/

namespace GoMetrics.Spec
open GoMetrics

variable {Op R ι : Type}

/-- The call an event belongs to. -/
def evOp : HEv Op R → Op
  | .inv _ o => o
  | .ret _ o _ => o

/-- Every goroutine makes one call at a time, and what returns is the call in progress. `busy`: the calls in progress. -/
def OneCall : (Nat → Option Op) → List (HEv Op R) → Prop
  | _, [] => True
  | busy, .inv t o :: h => busy t = none ∧ OneCall (Function.update busy t (some o)) h
  | busy, .ret t o _ :: h => busy t = some o ∧ OneCall (Function.update busy t none) h

/-- The events on the object `k`; `key o` is the object that the call `o` is made on. -/
def part [DecidableEq ι] (key : Op → ι) (k : ι) (h : List (HEv Op R)) : List (HEv Op R) := h.filter fun e => key (evOp e) = k

/-- An event of the program, and the same event as the object sees it: `ρ` relates the calls, `g` translates results. -/
inductive SameEv {Op' R' : Type} (ρ : Op → Op' → Prop) (g : Op → R' → R) : HEv Op R → HEv Op' R' → Prop where
  | inv {t o o'} : ρ o o' → SameEv ρ g (.inv t o) (.inv t o')
  | ret {t o o' r'} : ρ o o' → SameEv ρ g (.ret t o (g o r')) (.ret t o' r')

/-- All objects together, one call at a time: a call changes the object it is made on, as the specification `S` of this object says, and no other. -/
def Together [DecidableEq ι] {σ Op' R' : ι → Type} (key : Op → ι) (ρ : ∀ k, Op → Op' k → Prop) (g : ∀ k, Op → R' k → R)
    (S : ∀ k, σ k → Op' k → R' k → σ k → Prop) (s : ∀ k, σ k) (o : Op) (r : R) (s' : ∀ k, σ k) : Prop :=
  ∃ o' r' x, ρ (key o) o o' ∧ r = g (key o) o r' ∧ S (key o) (s (key o)) o' r' x ∧ s' = Function.update s (key o) x

end GoMetrics.Spec
