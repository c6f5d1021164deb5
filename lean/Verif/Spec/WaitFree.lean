import Verif.Go.Conc
import Verif.Go.Machine

/-! Vocabulary for C109: calls that never wait. -/

namespace GoMetrics.Spec
open GoMetrics

variable {S L I E Op R : Type}

/-- Goroutine `t` is in the call `o`: it has started it, and nothing of the kind has happened to it since. -/
def InCall (t : Nat) (o : Op) (tr : List (CEv Op R)) : Prop :=
  ∃ a b, tr = a ++ .inv t o :: b ∧ (∀ o', CEv.inv t o' ∉ b) ∧ ∀ o' r, CEv.ret t o' r ∉ b

/-- How many steps of a schedule are goroutine `t`'s. -/
def turns (t : Nat) (sched : List (Nat × I)) : Nat := sched.countP fun x => x.1 == t

/-- The call `o` never waits (Herlihy: it is wait-free), and takes at most `n` steps. In every execution, whatever the other goroutines do or fail to do:
a goroutine in the call can go on, by the time it has gone on `n` times it has returned, and it does return even if all others are suspended where they are. -/
structure NeverWaits (M : Machine S L I E) (calls : List E → List (CEv Op R)) (s0 : S) (l0 : Nat → L) (go : I) (o : Op) (n : Nat) : Prop where
  goes_on : ∀ {sched s ls tr t}, M.run s0 l0 sched = some (s, ls, tr) → InCall t o (calls tr) → (M.step t go s (ls t)).isSome
  returns : ∀ {sched s ls tr t sched' s' ls' tr'}, M.run s0 l0 sched = some (s, ls, tr) → InCall t o (calls tr) →
    M.run s ls sched' = some (s', ls', tr') → n ≤ turns t sched' → ∃ r, CEv.ret t o r ∈ calls tr'
  alone : ∀ {sched s ls tr t}, M.run s0 l0 sched = some (s, ls, tr) → InCall t o (calls tr) →
    ∃ m ≤ n, ∃ s' ls' tr' r, M.run s ls (List.replicate m (t, go)) = some (s', ls', tr') ∧ CEv.ret t o r ∈ calls tr'

/-- The call `o` may have to wait: in some execution a goroutine is in the call and cannot go on, so that it depends on what the others do. -/
def MayWait (M : Machine S L I E) (calls : List E → List (CEv Op R)) (s0 : S) (l0 : Nat → L) (o : Op) : Prop :=
  ∃ sched s ls tr t, M.run s0 l0 sched = some (s, ls, tr) ∧ InCall t o (calls tr) ∧ ∀ i, M.step t i s (ls t) = none

end GoMetrics.Spec
