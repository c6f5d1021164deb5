import Verif.Go.Conc
import Verif.Go.Machine

/-!
Methods of an object with one mutex.

A method is a program of steps on the shared fields (type `S`): read or write of fields, acquiring and releasing the object's mutex, questions to the environment (clock, random numbers; answers of type `X`).
Nothing forces a program to take the mutex, or to take it before it touches a field. Any number of goroutines run such programs on one object.
-/

namespace GoMetrics

inductive Body (S X R : Type) where
  | ret (r : R)
  | ask (k : X → Body S X R)
  | lock (k : Body S X R)
  /-- One step on the fields: they become `f s`; the program goes on with what it saw. -/
  | act (f : S → S) (k : S → Body S X R)
  | unlock (k : Body S X R)

variable {S X R Op : Type}

structure MutexS (S : Type) where
  mutex : Option Nat
  obj : S

inductive BodyL (Op S X R : Type) where
  | idle
  | run (o : Op) (b : Body S X R)

/-- What the environment decides: the next call of an idle goroutine; an answer; otherwise just the next step. -/
inductive BodyIn (Op X : Type) where
  | call (o : Op)
  | step
  | answer (x : X)

/-- One step of goroutine `t`. A call counts as effective when it releases the mutex and has only to return (`lin`); that this makes sense is to be proved. -/
def bodyStep (prog : Op → Body S X R) (t : Nat) : BodyIn Op X → MutexS S → BodyL Op S X R → Option (MutexS S × BodyL Op S X R × List (CEv Op R))
  | .call o, s, .idle => some (s, .run o (prog o), [.inv t o])
  | .answer x, s, .run o (.ask k) => some (s, .run o (k x), [])
  | .step, s, .run o (.lock k) => if s.mutex = none then some ({ s with mutex := some t }, .run o k, []) else none
  | .step, s, .run o (.act f k) => some ({ s with obj := f s.obj }, .run o (k s.obj), [])
  | .step, s, .run o (.unlock (.ret r)) => some ({ s with mutex := none }, .run o (.ret r), [.lin t o r])
  | .step, s, .run o (.unlock k) => some ({ s with mutex := none }, .run o k, [])
  | .step, s, .run o (.ret r) => some (s, .idle, [.ret t o r])
  | _, _, _ => none

def bodyMachine (prog : Op → Body S X R) : Machine (MutexS S) (BodyL Op S X R) (BodyIn Op X) (CEv Op R) := ⟨bodyStep prog⟩

/-- A method run alone: from fields `s` to fields `s'` with result `r`. -/
inductive RunAlone : Body S X R → S → S → R → Prop where
  | ret {s r} : RunAlone (.ret r) s s r
  | ask {k s s' r} (x : X) : RunAlone (k x) s s' r → RunAlone (.ask k) s s' r
  | lock {k s s' r} : RunAlone k s s' r → RunAlone (.lock k) s s' r
  | act {f k s s' r} : RunAlone (k s) (f s) s' r → RunAlone (.act f k) s s' r
  | unlock {k s s' r} : RunAlone k s s' r → RunAlone (.unlock k) s s' r

/-- From here on a method that holds the mutex: fields are used, the mutex is released, nothing else happens until the return. -/
def Body.inside : Body S X R → Prop
  | .ask k => ∀ x, (k x).inside
  | .act _ k => ∀ s, (k s).inside
  | .unlock (.ret _) => True
  | _ => False

/-- A method that takes the mutex once, before it uses any field, and releases it when it is done with them. -/
def Body.guarded : Body S X R → Prop
  | .ask k => ∀ x, (k x).guarded
  | .lock k => k.inside
  | _ => False

end GoMetrics
