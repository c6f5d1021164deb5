import Verif.Model.RegistryConc

/-! What the methods of a registry do when they are called one at a time: a partial map from names to metrics. -/

namespace GoMetrics.Spec
open GoMetrics

variable {V : Type}

/-- The entries of a map that satisfy a condition, each once. -/
def lists (m : Str → Option V) (p : V → Bool) (l : List (Str × V)) : Prop := l.Nodup ∧ ∀ name v, (name, v) ∈ l ↔ m name = some v ∧ p v = true

/-- The map with one more entry, if the value is a metric. -/
def bound (K : Kinds V) (m : Str → Option V) (name : Str) (v : V) : Str → Option V := if K.metric v then Function.update m name (some v) else m

/-- One call: map before, call, result, map after. -/
inductive RegCall (K : Kinds V) (m : Str → Option V) : ROp V → RRes V → (Str → Option V) → Prop where
  | get {name} : RegCall K m (.get name) (.value (m name)) m
  | found {name a v} : m name = some v → RegCall K m (.getOrRegister name a) (.value (some v)) m
  | given {name v} : m name = none → RegCall K m (.getOrRegister name (.val v)) (.value (some v)) (bound K m name v)
  | made {name v} : m name = none → RegCall K m (.getOrRegister name .fn) (.value (some v)) (bound K m name v)
  | panicked {name} : m name = none → RegCall K m (.getOrRegister name .fn) .panic m
  | duplicate {name v w} : m name = some w → RegCall K m (.register name v) (.dup true) m
  | registered {name v} : m name = none → RegCall K m (.register name v) (.dup false) (bound K m name v)
  | unregister {name l} : lists (fun n => if n = name then m name else none) K.stoppable l →
      RegCall K m (.unregister name) (.stopped l) (Function.update m name none)
  | unregisterAll {l} : lists m K.stoppable l → RegCall K m .unregisterAll (.stopped l) (fun _ => none)
  | each {l} : lists m (fun _ => true) l → RegCall K m .each (.visit l) m
  | runHealthchecks {l} : lists m K.health l → RegCall K m .runHealthchecks (.visit l) m

/-- The call events of a trace. -/
def calls (tr : List (REv V)) : List (CEv (ROp V) (RRes V)) := tr.filterMap fun | .call e => some e | _ => none

/-- The entries that goroutine `t` passed to callbacks of `Each`, and the lists its `Each` calls took from the map, both in order. -/
def visitsOf (t : Nat) (tr : List (REv V)) : List (Str × V) := tr.filterMap fun | .visit u name v => if u = t then some (name, v) else none | _ => none
def eachLists (t : Nat) (tr : List (REv V)) : List (List (Str × V)) :=
  tr.filterMap fun | .call (.lin u .each (.visit l)) => if u = t then some l else none | _ => none

/-- How often a lazy constructor was called for a name. -/
def ctorCalls (name : Str) (tr : List (REv V)) : Nat := (tr.filter fun | .ctor _ n => n == name | _ => false).length

/-- The call may remove a name. -/
def removes (name : Str) : ROp V → Prop
  | .unregister n => n = name
  | .unregisterAll => True
  | _ => False

/-- Nobody unregisters the name; `GetOrRegister` of it yields metrics; constructors do not panic. -/
structure Calm (K : Kinds V) (name : Str) (tr : List (REv V)) : Prop where
  stays : ∀ t o, .inv t o ∈ calls tr → ¬ removes name o
  metric : ∀ t a v, .lin t (.getOrRegister name a) (.value (some v)) ∈ calls tr → K.metric v = true
  noPanic : ∀ t a, .lin t (.getOrRegister name a) .panic ∉ calls tr

end GoMetrics.Spec
