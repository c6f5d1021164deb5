import Verif.Model.RegistryConc

/-!
Goroutines that use metrics by name, the way most programs do: `GetOrRegisterCounter(name, r).Inc(1)`, `GetOrRegisterTimer(name, r).Update(d)`, … (counter.go:16-21, gauge.go:14-21,
histogram.go:24-29, timer.go:27-34, …), one registry, any number of goroutines, any number of names. Every step of `GetOrRegister` is a step here (Model/RegistryConc).

The metrics are of an arbitrary type `A` (the sum of all kinds, if one likes); they are in cells numbered by `Nat`, and the registry maps names to numbers.
Simplifications: the method is one step, `eff` (what the methods of counters, gauges, samples, meters do step by step is in Model/AtomicConc, SampleConc, TimerConc, where it is proved that they
look as if they were one step); the type assertion after `GetOrRegister` succeeds; constructors make cells in the state `init` and do not panic (`UseNilMetrics` is off).
-/

namespace GoMetrics

/-- The shared state: the registry, the metrics made so far, the number of the next one. -/
structure UseS (A : Type) where
  reg : RegS Nat
  cells : Nat → A
  next : Nat

/-- Where a goroutine is. -/
inductive UseFrame (D R : Type) where
  | idle
  /-- inside `GetOrRegister` -/
  | getting (name : Str) (d : D) (f : Frame Nat)
  /-- it has got the metric `v` -/
  | got (name : Str) (v : Nat) (d : D)
  | ret (name : Str) (d : D) (r : R)
  /-- inside some other call of a method of the registry -/
  | other (f : Frame Nat)

/-- What the environment decides. -/
inductive UseIn (D : Type) where
  | use (name : Str) (d : D)
  | other (o : ROp Nat)
  | reg (i : RIn Nat)
  | step

/-- Events: using a metric by name; events of the registry. -/
inductive UseEv (D R : Type) where
  | use (e : CEv (Str × D) R)
  | reg (e : REv Nat)

variable {A D R : Type}

/-- A step inside a method of the registry; a constructor makes a new metric (counter.go:24-29 and the like). -/
def regPart (K : Kinds Nat) (init : A) (t : Nat) (i : RIn Nat) (s : UseS A) (f : Frame Nat) : Option (UseS A × Frame Nat × List (REv Nat)) :=
  match i with
  | .call _ => none
  | .returns v =>
    if v = s.next then
      (regStep K t i s.reg f).map fun x => (⟨x.1, Function.update s.cells v init, s.next + 1⟩, x.2.1, x.2.2)
    else none
  | i => (regStep K t i s.reg f).map fun x => (⟨x.1, s.cells, s.next⟩, x.2.1, x.2.2)

/-- The method is about to return. -/
def Frame.returning : Frame Nat → Bool
  | .ret _ _ => true
  | _ => false

def useStep (K : Kinds Nat) (init : A) (eff : A → D → A × R) (t : Nat) : UseIn D → UseS A → UseFrame D R → Option (UseS A × UseFrame D R × List (UseEv D R))
  -- counter.go:16-20: `r.GetOrRegister(name, NewCounter)`
  | .use name d, s, .idle => some (s, .getting name d (startFrame (.getOrRegister name .fn)), [.use (.inv t (name, d)), .reg (.call (.inv t (.getOrRegister name .fn)))])
  | .step, s, .getting name d (.ret o (.value (some v))) => some (s, .got name v d, [.reg (.call (.ret t o (.value (some v))))])
  | .reg i, s, .getting name d f => if f.returning then none else (regPart K init t i s f).map fun x => (x.1, .getting name d x.2.1, x.2.2.map .reg)
  -- the method of the metric
  | .step, s, .got name v d => some ({ s with cells := Function.update s.cells v (eff (s.cells v) d).1 }, .ret name d (eff (s.cells v) d).2, [.use (.lin t (name, d) (eff (s.cells v) d).2)])
  | .step, s, .ret name d r => some (s, .idle, [.use (.ret t (name, d) r)])
  -- other calls of methods of the registry
  | .other o, s, .idle => some (s, .other (startFrame o), [.reg (.call (.inv t o))])
  | .step, s, .other (.ret o r) => some (s, .idle, [.reg (.call (.ret t o r))])
  | .reg i, s, .other f => if f.returning then none else (regPart K init t i s f).map fun x => (x.1, .other x.2.1, x.2.2.map .reg)
  | _, _, _ => none

def useMachine (K : Kinds Nat) (init : A) (eff : A → D → A × R) : Machine (UseS A) (UseFrame D R) (UseIn D) (UseEv D R) := ⟨useStep K init eff⟩

end GoMetrics
