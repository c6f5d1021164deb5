import Verif.Model.World

/-! Model of /repo/registry.go and of the `GetOrRegisterX`, `NewRegisteredX` functions: registry calls one at a time. -/

namespace GoMetrics
open GoFloat

/-- Values of interface type `Registry`: `*StandardRegistry` (registry.go:55-58; its map is `World.regs id`), `*PrefixedRegistry`
(registry.go:247-250), or an implementation outside the package. -/
inductive Reg where
  | std (id : Nat)
  | prefixed (underlying : Reg) (pre : Str)
  | foreign
  deriving DecidableEq

/-- `DefaultRegistry` (registry.go:333). -/
def defaultRegistry : Reg := .std 0

/-- registry.go:252-257 `NewPrefixedRegistry` (`id` is a fresh registry), 259-264 `NewPrefixedChildRegistry`. -/
def newPrefixedRegistry (id : Nat) (pre : Str) : Reg := .prefixed (.std id) pre
def newPrefixedChildRegistry (parent : Reg) (pre : Str) : Reg := .prefixed parent pre

/-- What can be passed to `Register` and `GetOrRegister`: an object; a function without arguments and with one result that
constructs a metric; such a function returning something that is no metric; a function that `reflect.Value.Call` cannot call this way
(or whose body panics); anything else. -/
inductive Val (F : Type) where
  | obj (r : Ref)
  | ctor (c : NewOp F)
  | otherFn
  | badFn
  | other

/-- The kinds accepted by the type switch of registry.go:209-212. (The seven interfaces exclude each other: every
implementation of one lacks a method of each other one, or has a different result type for `Snapshot`.) -/
def Obj.isMetric {F : Type} : Obj F → Bool
  | .counter _ | .gauge _ | .gaugeF _ | .health _ | .hist _ | .meter _ | .timer _ => true
  | .sample _ | .ewma _ => false

/-- Looking up a name in a map: `r.metrics[name]` (registry.go:78, 88, 97, 206, 235). -/
def lookup (m : List (Str × Ref)) (name : Str) : Option Ref := (m.find? (·.1 == name)).map (·.2)

/-- What a registry call returns: `Get` gives nil or a metric; `Register` gives nil or a `DuplicateMetric` error carrying the name;
`GetOrRegister` gives a metric or the non-metric it was passed. -/
inductive RegOut (F : Type) where
  | unit
  | nil
  | metric (r : Ref)
  | duplicate (name : Str)
  | given (v : Val F)
  | foreign

variable {F : Type} [GoFloat F] [GoSqrt F] [GoExp F]

/-- Reading and replacing the field `metrics` of a standard registry (registry.go:56). -/
def getReg (id : Nat) : Act F (List (Str × Ref)) := fun w => (w, .ok (w.regs id))
def setReg (id : Nat) (m : List (Str × Ref)) : Act F Unit := fun w => ({ w with regs := Function.update w.regs id m }, .ok ())

/-- registry.go:205-214 `register`. -/
def register (id : Nat) (name : Str) (v : Val F) : Act F (RegOut F) := do
  let m ← getReg id
  match lookup m name with
  | some _ => return .duplicate name
  | none =>
    match v with
    | .obj r =>
      match ← getObj r with
      | some o => if o.isMetric then setReg id ((name, r) :: m)
      | none => return .nil
      return .nil
    | _ => return .nil

/-- registry.go:85-105 `GetOrRegister`. -/
def getOrRegister (env : Env F) (id : Nat) (name : Str) (v : Val F) : Act F (RegOut F) := do
  let m ← getReg id
  match lookup m name with
  | some r => return .metric r
  | none =>
    match v with
    | .ctor c =>
      let r ← construct env c
      let _ ← register id name (.obj r)
      return .metric r
    | .otherFn => return .given .other
    | .badFn => Act.fail (.user 0)
    | .obj r =>
      let _ ← register id name (.obj r)
      return .metric r
    | .other => return .given .other

/-- registry.go:243-245 `type Stoppable interface { Stop() }`: implemented by meters and timers. -/
def Obj.stoppable {F : Type} : Obj F → Bool
  | .meter _ | .timer _ => true
  | _ => false

/-- registry.go:234-240 `stop`. -/
def stopNamed (env : Env F) (id : Nat) (name : Str) : Act F Unit := do
  match lookup (← getReg id) name with
  | none => return ()
  | some r =>
    match ← getObj r with
    | some o => if o.stoppable then let _ ← call env r .stop
    | none => return ()

/-- `delete(r.metrics, name)` (registry.go:192, 201). -/
def deleteName (id : Nat) (name : Str) : Act F Unit := do
  setReg id ((← getReg id).filter (·.1 != name))

/-- registry.go:188-193 `Unregister`. -/
def unregister (env : Env F) (id : Nat) (name : Str) : Act F Unit := do
  stopNamed env id name
  deleteName id name

/-- registry.go:196-203 `UnregisterAll`: the map is visited in some order. -/
def unregisterAll (env : Env F) (id : Nat) : Act F Unit := do
  let m ← getReg id
  runAll (unregister env id) (env.order (m.map (·.1)))

/-- registry.go:116-124 `RunHealthchecks`. -/
def runHealthchecks (env : Env F) (id : Nat) : Act F Unit := do
  let m ← getReg id
  runAll (fun e => do
    match ← getObj e.2 with
    | some (.health _) => let _ ← call env e.2 .check
    | _ => return ()) (env.order m)

/-- registry.go:282-290 `findPrefix`: the standard registry below and the concatenated prefix; nil for a foreign registry. -/
def findPrefix : Reg → Str → Option (Nat × Str)
  | .prefixed u p, pre => findPrefix u (p ++ pre)
  | .std id, pre => some (id, pre)
  | .foreign, _ => none

/-- The entries that `Each` passes to its callback, in order: registry.go:66-72, 221-232 (a copy of the map is made first) and
registry.go:267-280 for prefixed registries (`strings.HasPrefix` with the full prefix; nil registry for a foreign underlying one: panic).
`none`: the call goes to user code. -/
def eachList (env : Env F) : Reg → Act F (Option (List (Str × Ref)))
  | .std id => do return some (env.order (← getReg id))
  | .prefixed u p => do
    match findPrefix (.prefixed u p) [] with
    | none => Act.fail .nilDeref
    | some (id, pre) => return some ((env.order (← getReg id)).filter fun e => pre.isPrefixOf e.1)
  | .foreign => return none

/-- A user function called with a name and a metric: it may do anything to the metrics and to the user's own state `U`, and returns or panics. -/
abbrev Callback (F U : Type) := Str → Ref → World F × U → (World F × U) × Option Panic

/-- The loops of registry.go:68-71 and 269-276: the callback is called for one entry after the other; a panic ends the loop. -/
def visit {U : Type} (f : Callback F U) : List (Str × Ref) → World F × U → (World F × U) × Res Unit
  | [], x => (x, .ok ())
  | e :: l, x =>
    match f e.1 e.2 x with
    | (x', some p) => (x', .error p)
    | (x', none) => visit f l x'

/-- registry.go:66-72, 267-280: `Each(f)`. -/
def each {U : Type} (env : Env F) (g : Reg) (f : Callback F U) (x : World F × U) : (World F × U) × Res Unit :=
  match eachList env g x.1 with
  | (w, .error p) => ((w, x.2), .error p)
  | (w, .ok none) => ((w, x.2), .ok ())
  | (w, .ok (some l)) => visit f l (w, x.2)

/-- The calls of interface `Registry`, except `Each` and `GetAll`. -/
inductive RegOp (F : Type) where
  | get (name : Str)
  | getOrRegister (name : Str) (v : Val F)
  | register (name : Str) (v : Val F)
  | unregister (name : Str)
  | unregisterAll
  | runHealthchecks

/-- Dispatch on the registry value: registry.go:75-124, 188-203 for standard registries, 293-331 for prefixed ones. -/
def regCall (env : Env F) : Reg → RegOp F → Act F (RegOut F)
  | .std id, .get name => do
    match lookup (← getReg id) name with
    | some r => return .metric r
    | none => return .nil
  | .std id, .getOrRegister name v => getOrRegister env id name v
  | .std id, .register name v => register id name v
  | .std id, .unregister name => do unregister env id name; return .unit
  | .std id, .unregisterAll => do unregisterAll env id; return .unit
  | .std id, .runHealthchecks => do runHealthchecks env id; return .unit
  | .prefixed u p, .get name => regCall env u (.get (p ++ name))
  | .prefixed u p, .getOrRegister name v => regCall env u (.getOrRegister (p ++ name) v)
  | .prefixed u p, .register name v => regCall env u (.register (p ++ name) v)
  | .prefixed u p, .unregister name => regCall env u (.unregister (p ++ name))
  | .prefixed u _, .unregisterAll => regCall env u .unregisterAll
  | .prefixed u _, .runHealthchecks => regCall env u .runHealthchecks
  | .foreign, _ => return .foreign

/-- registry.go:359-363 `MustRegister`. -/
def mustRegister (env : Env F) (name : Str) (v : Val F) : Act F Unit := do
  match ← regCall env defaultRegistry (.register name v) with
  | .duplicate n => Act.fail (.duplicate n)
  | _ => return ()

/-- Everything a program does, one call at a time. -/
inductive Op (F : Type) where
  | setNil (b : Bool)
  | new (c : NewOp F)
  | call (r : Ref) (c : Call F)
  | slice (o : SliceOp)
  | tick
  | reg (g : Reg) (o : RegOp F)

/-- The result of an operation. -/
inductive OpOut (F : Type) where
  | out (o : Out F)
  | reg (o : RegOut F)

def step (env : Env F) : Op F → Act F (OpOut F)
  | .setNil b => fun w => ({ w with useNil := b }, .ok (.out .unit))
  | .new c => do return .out (.ref (← construct env c))
  | .call r c => do return .out (← call env r c)
  | .slice o => do return .out (← sliceOp o)
  | .tick => do tickMeters env; return .out .unit
  | .reg g o => do return .reg (← regCall env g o)

/-- A history: calls with what the environment supplied. A call that panics is over; the program goes on (with `recover`). -/
def World.run (w : World F) : List (Env F × Op F) → World F
  | [] => w
  | (env, o) :: h => (step env o w).1.run h

end GoMetrics
